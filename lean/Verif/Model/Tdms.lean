import Verif.Model.Reader
/-!
# TDMS files (dascore/io/tdms/utils.py, core.py)

Samples are 16-bit integers or 32-bit floats. A file has segments; within a segment the samples are stored in chunks (all samples of
the first channel of the chunk, then of the second, ...), or interleaved. Positions are counted in samples here, not in bytes.
-/
namespace Verif

/-- The raw data of a segment: how many values lie between `raw_data_offset` and `next_segment_offset`, and the values from
`raw_data_offset` on (the mapped file). -/
structure RawSegment (α : Type) where
  size : ℕ
  elem : ℕ → α

/-- What the reader uses of a file (utils.py 166-235): the segments in order, the number of channels, the size of chunks, whether the
interleaved bit is set, the size of a value and the number of bytes of the file after `raw_data_offset` which are no raw data (headers
of later segments), and the properties it needs: sampling frequency, time stamp (in nanoseconds), fibre length multiplier, measured
length, start position, spatial resolution. -/
structure TdmsFile (α : Type) where
  segments : List (RawSegment α)
  nch : ℕ
  chunk : ℕ
  interleaved : Bool
  itemsize : ℕ
  otherBytes : ℕ
  frequency : ℚ
  stamp : ℚ
  multiplier : ℚ
  measured : ℚ
  startPos : ℚ
  resolution : ℚ

/-- `np.reshape(a, (n, m))` of an array of shape `(d1, d2, d3)`, in C order: the element at `(j, c)`. -/
def reshape3 {α} (a : ℕ → ℕ → ℕ → α) (d2 d3 m j c : ℕ) : α :=
  a ((j * m + c) / (d2 * d3)) ((j * m + c) / d3 % d2) ((j * m + c) % d3)

namespace TdmsFile
variable {α : Type} (f : TdmsFile α)

/-- utils.py 249: `seg_length`, the number of samples of each channel. -/
def segLength (s : RawSegment α) : ℕ := s.size / f.nch

/-- utils.py 252-258: the number of full chunks (none if interleaved). -/
def fullChunks (s : RawSegment α) : ℕ := if f.interleaved then 0 else f.segLength s / f.chunk

/-- utils.py 260-268: full chunks. The values are seen as an array (chunk, channel, sample), the last axis is rolled to the front and
the result is reshaped to rows of channels. -/
def chunkRows (s : RawSegment α) : List (List α) :=
  let raw : ℕ → ℕ → ℕ → α := fun k c i => s.elem ((k * f.nch + c) * f.chunk + i)
  let rolled : ℕ → ℕ → ℕ → α := fun i k c => raw k c i
  (List.range (f.fullChunks s * f.chunk)).map fun j : ℕ => (List.range f.nch).map fun c : ℕ => reshape3 rolled (f.fullChunks s) f.nch f.nch j c

/-- utils.py 270-290: what is left after the full chunks; `order` "F" for interleaved files. -/
def lastRows (s : RawSegment α) : List (List α) :=
  let n := f.segLength s - f.fullChunks s * f.chunk
  let offset := f.fullChunks s * f.nch * f.chunk
  (List.range n).map fun i : ℕ => (List.range f.nch).map fun c : ℕ => s.elem (offset + if f.interleaved then c + i * f.nch else c * n + i)

/-- utils.py 246-292, `get_segment_data`. Nothing is returned if the full chunks are all there is (the `return` is inside the `if`), and
the caller fails to unpack it. -/
def segmentData (s : RawSegment α) : Except Err (List (List α)) :=
  if f.nch = 0 ∨ f.chunk = 0 then .error .zeroDivision
  else if f.fullChunks s * f.chunk = f.segLength s then .error .typeError
  else .ok (f.chunkRows s ++ f.lastRows s)

/-- `np.append(a, b, axis=1)`. -/
def besides (a b : List (List α)) : Except Err (List (List α)) :=
  if a.length = b.length then .ok (List.zipWith (· ++ ·) a b) else .error .valueError

/-- utils.py 309-325: the segments one after another. -/
def joinSegments : List (List α) → List (RawSegment α) → Except Err (List (List α))
  | rows, [] => .ok rows
  | rows, s :: rest => do
    let next ← f.segmentData s
    let rows' ← besides rows next
    joinSegments rows' rest

/-- utils.py 238-327, `_get_data`: the array, with the number of its columns. -/
def data : Except Err (Sheet α) :=
  match f.segments with
  | [] => .error .assertionError
  | s :: rest => do
    let first ← f.segmentData s
    let rows ← f.joinSegments first rest
    .ok ⟨f.nch * f.segments.length, rows⟩

/-- utils.py 220-226: the number of samples of the file (a float). -/
def sampleCount : ℚ := ((f.segments.map (·.size)).sum * f.itemsize + f.otherBytes : ℕ) / f.nch / f.itemsize

/-- utils.py 113-122, `_get_time_coord`. `timedelta64 * float` drops the fraction of a nanosecond. -/
def timeCoord : Except Err RangeCoord :=
  if f.frequency = 0 then .error .zeroDivision
  else
    let dt := nanos (1 / f.frequency)
    mkRange f.stamp (f.stamp + truncZ (dt * (f.sampleCount - 1)) + dt) dt

/-- utils.py 155-168, `_get_distance_coord`. -/
def distanceCoord : Except Err RangeCoord :=
  mkRange f.startPos (f.startPos + f.measured * f.multiplier) (f.resolution * f.multiplier)

/-- tdms/core.py 50-68, `read`. -/
def read (time distance : Option (Option ℚ × Option ℚ)) : Except Err (Option (Recording α)) := do
  let dc ← f.distanceCoord
  let tc ← f.timeCoord
  let d ← f.data
  readPart tc dc d time distance

end TdmsFile
end Verif
