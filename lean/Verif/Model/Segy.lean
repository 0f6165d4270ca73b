import Verif.Model.Reader
import Verif.Model.CoordManager
/-!
# SEGY files (dascore/io/segy)

A file is a list of traces, each with the time of its first sample as calendar fields down to seconds, a number of samples and an interval
in microseconds; the reader uses the header of the first trace. The calendar fields are modelled by the whole second they stand for (years
of four digits), the package segyio by storing what it is given (headers have 16 bits for the interval and the number of samples, so both
are taken to be less than 32768). `PatchError` is written `incompatiblePatch`.
-/
namespace Verif

/-- What is stored: whole seconds since 1970, microseconds, number of samples (of the first header), and the traces. -/
structure SegyFile (α : Type) where
  second : ℤ
  interval : ℤ
  count : ℕ
  traces : List (List α)

/-- A patch of two dimensions `(first, second)` with labels in nanoseconds for time. -/
structure SegyPatch (α : Type) where
  dims : String × String
  coords : Coord × Coord
  data : Sheet α

/-- `array.T`. -/
def Sheet.transpose {α} (t : Sheet α) : Sheet α := ⟨t.rows.length, (List.range t.width).map fun j => t.rows.filterMap fun r => r[j]?⟩

namespace SegyPatch
variable {α : Type}

/-- utils.py 164-179, `_get_patch_with_channel_coord`: the coordinate other than `time` becomes `arange`, named `channel`. -/
def withChannels (p : SegyPatch α) : Except Err (SegyPatch α) :=
  if p.dims.1 = "time" then do
    let c ← getCoordData .int ((List.range p.coords.2.length).map fun i : ℕ => (i : ℚ))
    return { p with dims := ("time", "channel"), coords := (p.coords.1, c) }
  else do
    let c ← getCoordData .int ((List.range p.coords.1.length).map fun i : ℕ => (i : ℚ))
    return { p with dims := ("channel", "time"), coords := (c, p.coords.2) }

/-- `patch.transpose("channel", "time")`. -/
def channelsFirst (p : SegyPatch α) : SegyPatch α :=
  if p.dims.1 = "channel" then p else ⟨("channel", "time"), (p.coords.2, p.coords.1), p.data.transpose⟩

/-- `coord.step` (`None` unless evenly sampled). -/
def stepOf : Coord → Option ℚ
  | .range r => some r.step
  | _ => none

/-- `coord.min()`, of coordinates with values. -/
def minOf (c : Coord) : Except Err ℚ :=
  match c.vals with
  | [] => .error .valueError
  | x :: r => .ok (r.foldl min x)

/-- utils.py 205-216: a step which is not a number of microseconds within three nanoseconds is refused; no step is `nan`, which is not
greater than anything. -/
def stepFits (c : Coord) : Bool :=
  match stepOf c with
  | some s => decide (|roundDec 6 (s / 1000000000) - s / 1000000000| ≤ 3 / 1000000000)
  | none => true

/-- utils.py 182-217, `_get_segy_compatible_patch`. -/
def compatible (spool : List (SegyPatch α)) : Except Err (SegyPatch α) :=
  match spool with
  | [p] =>
    let other := if p.dims.1 = "time" then p.dims.2 else p.dims.1
    if (p.dims.1 ≠ "time" ∧ p.dims.2 ≠ "time") ∨ (other ≠ "distance" ∧ other ≠ "channel") then .error .incompatiblePatch
    else do
      let p ← if other = "channel" then .ok p else p.withChannels
      let time := if p.dims.1 = "time" then p.coords.1 else p.coords.2
      if stepFits time then .ok p.channelsFirst else .error .incompatiblePatch
  | _ => .error .invalidSpool

/-- utils.py 220-238, `_make_time_header_dict` with 241-277, `_write_segy`: `astype(float32)` is `f32`. The conversion of `nan` to an integer
fails, and so does a header without a step of the channels. -/
def write (f32 : α → α) (spool : List (SegyPatch α)) : Except Err (SegyFile α) := do
  let p ← compatible spool
  let start ← minOf p.coords.2
  match stepOf p.coords.2, stepOf p.coords.1 with
  | none, _ => .error .valueError
  | some _, none => .error .typeError
  | some s, some _ => .ok ⟨⌊start / 1000000000⌋, rint (s / 1000000000 * 1000000), p.coords.2.length, p.data.rows.map fun r => r.map f32⟩

end SegyPatch

namespace SegyFile
variable {α : Type} (f : SegyFile α)

/-- utils.py 99-129, `_get_coords`, with 144-161. -/
def coords : Except Err (Coord × Coord) := do
  let dt := nanos (f.interval / 1000000)
  let t ← getCoordData .time ((List.range f.count).map fun i : ℕ => (f.second : ℚ) * 1000000000 + i * dt)
  let c ← getCoordData .int ((List.range f.traces.length).map fun i : ℕ => (i : ℚ))
  return (t, c)

/-- coordmanager.py, `coords.update(name=new)` checks nothing of the array; `select` of one coordinate. -/
def pick (kind : Kind) (c : Coord) (limits : Option (Option ℚ × Option ℚ)) : Except Err (Coord × Indexer) :=
  match limits with
  | none => .ok (c, .slice {})
  | some (a, b) => c.query (fun _ => []) kind (.between a b)

/-- `np.stack(traces, axis=-1)`: at least one trace, all of one length. -/
def stack (l : List (List α)) : Except Err (Sheet α) :=
  match l with
  | [] => .error .valueError
  | x :: r => if r.all fun y => y.length = x.length then .ok (Sheet.transpose ⟨x.length, x :: r⟩) else .error .valueError

/-- core.py 34-54 with utils.py 70-96, `_get_filtered_data_and_coords`. -/
def read (time channel : Option (Option ℚ × Option ℚ)) : Except Err (Option (Recording α)) := do
  let (tc, cc) ← f.coords
  let (t, ti) ← pick .time tc time
  let (c, ci) ← pick .int cc channel
  let traces ← ci.apply f.traces
  let cut ← traces.mapM ti.apply
  let d ← stack cut
  if d.size = 0 then return none
  else do
    let r ← Recording.new t c d
    return some r

end SegyFile
end Verif
