import Verif.Model.CoordRange
/-!
# SR-4731 files (`/repo/dascore/io/sr4731/utils.py`)

A file is the list of its bytes (numbers below 256). Positions in it are represented by what follows them. Names of blocks are kept as bytes (the code decodes them, replacing bytes which are not
ASCII). The fields of text, attributes, and selection are left out; numbers are exact.
-/
namespace Verif

/-- utils.py 77-85, `_c_string`: the text up to the next zero, and what follows. -/
def cString (l : List ℕ) : Except Err (List ℕ × List ℕ) :=
  match l.dropWhile (· ≠ 0) with
  | [] => .error .invalidFileFormat
  | _ :: rest => .ok (l.takeWhile (· ≠ 0), rest)

/-- utils.py 88-94, `_unpack_from("<H", ...)`. -/
def u16 : List ℕ → Except Err (ℕ × List ℕ)
  | a :: b :: rest => .ok (a + 256 * b, rest)
  | _ => .error .invalidFileFormat

/-- utils.py 88-94, `_unpack_from("<I", ...)`. -/
def u32 : List ℕ → Except Err (ℕ × List ℕ)
  | a :: b :: c :: d :: rest => .ok (a + 256 * b + 65536 * c + 16777216 * d, rest)
  | _ => .error .invalidFileFormat

/-- An entry of the map: name, version and size. -/
structure SorEntry where
  name : List ℕ
  version : ℕ
  size : ℕ
  deriving DecidableEq, Repr

/-- utils.py 112-117: the entries after the first. -/
def sorEntries : ℕ → List ℕ → Except Err (List SorEntry)
  | 0, _ => .ok []
  | n + 1, l => do
    let s ← cString l
    let v ← u16 s.2
    let z ← u32 v.2
    let es ← sorEntries n z.2
    .ok (⟨s.1, v.1, z.1⟩ :: es)

/-- "Map". -/
def mapName : List ℕ := [77, 97, 112]

/-- utils.py 99-117: all entries. -/
def sorMap (data : List ℕ) : Except Err (List SorEntry) := do
  let s ← cString data
  if s.1 ≠ mapName then .error .invalidFileFormat
  else do
    let v ← u16 s.2
    let z ← u32 v.2
    let c ← u16 z.2
    if c.1 < 2 then .error .invalidFileFormat
    else do
      let es ← sorEntries (c.1 - 1) c.2
      .ok (⟨mapName, v.1, z.1⟩ :: es)

/-- utils.py 46-53, `Block`. -/
structure SorPlace where
  name : List ℕ
  version : ℕ
  size : ℕ
  offset : ℕ
  deriving DecidableEq, Repr

/-- utils.py 119-131: where the blocks are, one after the other. -/
def sorPlaces (total : ℕ) : ℕ → List SorEntry → Except Err (List SorPlace)
  | _, [] => .ok []
  | offset, e :: es =>
    if e.size = 0 then .error .invalidFileFormat
    else if total < offset + e.size then .error .invalidFileFormat
    else (sorPlaces total (offset + e.size) es).map fun ps => ⟨e.name, e.version, e.size, offset⟩ :: ps

/-- utils.py 97-131, `_parse_blocks`. -/
def sorBlocks (data : List ℕ) : Except Err (List SorPlace) := (sorMap data).bind fun es => sorPlaces data.length 0 es

/-- `blocks[name]`: of blocks with the same name the last one is kept. A missing block is refused (238-240). -/
def sorBlock (ps : List SorPlace) (name : List ℕ) : Except Err SorPlace :=
  match ps.reverse.find? fun p => p.name = name with
  | some p => .ok p
  | none => .error .invalidFileFormat

/-- utils.py 134-138, `_block_payload`. -/
def sorPayload (data : List ℕ) (p : SorPlace) : Except Err (List ℕ) := (cString ((data.drop p.offset).take p.size)).map Prod.snd

/-- utils.py 149-181: instant, spacing in m, and number of samples. -/
structure SorFixed where
  stamp : ℕ
  step : ℚ
  count : ℕ

/-- utils.py 149-181, `_parse_fixed_params`. -/
def sorFixed (l : List ℕ) : Except Err SorFixed := do
  let stamp ← u32 l
  let _ ← u16 (l.drop 6)
  let spacing ← u32 (l.drop 20)
  let n ← u32 (l.drop 24)
  let index ← u32 (l.drop 28)
  let _ ← u32 (l.drop 40)
  if spacing.1 = 0 ∨ index.1 = 0 then .error .invalidFileFormat
  else .ok ⟨stamp.1, (spacing.1 / 100000000) * (299792458 / 1000000000) / (index.1 / 100000) * 1000, n.1⟩

/-- `np.frombuffer(..., dtype="<u2")`. -/
def words : ℕ → List ℕ → List ℕ
  | n + 1, a :: b :: l => (a + 256 * b) :: words n l
  | _, _ => []

/-- utils.py 184-219, `_parse_data_points`: the samples. -/
def sorSamples (l : List ℕ) : Except Err (List ℚ) := do
  let total ← u32 l
  let traces ← u16 (l.drop 4)
  let n ← u32 (l.drop 6)
  let scale ← u16 (l.drop 10)
  if n.1 = 0 then .error .invalidFileFormat
  else if scale.1 = 0 then .error .invalidFileFormat
  else if traces.1 ≠ 1 ∨ total.1 ≠ n.1 then .error .invalidFileFormat
  else if l.length < 12 + n.1 * 2 then .error .invalidFileFormat
  else
    let raw := words n.1 (l.drop 12)
    .ok (raw.map fun r : ℕ => ((raw.foldl max 0 : ℕ) - (r : ℚ)) * scale.1 / 1000000)

/-- The blocks which must be there: "GenParams", "SupParams", "FxdParams", "DataPts", "Cksum". -/
def genName : List ℕ := [71, 101, 110, 80, 97, 114, 97, 109, 115]
def supName : List ℕ := [83, 117, 112, 80, 97, 114, 97, 109, 115]
def fxdName : List ℕ := [70, 120, 100, 80, 97, 114, 97, 109, 115]
def ptsName : List ℕ := [68, 97, 116, 97, 80, 116, 115]
def sumName : List ℕ := [67, 107, 115, 117, 109]

/-- What is read: the instant in seconds, the distances, and the samples. -/
structure SorTrace where
  stamp : ℕ
  distance : RangeCoord
  samples : List ℚ

/-- utils.py 234-254 and 264-270, `_parse_sor` and `_get_distance_coord`. -/
def sorRead (data : List ℕ) : Except Err SorTrace := do
  let ps ← sorBlocks data
  let _ ← sorBlock ps sumName
  let fb ← sorBlock ps fxdName
  let db ← sorBlock ps ptsName
  let sb ← sorBlock ps supName
  let gb ← sorBlock ps genName
  let fixed ← (sorPayload data fb).bind sorFixed
  let samples ← (sorPayload data db).bind sorSamples
  if fixed.count ≠ samples.length then .error .invalidFileFormat
  else do
    let _ ← sorPayload data sb
    let _ ← sorPayload data gb
    let d ← mkRange 0 (fixed.step * fixed.count) fixed.step
    .ok ⟨fixed.stamp, d, samples⟩

end Verif
