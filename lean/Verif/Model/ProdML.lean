import Verif.Model.Labelled
/-!
# ProdML files (dascore/io/prodml)

A file has any number of recordings of the same acquisition: raw data, and bands extracted from them ("fbe"). Attributes other than those needed for
the coordinates are left out.
-/
namespace Verif

/-- An ISO 8601 string: what the clock shows (in nanoseconds, as if it were UTC) and by how much its zone is ahead of UTC. -/
structure ClockTime where
  clock : ℚ
  ahead : ℚ

/-- utils.py 135-138: `to_datetime64(string.split("+")[0].rstrip("Z"))`. A zone ahead of UTC is cut off; numpy applies one which is behind. -/
def ClockTime.stamp (t : ClockTime) : ℚ := if 0 < t.ahead then t.clock else t.clock - t.ahead

/-- A recording: the attributes `PartStartTime` and `PartEndTime`, the array of times in microseconds, the words of the attribute `Dimensions` and the data. -/
structure ProdNode (α : Type) where
  start : ClockTime
  stop : ClockTime
  stamps : List ℚ
  words : List String
  data : Nd α

/-- utils.py 292-297, the dictionary in `_get_dims_from_attrs`. -/
def prodDim (w : String) : String :=
  if w = "locus" ∨ w = "Locus" ∨ w = "Distance" then "distance" else if w = "Time" then "time" else w

namespace ProdNode
variable {α : Type} (t : ProdNode α)

/-- utils.py 139: a duration divided by an integer is cut to nanoseconds. -/
def step : ℚ := truncZ ((t.stop.stamp - t.start.stamp) / ((t.stamps.length : ℚ) - 1))

/-- `astype("datetime64[us]")`, in nanoseconds. -/
def micros (x : ℚ) : ℚ := ⌊x / 1000⌋ * 1000

/-- utils.py 143-145. Dividing by a step of zero gives no number between 0 and 10 in numpy either. -/
def diff (c : RangeCoord) : ℚ := absQ ((micros c.cmax - t.stamps.getLastD 0 * 1000) / t.step)

/-- utils.py 150-152: the array of times, or what was made of the attributes. -/
def corrected (c : RangeCoord) : Except Err MCoord :=
  if 0 < t.diff c ∧ t.diff c < 10 then (getCoordData .time (t.stamps.map fun x => x * 1000)).map (.one .time) else .ok (.one .time (.range c))

/-- utils.py 124-153, `_get_time_coord`. With one sample the step is not a time, which no coordinate accepts. -/
def timeCoord : Except Err MCoord :=
  if t.stamps.length = 0 then .error .assertionError
  else if t.stamps.length = 1 then .error .valueError
  else (mkRange t.start.stamp (t.stop.stamp + t.step) t.step).bind t.corrected

end ProdNode

/-- The attributes `StartLocusIndex`, `NumberOfLoci` and `SpatialSamplingInterval`, the bands (each with its own first two of these) and the raw data. A raw
node without data is `none`. -/
structure ProdFile (α : Type) where
  first : ℤ
  count : ℕ
  interval : ℚ
  bands : List ((ℤ × ℕ) × ProdNode α)
  raws : List (Option (ProdNode α))

namespace ProdFile
variable {α : Type} (f : ProdFile α)

/-- utils.py 103-121, `_get_distance_coord`. -/
def distanceCoord : Except Err RangeCoord := mkRange (f.first * f.interval) (f.first * f.interval + f.count * f.interval) f.interval

/-- utils.py 233-238: `d_coord[ind_1 : ind_1 + count]` for a band. -/
def partOf (d : RangeCoord) : Option (ℤ × ℕ) → Except Err Coord
  | none => .ok (.range d)
  | some b => d.getSlice ⟨some b.1, some (b.1 + b.2), none⟩

/-- utils.py 310-320: one recording; `dims` with 283-301. -/
def readNode (argsort : List ℚ → List ℕ) (d : RangeCoord) (time distance : Option (Option ℚ × Option ℚ)) (n : Option (ℤ × ℕ) × ProdNode α) :
    Except Err (Option (PatchM α)) := do
  let t ← n.2.timeCoord
  let x ← partOf d n.1
  readLabelled argsort [("time", t), ("distance", .one .float x)] (n.2.words.map prodDim) n.2.data (bothOf time distance)

/-- utils.py 156-198, `_yield_data_nodes`: bands first. -/
def nodes : List (Option (ℤ × ℕ) × ProdNode α) :=
  (f.bands.map fun b : (ℤ × ℕ) × ProdNode α => (some b.1, b.2)) ++ f.raws.filterMap fun r => r.map fun n => (none, n)

/-- utils.py 304-321, `_read_prodml`. -/
def read (argsort : List ℚ → List ℕ) (time distance : Option (Option ℚ × Option ℚ)) : Except Err (List (PatchM α)) := do
  let d ← f.distanceCoord
  let l ← f.nodes.mapM (readNode argsort d time distance)
  return l.filterMap id

end ProdFile
end Verif
