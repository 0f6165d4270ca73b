import Verif.Model.CoordRange
/-!
# What the readers of files return

A file of a two-dimensional recording is read into a patch with a coordinate `time` and a coordinate of channels. The readers of
dascore/io build both from numbers in the header and cut the stored array with slices. Arrays are lists of rows here.
-/
namespace Verif

/-- A two-dimensional array: its rows, and the length of each (`shape[1]`, which an array without rows has as well). -/
structure Sheet (α : Type) where
  width : ℕ
  rows : List (List α)

/-- `array.size`. -/
def Sheet.size {α} (t : Sheet α) : ℕ := t.rows.length * t.width

/-- A patch with the dimensions `time` and `distance` (attributes are left out). -/
structure Recording (α : Type) where
  times : Coord
  distances : Coord
  rows : List (List α)

/-- core/patch.py, `Patch(data=, coords=)`: the shape of the array has to be that of the coordinates. -/
def Recording.new {α} (times distances : Coord) (t : Sheet α) : Except Err (Recording α) :=
  if times.length = t.rows.length ∧ distances.length = t.width then .ok ⟨times, distances, t.rows⟩ else .error .coordError

/-- Basic slicing of an axis. No reader makes a slice with step zero, the only one that fails. -/
def cutList {α} (s : PySlice) (l : List α) : List α :=
  match pySlice l s with
  | .ok r => r
  | .error _ => []

/-- `len(range(n)[s])`, the length of a sliced axis. -/
def cutLength (s : PySlice) (n : ℕ) : ℕ := (cutList s (List.range n)).length

/-- The first `n` pieces of length `k` of a list. -/
def chunksOf {α} (k : ℕ) : ℕ → List α → List (List α)
  | 0, _ => []
  | n + 1, l => l.take k :: chunksOf k n (l.drop k)

/-- `array.reshape(-1, k)`: refused if the size is no multiple of `k`, or `k` is zero. -/
def reshapeRows {α} (k : ℕ) (l : List α) : Except Err (Sheet α) :=
  if k = 0 ∨ l.length % k ≠ 0 then .error .valueError else .ok ⟨k, chunksOf k (l.length / k) l⟩

/-- coordmanager.py 648-658, `select` of both coordinates of an array; `None` for one of them selects everything. -/
def selectPart {α} (tc dc : RangeCoord) (d : Sheet α) (time distance : Option (Option ℚ × Option ℚ)) : Except Err (Coord × Coord × Sheet α) := do
  let (t, ts) ← tc.select (time.getD (none, none))
  let (x, xs) ← dc.select (distance.getD (none, none))
  .ok (t, x, ⟨cutLength xs d.width, (cutList ts d.rows).map (cutList xs)⟩)

/-- What several readers do with the coordinates and the array of a file (tdms/core.py 58-68, sintela_binary/utils.py 236-243): select
if there are limits, and make a patch unless nothing is left. -/
def readPart {α} (tc dc : RangeCoord) (d : Sheet α) (time distance : Option (Option ℚ × Option ℚ)) : Except Err (Option (Recording α)) := do
  let (t, x, d) ← if time.isSome ∨ distance.isSome then selectPart tc dc d time distance else .ok (.range tc, .range dc, d)
  if d.size = 0 then return none
  else do
    let r ← Recording.new t x d
    return some r

/-- `to_datetime64`, `to_timedelta64` of seconds (utils/time.py 24-26), without the rounding of the product to float64. -/
def nanos (seconds : ℚ) : ℚ := rint (seconds * 1000000000)

end Verif
