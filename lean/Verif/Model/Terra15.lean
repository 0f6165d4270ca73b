import Verif.Model.Reader
import Verif.Model.CoordManager
/-!
# Terra15 files (dascore/io/terra15)

A file has a table of samples, a time in seconds for each row and a description of the channels. Recording stops in the middle of a
block of rows, so the last rows of a file may be unfilled; their time is zero. Products and sums of float64 are exact here.
-/
namespace Verif

/-- What the reader uses of a file: the times (of the GPS, or of the computer if there are none: 36-43, `_get_time_node`), the table, and
the attributes `sensing_range_start`, `dx` and `nx`. -/
structure TerraFile (α : Type) where
  times : List ℚ
  data : Sheet α
  rangeStart : ℚ
  dx : ℚ
  nx : ℕ

namespace TerraFile
variable {α : Type} (f : TerraFile α)

/-- utils.py 50-60: the times taken into account. Only if the last time is before the first the unfilled rows are looked for. -/
def usedTimes : List ℚ :=
  if f.times.headD 0 > f.times.getLastD 0 then f.times.filter fun t => decide (0 < t) else f.times

/-- utils.py 46-67, `_get_scanned_time_info`: start, end, number of samples, step. No row is an IndexError; with one row numpy divides
zero by zero, and the step is no time (modelled as an error). -/
def timeInfo : Except Err (ℚ × ℚ × ℕ × ℚ) :=
  if f.usedTimes = [] then .error .indexError
  else if f.usedTimes.length = 1 then .error .zeroDivision
  else
    let n := f.usedTimes.length
    let tmin := f.usedTimes.headD 0
    let tmax := f.usedTimes.getLastD 0
    let step := nanos ((tmax - tmin) / (n - 1))
    .ok (nanos tmin, nanos tmin + step * (n - 1), n, step)

/-- utils.py 178-186, `_get_time_coord`, with 98-101, `_get_raw_time_coord`. -/
def timeCoord (snap : Bool) : Except Err Coord := do
  let (tmin, tmax, _, step) ← f.timeInfo
  if snap then (mkRange tmin (tmax + step) step).map .range else getCoordData .time (f.times.map nanos)

/-- utils.py 189-197, `_get_distance_coord`. -/
def distanceCoord : Except Err RangeCoord :=
  mkRange f.rangeStart (f.rangeStart + (f.nx - 1) * f.dx + f.dx) f.dx

/-- utils.py 83-92, `_scan_terra15`: the coordinates. -/
def scan : Except Err (Coord × RangeCoord) := do
  let tc ← f.timeCoord true
  let dc ← f.distanceCoord
  return (tc, dc)

/-- utils.py 134-138: an index which ends within the filled rows. Arrays have no attribute `start`. -/
def rowIndex (rows timeLen : ℕ) (x : Indexer) : Except Err Indexer :=
  if rows > timeLen then
    match x with
    | .slice s => .ok (.slice ⟨some (s.start.getD 0), some (s.stop.getD (s.start.getD 0 + timeLen)), none⟩)
    | _ => .error .attributeError
  else .ok x

/-- core.py 40-71 with utils.py 104-147, `_read_terra15`. -/
def read (time distance : Option (Option ℚ × Option ℚ)) (snap : Bool) : Except Err (Option (Recording α)) := do
  let tc ← f.timeCoord snap
  let (t, ti) ← tc.query (fun _ => []) .time (.between (time.getD (none, none)).1 (time.getD (none, none)).2)
  let dc ← f.distanceCoord
  let (x, xs) ← dc.select (distance.getD (none, none))
  let ti ← rowIndex f.data.rows.length t.length ti
  let rows ← ti.apply f.data.rows
  let d : Sheet α := ⟨cutLength xs f.data.width, rows.map (cutList xs)⟩
  let r ← Recording.new t x d
  return (if d.size = 0 then none else some r)

end TerraFile
end Verif
