import Verif.Model.CoordArray
/-!
# Gaps and cell edges (dascore/utils/gaps.py)

Values are numbers, or datetimes in nanoseconds (timedeltas are converted to seconds first, lines 12-23). Arithmetic is exact apart from the
truncation of durations.
-/
namespace Verif

/-- `x / n` of a number, or of a duration, which truncates. -/
def divBy (times : Bool) (x : ℚ) (n : ℚ) : ℚ := if times then (truncZ (x / n) : ℚ) else x / n

/-- `np.median`: the middle value, or the mean of the two in the middle (for durations truncated). -/
def npMedian (times : Bool) (l : List ℚ) : ℚ :=
  let s := l.insertionSort (· ≤ ·)
  if l.length % 2 = 1 then s.getD (l.length / 2) 0
  else divBy times (s.getD (l.length / 2 - 1) 0 + s.getD (l.length / 2) 0) 2

/-- gaps.py 26-32, `is_monotonic_and_finite` (of finite values). -/
def isMonotonic (v : List ℚ) : Bool := (diffs v).all (fun d => decide (0 < d)) || (diffs v).all fun d => decide (d < 0)

/-- gaps.py 72-76: where the gaps are. The median is that of floats (seconds for datetimes). -/
def gapMask (v : List ℚ) (gapFactor : Option ℚ) : List Bool :=
  match gapFactor with
  | none => (diffs v).map fun _ => false
  | some f =>
    let m := npMedian false ((diffs v).map absQ)
    (diffs v).map fun d => decide (absQ d > m * f)

/-- gaps.py 95-104, the loop. -/
def edgeLoop (times : Bool) (s : ℚ) : List ℚ → List Bool → List ℚ
  | a :: b :: v, g :: gs =>
    (if g then [a + divBy times s 2, b - divBy times s 2] else [a + divBy times (b - a) 2]) ++ edgeLoop times s (b :: v) gs
  | _, _ => []

/-- gaps.py 35-104, `get_gap_edges`. The default width of the cell of a single value is 1, or a day. -/
def getGapEdges (times : Bool) (v : List ℚ) (gapFactor : Option ℚ) : Except Err (List ℚ × List Bool) :=
  match v with
  | [] => .error .indexError
  | [x] =>
    let step := if times then 86400000000000 else 1
    .ok ([x - divBy times step 2, x + divBy times step 2], [])
  | x :: y :: _ =>
    let ds := diffs v
    let mask := gapMask v gapFactor
    let first := y - x
    let last := ds.getLastD 0
    let final := v.getLastD 0
    if !mask.any id then
      .ok ([x - divBy times first 2] ++ List.zipWith (fun a d => a + divBy times d 2) v ds ++ [final + divBy times last 2], mask)
    else
      let rep := npMedian times (ds.map absQ)
      let s := if 0 < first then rep else -rep
      let firstStep := if mask.headD false then s else first
      let lastStep := if mask.getLastD false then s else last
      .ok ([x - divBy times firstStep 2] ++ edgeLoop times s v mask ++ [final + divBy times lastStep 2], mask)

end Verif
