import Verif.Model.CoordRange
import Mathlib.Data.List.Sort
/-!
# Array backed coordinates, `get_coord(data=...)`, and the coordinate methods shared by all classes

Models `dascore/core/coords.py` and helpers of `dascore/utils/misc.py`, one dimension. Units and dtype
conversion (`_get_compatible_value`) are dropped: limits are already numbers in the coordinate's units.
`to_float` of datetimes in the descending branches is treated as exact.
-/
namespace Verif

/-- dtype family of a coordinate: it decides between exact and rounded arithmetic in a few places. -/
inductive Kind where
  | int | float | time
  deriving DecidableEq, Repr

/-- What `select`/`order`/`sort` return for indexing the data along the axis. -/
inductive Indexer where
  | slice (s : PySlice)
  | ints (ix : List ℤ)
  | mask (m : List Bool)
  deriving DecidableEq, Repr

/-- numpy integer-array indexing: negative indices wrap, out of range is IndexError. -/
def takeInts {α} (l : List α) : List ℤ → Except Err (List α)
  | [] => .ok []
  | i :: ix =>
    let j := if i < 0 then i + l.length else i
    if j < 0 then .error .indexError
    else match l[j.toNat]? with
      | none => .error .indexError
      | some v => (takeInts l ix).map (v :: ·)

/-- numpy indexing of one axis with any of the three kinds of indexer. -/
def Indexer.apply {α} (x : Indexer) (l : List α) : Except Err (List α) :=
  match x with
  | .slice s => pySlice l s
  | .ints ix => takeInts l ix
  | .mask m => if m.length = l.length then .ok (maskIdx l m) else .error .indexError

/-- `np.searchsorted(l, v, side="left")` on ascending `l`. -/
def searchLeft (l : List ℚ) (v : ℚ) : ℕ := l.countP (· < v)
/-- `np.searchsorted(l, v, side="right")` on ascending `l`. -/
def searchRight (l : List ℚ) (v : ℚ) : ℕ := l.countP (· ≤ v)

/-- coords.py 1757-1759: strictly increasing / strictly decreasing neighbours. -/
def strictInc : List ℚ → Bool
  | a :: b :: r => decide (a < b) && strictInc (b :: r)
  | _ => true
/-- See `strictInc`. -/
def strictDec : List ℚ → Bool
  | a :: b :: r => decide (b < a) && strictDec (b :: r)
  | _ => true

/-- coords.py 1762, consecutive differences. -/
def diffs : List ℚ → List ℚ
  | a :: b :: r => (b - a) :: diffs (b :: r)
  | _ => []

/-- `np.sort`. -/
def sortQ (l : List ℚ) : List ℚ := l.insertionSort (· ≤ ·)

/-- `np.unique`. -/
def uniqueQ (l : List ℚ) : List ℚ := sortQ l.dedup

/-- `np.median` of a non-empty list. -/
def medianQ (l : List ℚ) : ℚ :=
  let s := sortQ l
  let n := s.length
  if n % 2 = 1 then s.getD (n / 2) 0 else (s.getD (n / 2 - 1) 0 + s.getD (n / 2) 0) / 2

/-- misc.py 322-334, `all_diffs_close_enough`. -/
def allDiffsClose (ds : List ℚ) : Bool :=
  if ds = [] then false
  else
    let med := medianQ ds
    ds.all fun d => isClose d med (1 / 1000)

/-- coords.py 1751-1771, `_maybe_get_start_stop_step` for 1D data with at least two samples: (start, stop,
step) if evenly sampled. -/
def maybeStartStopStep (kind : Kind) (data : List ℚ) : Option (ℚ × ℚ × ℚ) :=
  if strictDec data || strictInc data then
    let ds := diffs data
    let u := uniqueQ ds
    if u.length = 1 || allDiffsClose u then
      let mn := data.getD 0 0
      let step := (sortQ ds).getD (ds.length / 2) 0
      let mx := if kind = .float then data.getD (data.length - 1) 0 else mn + ((data.length : ℚ) - 1) * step
      some (mn, mx + step, step)
    else none
  else none

/-- coords.py 1791-1832, `get_coord(data=array, step=...)`. Nulls are not modelled. -/
def getCoordData (kind : Kind) (data : List ℚ) (step : Option ℚ := none) : Except Err Coord :=
  match data with
  | [] => .ok (.part 0)
  | [x] =>
    match step with
    | some s => (mkRange x (x + s) s).map .range
    | none => .ok (.mono [x])
  | _ =>
    match maybeStartStopStep kind data with
    | some (start, stop, step) => do
      let out ← mkRange start stop step
      out.changeLength (kind = .time) (some data.length)
    | none => if strictDec data || strictInc data then .ok (.mono data) else .ok (.arr data)

namespace MonoCoord

/-- coords.py 1617-1628 with `gt`, 1630-1634: `sorted`. -/
def isSorted (vals : List ℚ) : Bool :=
  (vals.zip vals.tail).any (fun p => decide (p.1 < p.2)) || vals.length = 1
/-- coords.py 1617-1628 with `lt`, 1636-1640: `reverse_sorted`. -/
def isReverse (vals : List ℚ) : Bool := (vals.zip vals.tail).any (fun p => decide (p.2 < p.1))

/-- coords.py 1586-1615, `_get_index` of one value. -/
def getIndexV (vals : List ℚ) (v : ℚ) (forward : Bool) : ℕ :=
  let rev := isReverse vals
  let vs := if rev then vals.map (fun x => -x) else vals
  let w := if rev then -v else v
  let right := searchRight vs w
  let left := searchLeft vs w
  let leftOk := decide (left < vals.length) && decide (0 < left)
  let eq := leftOk && decide (vs[min left (vals.length - 1)]? = some w)
  let out := if forward then right else left
  if !rev && eq then left else out

/-- coords.py 1578-1580: include the stop sample if it equals the limit. -/
def bumpStop (vals : List ℚ) (v2 : Option ℚ) (stop : Option ℤ) : Option ℤ :=
  match stop with
  | some s => if v2.isSome && decide (vals[s.toNat]? = v2) then some (s + 1) else some s
  | none => none

/-- coords.py 1568-1584, `select` of a value interval. -/
def select (kind : Kind) (vals : List ℚ) (args : Option ℚ × Option ℚ) : Except Err (Coord × PySlice) :=
  let p := orderPair args
  let (v1, v2) := if isReverse vals then (p.2, p.1) else p
  let start := v1.map (getIndexV vals · false)
  let newStart : Option ℤ := match start with
    | some s => if 0 < s then some s else none
    | none => none
  let stop := v2.map (getIndexV vals · true)
  let newStop : Option ℤ := match stop with
    | some s => if s < vals.length then some s else none
    | none => none
  let newStop := bumpStop vals v2 newStop
  if sliceDegenerate vals.length newStart newStop then .ok (.part 0, ⟨some 0, some 0, none⟩)
  else do
    let sub ← pySlice vals ⟨newStart, newStop, none⟩
    let c ← getCoordData kind sub
    return (c, ⟨newStart, newStop, none⟩)

end MonoCoord

namespace ArrCoord

/-- coords.py 1457-1464, the mask. -/
def selectMask (vals : List ℚ) (p : Option ℚ × Option ℚ) : List Bool :=
  vals.map fun x =>
    (match p.1 with | some a => decide (a ≤ x) | none => true) &&
    (match p.2 with | some b => decide (x ≤ b) | none => true)

/-- coords.py 1456-1473, `CoordArray.select` of a value interval (1D). -/
def select (kind : Kind) (vals : List ℚ) (args : Option ℚ × Option ℚ) : Except Err (Coord × Indexer) :=
  let p := orderPair args
  let m := selectMask vals p
  if !m.any id then .ok (.part 0, .mask m)
  else if m.all id then .ok (.arr vals, .slice {})
  else do
    let c ← getCoordData kind (maskIdx vals m)
    return (c, .ints (((List.range vals.length).zip m).filterMap
      fun q => if q.2 then some (q.1 : ℤ) else none))

/-- coords.py 1475-1481, `CoordArray.sort` (also inherited by `CoordMonotonicArray`). `argsort` is numpy's
(unstable) sort; any function returning a sorting permutation. -/
def sort (argsort : List ℚ → List ℕ) (kind : Kind) (vals : List ℚ) (reverse : Bool) :
    Except Err (Coord × Indexer) := do
  let a := argsort vals
  let a := if reverse then a.reverse else a
  let c ← getCoordData kind (takeIdx vals a)
  return (c, .ints (a.map fun i : ℕ => (i : ℤ)))

end ArrCoord

/-- misc.py 713-728, `_maybe_array_to_slice`. -/
def maybeArrayToSlice (ix : List ℤ) (dataLen : ℕ) : Indexer :=
  if ix.length < 2 then .ints ix
  else
    let first := ix.getD 0 0
    let last := ix.getD (ix.length - 1) 0
    if last - first = (ix.length : ℤ) - 1 ∧ (ix.zip ix.tail).all (fun p => decide (p.1 < p.2)) = true then
      if ix.length = dataLen then .slice {} else .slice ⟨some first, some (last + 1), none⟩
    else .ints ix

/-- misc.py 669-686, `_to_slice`, for the argument forms accepted with `samples=True`. -/
inductive SampleArg where
  | slice (s : PySlice)
  | int (i : ℤ)
  | all
  | pair (a b : Option ℤ)
  deriving DecidableEq, Repr

/-- misc.py 669-686. -/
def toSlice : SampleArg → PySlice
  | .slice s => s
  | .int i => if i = -1 then ⟨some (-1), none, none⟩ else ⟨some i, some (i + 1), none⟩
  | .all => {}
  | .pair a b => ⟨a, b, none⟩

namespace Coord

/-- `coord.values` of a coordinate with values. -/
def vals : Coord → List ℚ
  | .range c => c.values
  | .mono vs => vs
  | .arr vs => vs
  | .part _ => []

/-- coords.py 1407-1411, 1630-1634, 547-550. -/
def isSorted : Coord → Bool
  | .range c => c.sorted
  | .mono vs => MonoCoord.isSorted vs
  | _ => false

/-- coords.py 1413-1417, 1636-1640, 552-555. -/
def isReverse : Coord → Bool
  | .range c => c.reverseSorted
  | .mono vs => MonoCoord.isReverse vs
  | _ => false

/-- coords.py 301-312, `_get_value_index` on an ascending array. -/
def getValueIndex (arr find : List ℚ) : List ℕ :=
  if find.all (fun v => decide (searchRight arr v = searchLeft arr v + 1)) then
    find.map (searchLeft arr)
  else find.flatMap fun v => List.range' (searchLeft arr v) (searchRight arr v - searchLeft arr v)

/-- coords.py 314-335, `_order_by_value_array`: the indices. -/
def orderInds (argsort : List ℚ → List ℕ) (c : Coord) (find : List ℚ) : List ℕ :=
  let arr := c.vals
  let find := find.filter fun v => decide (v ∈ arr)
  if c.isSorted then getValueIndex arr find
  else if c.isReverse then getValueIndex (arr.map fun x => -x) (find.map fun x => -x)
  else
    let a := argsort arr
    takeIdx a (getValueIndex (takeIdx arr a) find)

/-- coords.py 1229-1249 and 1537-1541, `self[inds]` with a non-negative in-range integer array: a range is
rebuilt by `get_coord`, the array classes keep their class. -/
def getInts (kind : Kind) (c : Coord) (ix : List ℕ) : Except Err Coord :=
  match c with
  | .range r => getCoordData kind (takeIdx r.values ix)
  | .mono vs => .ok (.mono (takeIdx vs ix))
  | .arr vs => .ok (.arr (takeIdx vs ix))
  | .part _ => .ok (.part ix.length)

/-- coords.py 394-417, `order` by values. A `CoordPartial` raises (1080-1087). -/
def order (argsort : List ℚ → List ℕ) (kind : Kind) (c : Coord) (find : List ℚ) :
    Except Err (Coord × Indexer) :=
  match c with
  | .part _ => .error .coordError
  | c => do
    let ix := c.orderInds argsort find
    let d ← c.getInts kind ix
    return (d, maybeArrayToSlice (ix.map fun i : ℕ => (i : ℤ)) c.length)

/-- coords.py 337-347, `_order_by_sample_array`: indices not smaller in magnitude than the length are
dropped. -/
def orderSampleInds (c : Coord) (ix : List ℤ) : List ℤ := ix.filter fun i => decide (i.natAbs < c.length)

/-- coords.py 411-417 with `samples=True`: labels of the result and the indexer for the data. For an evenly
sampled coordinate the code passes these labels through `get_coord` once more (see `getCoordData`); here
the labels handed to it are returned. -/
def orderSamples (c : Coord) (ix : List ℤ) : Except Err (List (Option ℚ) × Indexer) := do
  let ix := c.orderSampleInds ix
  let l ← takeInts c.labels ix
  return (l, maybeArrayToSlice ix c.length)

/-- utils/models.py 68-85 with misc.py 128-145: `c == d` for coordinates. Evenly sampled coordinates have the same
start, stop and step; arrays are compared with `np.isclose` unless they are times. -/
def pyEq (kind : Kind) : Coord → Coord → Bool
  | .range a, .range b => decide (a = b)
  | .part n, .part m => decide (n = m)
  | .range _, _ | _, .range _ | .part _, _ | _, .part _ => false
  | c, d => decide (c.vals.length = d.vals.length) &&
      (c.vals.zip d.vals).all fun p => if kind = .time then decide (p.1 = p.2) else isClose p.1 p.2

/-- coords.py 445-457, `align_to` of two coordinates (1D by construction). `np.intersect1d` is the sorted
list of distinct common values. -/
def alignTo (argsort : List ℚ → List ℕ) (kind : Kind) (c d : Coord) :
    Except Err (Coord × Coord × Indexer × Indexer) :=
  if c.pyEq kind d then .ok (c, d, .slice {}, .slice {})
  else
    match c, d with
    | .part n, d =>
      if n = 1 ∨ d.length = 1 ∨ n = d.length then .ok (.part n, d, .slice {}, .slice {})
      else .error .coordError
    | c, .part n =>
      if c.length = 1 ∨ n = 1 ∨ c.length = n then .ok (c, .part n, .slice {}, .slice {})
      else .error .coordError
    | c, d => do
      let inter := uniqueQ (c.vals.filter fun x => decide (x ∈ d.vals))
      let (c1, s1) ← c.order argsort kind inter
      let (d1, s2) ← d.order argsort kind inter
      return (c1, d1, s1, s2)

/-- coords.py 904-950, `get_next_index` of an array of values (`samples=False`, no units). The range branch
rounds to 10 decimals (1318) and takes the ceiling; the array branch is `MonoCoord.getIndexV`; with any
out-of-bounds value and a step, all values are truncated (934-937). A monotonic array has `step = None`, so
its out-of-bounds values are clamped (940-941). -/
def getNextIndex (c : Coord) (vs : List ℚ) (allowOob : Bool) : Except Err (List ℤ) :=
  if !c.isSorted then .error .coordError
  else
    match c with
    | .range r =>
      let oob := vs.any fun v => decide (r.cmax < v) || decide (v < r.cmin)
      if !allowOob && oob then .error .valueError
      else if oob then .ok (vs.map fun v => truncZ ((v - r.cmin) / r.step))
      else .ok (vs.map fun v => ⌈roundDec 10 ((v - r.start) / r.step)⌉)
    | .mono l =>
      let mn := l.foldl min (l.getD 0 0)
      let mx := l.foldl max (l.getD 0 0)
      let oob := vs.any fun v => decide (mx < v) || decide (v < mn)
      if !allowOob && oob then .error .valueError
      else .ok (vs.map fun v => (MonoCoord.getIndexV l (if mx < v then mx else if v < mn then mn else v) true : ℤ))
    | _ => .error .coordError

/-- coords.py 910-926 and 939-944, `get_next_index(samples=True)` of an array of sample numbers. -/
def getNextIndexSamples (c : Coord) (ix : List ℤ) (allowOob : Bool) : Except Err (List ℤ) :=
  if !c.isSorted then .error .coordError
  else
    let n : ℤ := c.length
    let ix := if allowOob then ix else ix.map fun i => if i < 0 then i + (n - 1) + 1 else i
    let oob := ix.any fun i => decide (n - 1 < i) || decide (i < 0)
    if !allowOob && oob then .error .valueError else .ok ix

end Coord

/-- coords.py 1327-1355, `CoordRange.update_limits` (numeric arguments already compatible). -/
def RangeCoord.updateLimits (c : RangeCoord) (mn mx step : Option ℚ) : Except Err Coord :=
  match mn, mx, step with
  | some _, some _, some _ => .error .valueError
  | some a, some b, none => (mkRange a b ((b - a) / c.len)).map .range
  | mn, mx, step => do
    let out ← match step with
      | some s => c.new c.start (c.start + s * c.len) s
      | none => Except.ok (Coord.range c)
    let out ← match out, mn with
      | .range o, some m => o.new m (o.stop + (m - o.start)) o.step
      | o, _ => Except.ok o
    match out, mx with
      | .range o, some m => o.new (c.start + ((m + o.step) - o.stop)) (m + o.step) o.step
      | o, _ => Except.ok o

/-- coords.py 1519-1535, `CoordArray.update_limits` with `min` or `max`. -/
def ArrCoord.shift (kind : Kind) (vals : List ℚ) (old new : ℚ) : Except Err Coord :=
  getCoordData kind (vals.map fun x => x + (new - old))

/-- coords.py 1483-1516, `CoordArray.snap`. `rev` is `self.reverse_sorted`. Time coordinates round the step
to whole nanoseconds; a single sample gets a step of one second (1e9 ns) or 1. -/
def ArrCoord.snap (kind : Kind) (rev : Bool) (vals : List ℚ) : Except Err Coord :=
  let mn := vals.foldl min (vals.getD 0 0)
  let mx := vals.foldl max (vals.getD 0 0)
  let step : ℚ :=
    if vals.length = 1 then (if kind = .time then 10 ^ 9 else 1)
    else
      let s := (mx - mn) / ((vals.length : ℚ) - 1)
      if kind = .time then (rint s : ℚ) else s
  if vals = [] then .error .valueError
  else if vals.length ≠ 1 ∧ ¬ 0 < step then .error .assertionError
  else do
    let out ← if rev then mkRange mx (mn + -step) (-step) else mkRange mn (mx + step) step
    out.changeLength (kind = .time) (some vals.length)

end Verif
