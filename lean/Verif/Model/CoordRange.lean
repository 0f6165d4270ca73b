import Verif.Model.Num
/-!
# Evenly sampled coordinates (`CoordRange`)

Models `dascore/core/coords.py`. Values are exact rationals: integers, nanosecond datetimes and
timedeltas are integer rationals, floats are idealised (float64 rounding is not modelled). Units,
dtype and pydantic plumbing are dropped.
-/
namespace Verif

/-- `CoordRange` fields (coords.py 1160-1164 and `shape` 266). `len` is `shape[0]`. -/
structure RangeCoord where
  start : ℚ
  stop : ℚ
  step : ℚ
  len : ℕ
  deriving DecidableEq, Repr

/-- A one-dimensional coordinate. `part n` is `CoordPartial(shape=(n,))` (coords.py 1025-1139): it has a
length but no values. -/
inductive Coord where
  | range (c : RangeCoord)
  | mono (vals : List ℚ)
  | arr (vals : List ℚ)
  | part (len : ℕ)
  deriving DecidableEq, Repr

/-- coords.py 1203-1223, the part of `validate_start_stop_step_len` after start, stop and step are known.
A zero step with `start ≠ stop` divides by zero (ZeroDivisionError, or OverflowError on `int(inf)`). -/
def mkRange (start stop step : ℚ) : Except Err RangeCoord :=
  let stop := if step ≠ 0 then start + step * ⌈roundDec 1 ((stop - start) / step)⌉ else stop
  if start ≠ stop ∧ step = 0 then .error .zeroDivision
  else
    let len : ℤ := if start = stop then 1 else rint ((stop - start) / step)
    if sgn step ≠ sgn (stop - start) then .error .coordError
    else .ok ⟨start, stop, step, len.toNat⟩

/-- coords.py 1178-1202: fill in the missing one of start/stop/step/shape, then build. `pyInt` says that
`start` and `stop` are Python ints, in which case a step close to an integer is truncated to an int. -/
def mkRangeParts (pyInt : Bool) (start stop step : Option ℚ) (shape : Option ℤ) :
    Except Err RangeCoord :=
  match start, stop, step, shape with
  | some a, some b, some d, _ => mkRange a b d
  | none, some b, some d, some n => mkRange (b - d * n) b d
  | some a, none, some d, some n => mkRange a (a + d * n) d
  | some a, some b, none, some n =>
    if n = 0 then .error .zeroDivision
    else
      let d := (b - a) / n
      let d := if pyInt && isClose (rint d) d then (truncZ d : ℚ) else d
      mkRange a b d
  | _, _, _, _ => .error .coordError

/-- `get_coord(start=, stop=, step=, shape=)` without data: coords.py 1775-1782 when a shape is given (a
failed `CoordRange` becomes a `CoordPartial` of that shape), 1834 otherwise. -/
def getCoordParts (pyInt : Bool) (start stop step : Option ℚ) (shape : Option ℤ) : Except Err Coord :=
  match shape with
  | some n =>
    match mkRangeParts pyInt start stop step shape with
    | .ok c => .ok (.range c)
    | .error .coordError => .ok (.part n.toNat)
    | .error e => .error e
  | none =>
    match mkRangeParts pyInt start stop step none with
    | .ok c => .ok (.range c)
    | .error e => .error e

namespace RangeCoord

/-- coords.py 1357-1374, `values`: one sample, or `np.linspace(start, stop - step, num=len)` cut to `len`. -/
def values (c : RangeCoord) : List ℚ :=
  if c.len = 1 then [c.start]
  else ((List.range c.len).map fun i : ℕ => c.start + (i : ℚ) * ((c.stop - c.step - c.start) / (c.len - 1))).take c.len

/-- coords.py 1366-1367 and 1374, `values` for datetime/timedelta coordinates: `np.arange(start, stop,
step)` (which has `ceil((stop - start)/step)` elements) cut to `len`. -/
def timeValues (c : RangeCoord) : List ℚ :=
  if c.len = 1 then [c.start]
  else ((List.range ⌈(c.stop - c.start) / c.step⌉.toNat).map fun i : ℕ => c.start + (i : ℚ) * c.step).take c.len

/-- coords.py 1376-1378. -/
def cmin (c : RangeCoord) : ℚ := min c.start (c.stop - c.step)
/-- coords.py 1380-1384. -/
def cmax (c : RangeCoord) : ℚ := max (c.stop - c.step) c.start

/-- coords.py 1407-1411. -/
def sorted (c : RangeCoord) : Bool := decide (0 ≤ c.step)
/-- coords.py 1413-1417. -/
def reverseSorted (c : RangeCoord) : Bool := decide (c.step < 0)

/-- coords.py 657-668, `new(start=, stop=, step=)`: the remaining fields (including the old shape) are
passed on to `get_coord`, so a failed construction yields a `CoordPartial` of the old shape. -/
def new (c : RangeCoord) (start stop step : ℚ) : Except Err Coord :=
  getCoordParts false (some start) (some stop) (some step) (some c.len)

/-- coords.py 1229-1233, `__getitem__` with an integer. Negative items wrap as in numpy. -/
def getInt (c : RangeCoord) (i : ℤ) : Except Err ℚ :=
  if (c.len : ℤ) ≤ i then .error .indexError
  else
    let j := if i < 0 then i + c.len else i
    if j < 0 then .error .indexError
    else match c.values[j.toNat]? with
      | some v => .ok v
      | none => .error .indexError

/-- coords.py 1234-1249, `__getitem__` with a slice. The final `get_coord(data=out)` is only reached with an
empty array, which becomes an empty `CoordPartial` (1806-1808). -/
def getSlice (c : RangeCoord) (s : PySlice) : Except Err Coord := do
  let ix ← s.indices c.len
  if ix.len ≠ 0 then
    let newStep := c.step * ix.step
    let newStart := c.start + ix.start * c.step
    let newStop := newStart + newStep * ix.len
    c.new newStart newStop newStep
  else return .part 0

/-- coords.py 1309-1325, `_get_index` of a scalar (`None` stays `None`). Only called with step ≠ 0. -/
def getIndex (c : RangeCoord) (v : Option ℚ) (forward : Bool) : Option ℤ :=
  match v with
  | none => none
  | some v =>
    let q := roundDec 10 ((v - c.start) / c.step)
    let out := if forward then ⌈q⌉ else ⌊q⌋
    if (forward && decide (out < 0)) || (!forward && decide ((c.len : ℤ) ≤ out)) then none
    else some out

end RangeCoord

/-- coords.py 729-738, the swap in `get_slice_tuple` (after conversion of the limits). -/
def orderPair (p : Option ℚ × Option ℚ) : Option ℚ × Option ℚ :=
  match p with
  | (some a, some b) => if b < a then (some b, some a) else (some a, some b)
  | p => p

/-- coords.py 703-714, `_slice_degenerate`. -/
def sliceDegenerate (n : ℕ) (start stop : Option ℤ) : Bool :=
  let between := match start, stop with
    | some a, some b => decide (a = b)
    | _, _ => false
  let badStart := match start with
    | some a => decide (a < 0) || decide ((n : ℤ) ≤ a)
    | none => false
  let badStop := match stop with
    | some b => decide (b ≤ 0)
    | none => false
  between || badStart || badStop

namespace RangeCoord

/-- coords.py 1289, `self[start] if start is not None else self.start`. -/
def startAt (c : RangeCoord) : Option ℤ → Except Err ℚ
  | some i => c.getInt i
  | none => .ok c.start

/-- coords.py 1290, `self[stop] + self.step if stop is not None else self.stop`. -/
def stopAt (c : RangeCoord) : Option ℤ → Except Err ℚ
  | some i => (c.getInt i).map (· + c.step)
  | none => .ok c.stop

/-- coords.py 1284-1292, the end of `select`: from sample indices to coordinate and slice. -/
def selectFrom (c : RangeCoord) (start stop : Option ℤ) : Except Err (Coord × PySlice) :=
  let start := if start = some 0 then none else start
  let sStop := stop.map (· + 1)
  if sliceDegenerate c.len start sStop then .ok (.part 0, ⟨some 0, some 0, none⟩)
  else do
    let newStart ← c.startAt start
    let newEnd ← c.stopAt stop
    let newCoord ← c.new newStart newEnd c.step
    return (newCoord, ⟨start, sStop, none⟩)

/-- coords.py 1279-1292, `select` of a value interval. With a zero step numpy divides by zero and casts
NaN to an integer; that is modelled as an error. -/
def select (c : RangeCoord) (args : Option ℚ × Option ℚ) : Except Err (Coord × PySlice) :=
  if c.step = 0 then .error .zeroDivision
  else
    let args := orderPair args
    let start := c.getIndex args.1 c.sorted
    let stop := c.getIndex args.2 c.reverseSorted
    if c.reverseSorted then c.selectFrom stop start else c.selectFrom start stop

/-- coords.py 1294-1307, `sort`. -/
def sort (c : RangeCoord) (reverse : Bool) : Except Err (Coord × PySlice) :=
  if (!reverse && c.sorted) || (reverse && c.reverseSorted) then .ok (.range c, {})
  else
    let newStep := -c.step
    let p := if reverse then (c.cmax, c.cmin + newStep) else (c.cmin, c.cmax + newStep)
    do
      let out ← c.new p.1 p.2 newStep
      return (out, ⟨none, none, some (-1)⟩)

/-- coords.py 132-141 and 1387-1405, `change_length`. `none` stands for a non-integer (or bool) argument.
`update(stop=...)` (808-821) drops a value which is `all_close` (misc.py 128-145) to the old one: `np.isclose`
for numbers, equality for datetimes and timedeltas (`timeLike`). Otherwise it ends in
`update_limits(stop=...)`, whose keyword goes to `new` (1355). The final assertion is kept. -/
def changeLength (c : RangeCoord) (timeLike : Bool) (length : Option ℤ) : Except Err Coord :=
  match length with
  | none => .error .parameterError
  | some n =>
    if n < 0 then .error .parameterError
    else if (c.len : ℤ) = n then .ok (.range c)
    else if n = 0 then .ok (.part 0)
    else
      let diff := n - c.len
      let stop := c.stop + c.step * diff
      match (if (if timeLike then decide (stop = c.stop) else isClose stop c.stop) then .ok (.range c) else c.new c.start stop c.step) with
      | .ok (.range d) => if (d.len : ℤ) = n then .ok (.range d) else .error .assertionError
      | .ok (.part m) => if (m : ℤ) = n then .ok (.part m) else .error .assertionError
      | .ok other => .ok other
      | .error e => .error e

end RangeCoord

/-- The values of a coordinate (coords.py 1357-1374, 1427, 1073-1078); `none` is the null value which fills a
`CoordPartial`. -/
def Coord.labels : Coord → List (Option ℚ)
  | .range c => c.values.map some
  | .mono vs => vs.map some
  | .arr vs => vs.map some
  | .part n => List.replicate n none

/-- `len(coord)` (coords.py 463-466, 1252-1253, 1070-1071). -/
def Coord.length : Coord → ℕ
  | .range c => c.len
  | .mono vs => vs.length
  | .arr vs => vs.length
  | .part n => n

/-- `CoordSummary` (coords.py 152-164), numeric part. -/
structure CoordSummary where
  min : ℚ
  max : ℚ
  step : Option ℚ
  deriving DecidableEq, Repr

/-- coords.py 798-806, `to_summary`. -/
def RangeCoord.toSummary (c : RangeCoord) : CoordSummary := ⟨c.cmin, c.cmax, some c.step⟩

/-- coords.py 184-200, `to_coord`. -/
def CoordSummary.toCoord (s : CoordSummary) : Except Err RangeCoord :=
  match s.step with
  | none => .error .coordError
  | some step =>
    if sgn step = -1 then mkRange s.max (s.min + step) step
    else mkRange s.min (s.max + step) step

end Verif
