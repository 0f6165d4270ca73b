import Verif.Model.Merge
import Verif.Model.Time
import Verif.Model.Units
/-!
# Limits of selections (dascore/core/coords.py 200-250 and 675-747, dascore/core/coordmanager.py 616-745)

How `select` and `order` understand the values they are given: numbers, times, quantities, percentages, and all of these relative to the start or end of a
coordinate. The selection itself, once the values are labels, is `PatchM.select` (Model/CoordManager). Infinite values are not modelled, nor are times given
for coordinates of numbers. Percentages are exact; strings and Python's own times are taken as the numpy times they stand for.
-/
namespace Verif

/-- A value given to `select`: a number (`null` stands for `None`, `...` and NaN), a time or duration in nanoseconds, a quantity, or a percentage. -/
inductive SValue where
  | num (s : Secs)
  | ns (t : ℤ)
  | quant (q : Quant ℚ)
  | percent (x : ℚ)
  deriving DecidableEq, Repr

/-- The number that `Secs` stands for. -/
def Secs.value : Secs → Option ℚ
  | .int n => some n
  | .flt x => some x
  | .null => none

/-- A value without units (coords.py 684-690), and whether it is relative: percentages always are. -/
inductive Bare where
  | num (x : Secs)
  | ns (t : ℤ)
  deriving DecidableEq, Repr

namespace UCoord

/-- `coord.min()`. Coordinates without labels have none: not modelled. -/
def lo (c : UCoord) : Except Err ℚ :=
  match (MCoord.one c.kind c.coord).lowest with
  | some x => .ok x
  | none => .error .notImplemented

/-- `coord.max()`. -/
def hi (c : UCoord) : Except Err ℚ :=
  match (MCoord.one c.kind c.coord).highest with
  | some x => .ok x
  | none => .error .notImplemented

/-- coords.py 687 with 574-594: the share of `coord.max() - coord.min()`. A number times a duration is cut to whole nanoseconds by numpy. -/
def share (c : UCoord) (x : ℚ) : Except Err Bare := do
  let lo ← c.lo
  let hi ← c.hi
  return if c.kind = .time then .ns (truncZ (x / 100 * (hi - lo))) else .num (.flt (x / 100 * (hi - lo)))

/-- coords.py 682-690. -/
def bare (c : UCoord) (relative : Bool) : SValue → Except Err (Bare × Bool)
  | .num s => .ok (.num s, relative)
  | .ns t => .ok (.ns t, relative)
  | .quant q => (convertUnits q.mag c.units (some ⟨1, q.unit⟩)).map fun x => (.num (.flt x), relative)
  | .percent x => (c.share x).map fun b => (b, true)

/-- coords.py 697-698: what is added to the start or end. Only called with values. -/
def offset (c : UCoord) : Bare → Except Err ℚ
  | .num s =>
    if c.kind = .time then
      match toTimedelta64 s with
      | some t => .ok t
      | none => .error .notImplemented
    else
      match s.value with
      | some x => .ok x
      | none => .error .notImplemented
  | .ns t => if c.kind = .time then .ok t else .error .notImplemented

/-- coords.py 200-250, `get_compatible_values` with the type of the coordinate: numbers are seconds since 1970 for coordinates of times. (For coordinates of
durations it is `to_timedelta64`, which differs from `to_datetime64` for integers beyond the precision of floats.) -/
def absolute (c : UCoord) : Bare → Except Err ℚ
  | .num s =>
    if c.kind = .time then
      match toDatetime64 s with
      | some t => .ok t
      | none => .error .notImplemented
    else
      match s.value with
      | some x => .ok x
      | none => .error .notImplemented
  | .ns t => if c.kind = .time then .ok t else .error .notImplemented

/-- coords.py 740-747, `_get_relative_values` of one value. -/
def relativeTo (c : UCoord) (v : ℚ) : Except Err ℚ := do
  let lo ← c.lo
  let hi ← c.hi
  return if 0 ≤ v then lo + v else hi + v

/-- coords.py 691-701. -/
def compatible (c : UCoord) : Bare × Bool → Except Err (Option ℚ)
  | (.num .null, _) => .ok none
  | (b, true) => do
    let v ← c.offset b
    let x ← c.relativeTo v
    return some x
  | (b, false) => (c.absolute b).map some

/-- coords.py 675-701, `_get_compatible_value` of one value. Coordinates without labels only accept nothing (1089-1109). -/
def limit (c : UCoord) (relative : Bool) (v : SValue) : Except Err (Option ℚ) :=
  match c.coord with
  | .part _ => if v = .num .null then .ok none else .error .coordError
  | _ => do
    let b ← c.bare relative v
    c.compatible b

end UCoord

/-- What is asked about a coordinate: an interval, an array of values, or an array of booleans. -/
inductive Ask where
  | range (a b : SValue)
  | array (vs : List SValue)
  | mask (m : List Bool)

/-- coords.py 369-376 and 716-738: the query in terms of labels. Nulls in arrays are not equal to any label. -/
def Ask.query (c : UCoord) (relative : Bool) : Ask → Except Err CQuery
  | .range a b => do
    let x ← c.limit relative a
    let y ← c.limit relative b
    return .between x y
  | .array vs => (vs.mapM (c.limit relative)).map fun xs => .values (xs.filterMap id)
  | .mask m => .ok (.mask m)

/-- The dimensions of the coordinate, `cm.dim_map[name]`. -/
def CM.attachedTo (m : CM) (name : String) : List String := ((m.ents.get? name).map Prod.fst).getD []

/-- coordmanager.py 737-745, and 601-604: do two of the names belong to the same dimensions? -/
def CM.sharing (m : CM) (kw : Dict Ask) : Bool :=
  !decide ((kw.filter fun p => m.ents.keys.contains p.1).map fun p => m.attachedTo p.1).Nodup

/-- Is one of the values a percentage? -/
def Ask.hasPercent : Ask → Bool
  | .range a b => [a, b].any fun | .percent _ => true | _ => false
  | .array vs => vs.any fun | .percent _ => true | _ => false
  | .mask _ => false

/-- One keyword of `select`. -/
def CM.askOne (m : CM) (units : String → Option (Quant ℚ)) (relative : Bool) (p : String × Ask) : Except Err (String × CQuery) :=
  match m.ents.get? p.1 with
  | none => .error .assertionError
  | some (_, .nd _) => .error .coordError
  | some (_, .one k c) => (p.2.query ⟨k, c, units p.1⟩ relative).map fun q => (p.1, q)

/-- proc/coords.py 511-531 with coordmanager.py 616-657, `Patch.select(relative=..., **kw)`. `units` are those of the coordinates. The code understands the values of each group
of keywords (`CM.groups`) after it has selected by the earlier groups. That only makes a difference for percentages of coordinates which share a dimension: not
modelled. -/
def PatchM.selectAsked {α} (argsort : List ℚ → List ℕ) (units : String → Option (Quant ℚ)) (p : PatchM α) (relative : Bool) (kw : Dict Ask) :
    Except Err (PatchM α) :=
  if kw.any fun q => !p.cm.ents.keys.contains q.1 then .error .patchCoordinateError
  else if relative && p.cm.sharing kw then .error .coordError
  else if p.cm.sharing kw && kw.any (fun q => q.2.hasPercent) then .error .notImplemented
  else do
    let kw ← kw.mapM (p.cm.askOne units relative)
    p.select argsort kw

end Verif
