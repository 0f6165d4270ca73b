import Verif.Model.CoordManager
/-!
# Units (dascore/units.py, dascore/proc/units.py, and what coordinates do with units)

Units are those of the package pint: a name, a dimension, and the numbers that turn a value into the base unit of that dimension.
The numbers belong to any field (degrees are an irrational number of radians); labels and data are rational numbers and arithmetic
is exact. Parsing and printing of units are not modelled: what a user passes as a string is already a quantity here. Logarithmic units
are not modelled, nor are products and powers of units with an offset.
-/
namespace Verif

/-- A pint `Unit`: `x` of it are `x * scale + offset` of the base unit with the same dimension. `dim` lists the exponents of the base
dimensions. pint compares units exactly (`m ≠ cm`, units.py 217-219). -/
structure PintUnit (K : Type) where
  name : String
  dim : List ℤ
  scale : K
  offset : K
  deriving DecidableEq, Repr

/-- A pint `Quantity` with one number. -/
structure Quant (K : Type) where
  mag : K
  unit : PintUnit K
  deriving DecidableEq, Repr

section
variable {K : Type} [Field K] [DecidableEq K]

/-- `Unit("dimensionless")`. -/
def PintUnit.plain : PintUnit K := ⟨"", List.replicate 7 0, 1, 0⟩

/-- The base unit of a dimension, the unit of `quant.to_base_units()`. -/
def PintUnit.ofDim (d : List ℤ) : PintUnit K := ⟨"base", d, 1, 0⟩

/-- `(1 / unit).units`. -/
def PintUnit.inv (u : PintUnit K) : PintUnit K := ⟨"1/" ++ u.name, u.dim.map (- ·), u.scale⁻¹, 0⟩

/-- `quant.to_base_units().magnitude`. -/
def Quant.base (q : Quant K) : K := q.mag * q.unit.scale + q.unit.offset

/-- pint `Quantity.__eq__` and `__hash__`, which both compare in base units: when are two quantities the same key of a dictionary. -/
def Quant.sameKey (a b : Quant K) : Bool := decide (a.unit.dim = b.unit.dim) && decide (a.base = b.base)

/-- `quant.to(unit).magnitude`, with a DimensionalityError where the dimensions differ (all callers turn it into a UnitError). -/
def Quant.to (q : Quant K) (v : PintUnit K) : Except Err K :=
  if q.unit.dim = v.dim then .ok ((q.base - v.offset) / v.scale) else .error .unitError

/-- The three numbers units.py 135-143 returns. -/
structure Factors (K : Type) where
  mult1 : K
  add : K
  mult2 : K
  deriving DecidableEq, Repr

/-- units.py 135-143, `_get_conversion_factors` when it is evaluated. Line 138 converts nothing of the one unit to the other, lines
140-142 convert the difference of one and nothing. -/
def conversionFactors (src dst : Quant K) : Except Err (Factors K) :=
  if src.unit.dim = dst.unit.dim then
    if dst.mag = 0 then .error .zeroDivision
    else .ok ⟨src.unit.scale / dst.unit.scale * src.mag, (src.unit.offset - dst.unit.offset) / dst.unit.scale, 1 / dst.mag⟩
  else .error .unitError

/-- units.py 181, for one number. -/
def Factors.use (f : Factors K) (x : K) : K := (x * f.mult1 + f.add) * f.mult2

/-- units.py 146-181, `convert_units` of a number which is not a Quantity itself. -/
def convertUnits (x : K) (dst src : Option (Quant K)) : Except Err K :=
  match src, dst with
  | none, _ => .ok x
  | some _, none => .error .unitError
  | some a, some b => (conversionFactors a b).map fun f => f.use x

/-- The same for an array: the factors are determined once. -/
def convertArray (l : List K) (dst src : Option (Quant K)) : Except Err (List K) :=
  match src, dst with
  | none, _ => .ok l
  | some _, none => .error .unitError
  | some a, some b => (conversionFactors a b).map fun f => l.map f.use

/-! ### Caches -/

/-- What `functools.cache` of units.py 135 has stored: the arguments and the result of every evaluation. -/
abbrev FactorCache (K : Type) := List ((Quant K × Quant K) × Factors K)

/-- units.py 135-143 with the cache. Exceptions are not cached. -/
def cachedFactors (cache : FactorCache K) (src dst : Quant K) : Except Err (Factors K) × FactorCache K :=
  match cache.find? fun e => e.1.1.sameKey src && e.1.2.sameKey dst with
  | some e => (.ok e.2, cache)
  | none =>
    match conversionFactors src dst with
    | .ok f => (.ok f, cache ++ [((src, dst), f)])
    | .error e => (.error e, cache)

/-- units.py 146-181 with the cache, for given units. -/
def convertCached (cache : FactorCache K) (x : K) (dst src : Quant K) : Except Err K × FactorCache K :=
  match cachedFactors cache src dst with
  | (r, cache) => (r.map fun f => f.use x, cache)

/-- The cache after converting between these pairs of units, one after the other. -/
def cacheAfter (calls : List (Quant K × Quant K)) : FactorCache K :=
  calls.foldl (fun cache c => (cachedFactors cache c.1 c.2).2) []

/-- units.py 58-83, `get_unit` of a quantity with its cache. -/
def getUnitCached (cache : List (Quant K × PintUnit K)) (q : Quant K) : Except Err (PintUnit K) × List (Quant K × PintUnit K) :=
  match cache.find? fun e => e.1.sameKey q with
  | some e => (.ok e.2, cache)
  | none => if q.mag = 1 then (.ok q.unit, cache ++ [(q, q.unit)]) else (.error .assertionError, cache)

/-! ### Limits of filters -/

/-- What is given as the limit of a filter: nothing (`None` or `...`), a number, or a quantity (a Unit is the quantity of one). -/
inductive FLimit (K : Type) where
  | nothing
  | num (x : K)
  | quant (q : Quant K)
  deriving DecidableEq, Repr

/-- Whether the limit is a quantity (units.py 338-341). -/
def FLimit.isQuant : FLimit K → Bool
  | .quant _ => true
  | _ => false

/-- A limit which is not a quantity, as it is returned (units.py 341). -/
def FLimit.bare : FLimit K → Option K
  | .num x => some x
  | _ => none

/-- units.py 86-120, `get_quantity` of a limit. A number becomes a dimensionless quantity. -/
def FLimit.toQuant : FLimit K → Option (Quant K)
  | .nothing => none
  | .num x => some ⟨x, PintUnit.plain⟩
  | .quant q => some q

/-- units.py 264-284, `get_inverted_quant` for a unit. -/
def invertedQuant (q : Option (Quant K)) (u : PintUnit K) : Except Err (Option K × Bool) :=
  match q with
  | none => .ok (none, true)
  | some q =>
    if q.unit = PintUnit.plain then .error .unitError
    else if u.dim = q.unit.dim then
      if q.mag = 0 then .error .zeroDivision
      else ((⟨1 / q.mag, q.unit.inv⟩ : Quant K).to u.inv).map fun x => (some x, false)
    else (q.to u.inv).map fun x => (some x, true)

/-- units.py 324-329, `_ensure_same_units`. -/
def sameUnits (a b : Option (Quant K)) : Bool :=
  match a, b with
  | some a, some b => decide (a.unit = b.unit)
  | _, _ => true

/-- units.py 348-357, once it is known that the dimension has the unit `u`. -/
def filterLimits (a b : Option (Quant K)) (u : PintUnit K) : Except Err (Option K × Option K) :=
  if sameUnits a b then do
    let x ← invertedQuant a u
    let y ← invertedQuant b u
    if !(x.2 || y.2) then .ok (y.1, x.1) else .ok (x.1, y.1)
  else .error .unitError

/-- units.py 287-357, `get_filter_units`. -/
def getFilterUnits (a b : FLimit K) (unit : Option (Quant K)) : Except Err (Option K × Option K) :=
  if !(a.isQuant || b.isQuant) then .ok (a.bare, b.bare)
  else
    match unit with
    | none => .error .unitError
    | some u => if u.mag = 1 then filterLimits a.toQuant b.toQuant u.unit else .error .assertionError

/-! ### Sequences of quantities -/

/-- units.py 376-392, `quant_sequence_to_quant_array` of a list of quantities: the numbers and the unit. -/
def quantArray (l : List (Quant K)) : Except Err (List K × PintUnit K) :=
  match l with
  | [] => .ok ([], PintUnit.plain)
  | q :: r => if r.all fun p => decide (p.unit.dim = q.unit.dim) then .ok ((q :: r).map Quant.base, PintUnit.ofDim q.unit.dim) else .error .unitError

end

/-! ### Coordinates with units -/

/-- The unit of time-like labels (coords.py 286-287). -/
def secondQ : Quant ℚ := ⟨1, ⟨"s", [0, 0, 1, 0, 0, 0, 0], 1, 0⟩⟩

/-- A one dimensional coordinate and its units. -/
structure UCoord where
  kind : Kind
  coord : Coord
  units : Option (Quant ℚ)
  deriving DecidableEq, Repr

/-- coords.py 275-288, `check_time_units`. The first label of a range is tested for truth (282), so a range of times which starts at
zero is not seen to be one. Partial coordinates have neither. -/
def checkTimeUnits (k : Kind) (c : Coord) (u : Option (Quant ℚ)) : Option (Quant ℚ) :=
  match k, c with
  | .time, .range r => if r.start = 0 then u else some secondQ
  | .time, .mono _ => some secondQ
  | .time, .arr _ => some secondQ
  | _, _ => u

namespace UCoord

/-- coords.py 563-567, `set_units` of a coordinate with labels. -/
def setLabeled (c : UCoord) (u : Option (Quant ℚ)) : UCoord := { c with units := checkTimeUnits c.kind c.coord u }

/-- `set_units` of a coordinate. That of partial coordinates (coords.py 1057-1063) takes no positional argument, and is only called with
one (coordmanager.py 869). -/
def setUnits (c : UCoord) (u : Option (Quant ℚ)) : Except Err UCoord :=
  match c.coord with
  | .part _ => .error .typeError
  | _ => .ok (c.setLabeled u)

/-- coords.py 1255-1265, `CoordRange.convert_units` of labels which are not times. They become floats. -/
def convertRange (c : UCoord) (r : RangeCoord) (u : Option (Quant ℚ)) : Except Err UCoord := do
  let start ← convertUnits r.start u c.units
  let stop ← convertUnits r.stop u c.units
  let r' ← mkRange start stop ((stop - start) / r.len)
  return ⟨.float, .range r', u⟩

/-- coords.py 1438-1445, `CoordArray.convert_units` of labels which are not times. -/
def convertArr (c : UCoord) (vs : List ℚ) (u : Option (Quant ℚ)) : Except Err UCoord :=
  match c.units with
  | none => .ok (c.setLabeled u)
  | some a => do
    let vs' ← convertArray vs u (some a)
    let d ← getCoordData .float vs'
    return ⟨.float, d, u⟩

/-- `convert_units` of a coordinate: coords.py 1255-1265 (times are left alone), 1438-1446, 1064 (as for `setUnits`; the callers are
coords.py 572 and coordmanager.py 879). -/
def convert (c : UCoord) (u : Option (Quant ℚ)) : Except Err UCoord :=
  match c.coord with
  | .range r => if c.kind = .time then .ok c else c.convertRange r u
  | .mono vs => if c.kind = .time then .ok (c.setLabeled u) else c.convertArr vs u
  | .arr vs => if c.kind = .time then .ok (c.setLabeled u) else c.convertArr vs u
  | .part _ => .error .typeError

/-- coords.py 569-572, `simplify_units`. -/
def simplify (c : UCoord) : Except Err UCoord :=
  c.convert (c.units.map fun q => ⟨1, PintUnit.ofDim q.unit.dim⟩)

end UCoord

/-! ### Patches with units -/

/-- A patch with units: its coordinates with the dimensions they belong to, its data in some order, the units of the data and the other
attributes. -/
structure UPatch where
  dims : List String
  coords : Dict (List String × UCoord)
  data : List ℚ
  dataUnits : Option (Quant ℚ)
  attrs : Dict String
  deriving Repr

/-- coordmanager.py 865-870 and 872-880: change the named coordinates one after the other. -/
def changeCoords (f : UCoord → Option (Quant ℚ) → Except Err UCoord) :
    Dict (Option (Quant ℚ)) → Dict (List String × UCoord) → Except Err (Dict (List String × UCoord))
  | [], m => .ok m
  | (name, u) :: kw, m =>
    match m.get? name with
    | none => .error .keyError
    | some (ds, c) => do
      let c' ← f c u
      changeCoords f kw (m.set name (ds, c'))

/-- coordmanager.py 882-887, `simplify_units`. -/
def simplifyCoords : Dict (List String × UCoord) → Except Err (Dict (List String × UCoord))
  | [] => .ok []
  | (name, ds, c) :: m => do
    let c' ← c.simplify
    let m' ← simplifyCoords m
    return (name, ds, c') :: m'

namespace UPatch

/-- proc/units.py 23-60, `set_units`. The units of the data are always replaced, also where none are given. -/
def setUnits (p : UPatch) (data : Option (Quant ℚ)) (kw : Dict (Option (Quant ℚ))) : Except Err UPatch := do
  let m ← changeCoords UCoord.setUnits kw p.coords
  return { p with coords := m, dataUnits := data }

/-- proc/units.py 103-110, the data and their units in `convert_units`. -/
def convertData (p : UPatch) (data : Option (Quant ℚ)) : Except Err UPatch :=
  match data with
  | none => .ok p
  | some u => do
    let l ← convertArray p.data (some u) p.dataUnits
    return { p with data := l, dataUnits := some u }

/-- proc/units.py 63-113, `convert_units`. -/
def convertUnits (p : UPatch) (data : Option (Quant ℚ)) (kw : Dict (Option (Quant ℚ))) : Except Err UPatch := do
  let p ← p.convertData data
  let m ← changeCoords UCoord.convert kw p.coords
  return { p with coords := m }

/-- units.py 123-132, `get_factor_and_unit(value, simplify=True)`. -/
def baseFactor (u : Option (Quant ℚ)) : ℚ × Option (Quant ℚ) :=
  match u with
  | none => (1, none)
  | some q => (q.base, some ⟨1, PintUnit.ofDim q.unit.dim⟩)

/-- proc/units.py 117-145, `simplify_units`: the data are multiplied with the factor. -/
def simplifyUnits (p : UPatch) : Except Err UPatch := do
  let (factor, u) := baseFactor p.dataUnits
  let m ← simplifyCoords p.coords
  return { p with data := if factor = 1 then p.data else p.data.map (· * factor), coords := m, dataUnits := u }

end UPatch

end Verif
