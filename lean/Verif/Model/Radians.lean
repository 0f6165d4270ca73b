import Verif.Model.PatchOps
/-!
# Radians to strain (`/repo/dascore/transform/strain.py` 214-278)

Numbers are exact and `pi` is the number which stands for π. Of attributes only the units of the data and the gauge length are kept. The warning is not modelled.
-/
namespace Verif

/-- A unit of pint: names of units with their exponents. -/
abbrev UnitWord := List (String × ℤ)

/-- The exponent of a name. -/
def UnitWord.exp (u : UnitWord) (n : String) : ℤ := ((u.filter fun e => e.1 == n).map Prod.snd).sum

/-- The product of two units. Names whose exponent is zero are dropped. -/
def UnitWord.times (u v : UnitWord) : UnitWord :=
  (((u ++ v).map Prod.fst).dedup.map fun n => (n, u.exp n + v.exp n)).filter fun e => e.2 != 0

/-- The power of a unit. -/
def UnitWord.pow (u : UnitWord) (k : ℤ) : UnitWord := u.map fun e => (e.1, e.2 * k)

/-- The registry: how many of which base units a named unit is. -/
abbrev UnitTable := String → ℚ × UnitWord

/-- `quant.to_base_units().magnitude` for the unit. -/
def UnitTable.scale (tab : UnitTable) (u : UnitWord) : ℚ := (u.map fun e => (tab e.1).1 ^ e.2).prod

/-- `quant.to_base_units().units`. -/
def UnitTable.base (tab : UnitTable) (u : UnitWord) : UnitWord := (u.map fun e => (tab e.1).2.pow e.2).foldl UnitWord.times []

/-- strain.py 257 and 271: `str(get_unit("radians")) in str(unit)`, a question about the characters of the names. -/
def UnitWord.saysRadian (u : UnitWord) : Bool := u.any fun e => e.1.toList.tails.any fun r => "radian".toList.isPrefixOf r

/-- What is modelled of a patch. A sample or a gauge length `none` is NaN. -/
structure RadPatch where
  cm : CM
  data : Nd (Option ℚ)
  units : Option (ℚ × UnitWord)
  gauge : Option (Option ℚ)

/-- strain.py 247-254: the gauge length, from the argument or the attributes. NaN is neither missing nor at most zero. -/
def RadPatch.gaugeLength (p : RadPatch) (arg : Option (Option ℚ)) : Except Err (Option ℚ) :=
  match if arg.isSome then arg else p.gauge with
  | none => .error .parameterError
  | some none => .ok none
  | some (some g) => if g ≤ 0 then .error .parameterError else .ok (some g)

/-- The arguments with numbers: wave length, stress constant, refractive index. -/
structure StrainArgs where
  wave : ℚ
  stress : ℚ
  index : ℚ

/-- strain.py 265: the constant. -/
def StrainArgs.const (a : StrainArgs) (pi : ℚ) : Option ℚ → Except Err (Option ℚ)
  | none => .ok none
  | some g => if 4 * pi * a.index * g * a.stress = 0 then .error .zeroDivision else .ok (some (a.wave / (4 * pi * a.index * g * a.stress)))

/-- Products with NaN. -/
def nanMul : Option ℚ → Option ℚ → Option ℚ
  | some x, some y => some (x * y)
  | _, _ => none

/-- strain.py 265-278. -/
def RadPatch.convert (p : RadPatch) (pi : ℚ) (tab : UnitTable) (a : StrainArgs) (g : Option ℚ) (m : ℚ) (u : UnitWord) : Except Err RadPatch := do
  let c ← a.const pi g
  if ((tab.base u).times [("strain", 1), ("radian", -1)]).saysRadian then .error .unitError
  else .ok { p with data := ⟨p.data.shape, fun i => nanMul (nanMul (p.data.get i) c) (some (m * tab.scale u))⟩, units := some (1, (tab.base u).times [("strain", 1), ("radian", -1)]) }

/-- strain.py 214-278, `radians_to_strain`. -/
def RadPatch.toStrain (pi : ℚ) (tab : UnitTable) (a : StrainArgs) (arg : Option (Option ℚ)) (p : RadPatch) : Except Err RadPatch := do
  let g ← p.gaugeLength arg
  match p.units with
  | none => .ok p
  | some (m, u) => if u.saysRadian then p.convert pi tab a g m u else .ok p

end Verif
