import Verif.Model.Radians
import Verif.Spec.PatchOps
/-! # What conversion of radians to strain should give -/
namespace Spec
open Verif

/-- The gauge length asked for: the argument, or, without one, the attribute of the patch. -/
def IsGauge (p : RadPatch) (arg : Option (Option ℚ)) (g : ℚ) : Prop := arg = some (some g) ∨ arg = none ∧ p.gauge = some (some g)

/-- In base units the unit has radians to the first power, and no other name with "radian" in it. -/
def RadiansOnce (b : UnitWord) : Prop := b.exp "radian" = 1 ∧ ∀ e ∈ b, e.1 ≠ "radian" → UnitWord.saysRadian [e] = false

/-- Equation 3 of Lindsey et al. (2020): the strain for a change of phase by `x` radians. -/
def strainOf (pi : ℚ) (a : StrainArgs) (g x : ℚ) : ℚ := a.wave / (4 * pi * a.index * g * a.stress) * x

/-- Converted data: same coordinates, each sample (`m` units `u`, in radians) the strain it stands for, units with strain in the place of radians. -/
structure IsStrain (pi : ℚ) (tab : UnitTable) (a : StrainArgs) (g m : ℚ) (u : UnitWord) (p q : RadPatch) : Prop where
  cm : q.cm = p.cm
  gauge : q.gauge = p.gauge
  shape : q.data.shape = p.data.shape
  data : ∀ i, q.data.get i = (p.data.get i).map fun x => strainOf pi a g (x * m * tab.scale u)
  units : ∃ w, q.units = some (1, w) ∧ ∀ n, w.exp n = (tab.base u).exp n + (if n = "strain" then 1 else 0) - if n = "radian" then 1 else 0

end Spec
