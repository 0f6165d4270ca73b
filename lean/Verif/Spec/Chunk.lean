import Mathlib.Data.Rat.Floor
/-! # Specification vocabulary for chunking (independent of the model) -/
namespace Spec

/-- Some interval of `ivs` contains `x`. -/
def Covered (ivs : List (ℚ × ℚ)) (x : ℚ) : Prop := ∃ p ∈ ivs, p.1 ≤ x ∧ x ≤ p.2

/-- Intervals `(lo, hi)` of a table: nothing starts more than `gap` after everything that started before it,
for starts in `(a, b]`. -/
def NoGapBetween (ivs : List (ℚ × ℚ)) (gap a b : ℚ) : Prop :=
  ∀ r ∈ ivs, a < r.1 → r.1 ≤ b → ∃ q ∈ ivs, q.1 < r.1 ∧ r.1 ≤ q.2 + gap

/-- `x` is a point of the sampling grid with origin `a` and spacing `d`. -/
def OnGrid (a d x : ℚ) : Prop := ∃ k : ℤ, x = a + k * d

end Spec
