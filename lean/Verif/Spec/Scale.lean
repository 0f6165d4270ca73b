import Verif.Spec.Moving
import Verif.Model.Scale
import Mathlib.Algebra.Order.BigOperators.Group.List
import Mathlib.Data.List.ReduceOption
import Mathlib.Algebra.Order.Group.Unbundled.Abs
/-! # What scaling a line of samples means -/
namespace Spec
open Verif

/-- The samples that are not NaN. -/
def known {K : Type} (l : List (Option K)) : List K := l.reduceOption

/-- Every sample but NaN is changed in the same way, NaN stays. -/
def Changed {K : Type} (f : K → K) (l r : List (Option K)) : Prop := r = l.map (Option.map f)

/-- Samples of norm one. -/
def UnitNorm {K : Type} [Field K] [LinearOrder K] (kind : NormKind) (v : List K) : Prop :=
  match kind with
  | .l1 => (v.map abs).sum = 1
  | .l2 => (v.map (· ^ 2)).sum = 1
  | .max => (∀ x ∈ v, |x| ≤ 1) ∧ ∃ x ∈ v, |x| = 1
  | .bit => ∀ x ∈ v, x = 0 ∨ |x| = 1

/-- No sample is the least integer of its width, whose absolute value is too large for that width. Floats have no such value. -/
def NoLeast {K : Type} [Field K] (bits : Option ℕ) (v : List K) : Prop := ∀ b, bits = some b → -(2 : K) ^ (b - 1) ∉ v

/-- A square root. -/
def IsRoot {K : Type} [Field K] [LinearOrder K] (root : K → K) : Prop := ∀ x, 0 ≤ x → 0 ≤ root x ∧ root x * root x = x

end Spec
