import Mathlib.Data.Rat.Floor
/-! # Specification vocabulary for coordinates (independent of the model) -/
namespace Spec

/-- The `n` numbers `start, start + step, start + 2*step, ...`. -/
def progression (start step : ℚ) (n : ℕ) : List ℚ := (List.range n).map fun i : ℕ => start + (i : ℚ) * step

/-- `x` lies between the limits `a` and `b` (in either order, `none` = unbounded), each limit being
widened by `tol`. -/
def Between (tol : ℚ) (a b : Option ℚ) (x : ℚ) : Prop :=
  match a, b with
  | none, none => True
  | some a, none => a - tol ≤ x
  | none, some b => x ≤ b + tol
  | some a, some b => min a b - tol ≤ x ∧ x ≤ max a b + tol

instance (tol : ℚ) (a b : Option ℚ) (x : ℚ) : Decidable (Between tol a b x) := by
  unfold Between; cases a <;> cases b <;> infer_instance

/-- The samples of `l` between the limits, in order. -/
def samplesBetween (tol : ℚ) (a b : Option ℚ) (l : List ℚ) : List ℚ := l.filter fun x => Between tol a b x

/-- The element a Python list gives for index `i`: negative indices count from the end. -/
def pyIndex {α} (l : List α) (i : ℤ) : Option α :=
  if 0 ≤ i then l[i.toNat]? else if -(l.length : ℤ) ≤ i then l[(i + l.length).toNat]? else none

end Spec

namespace Spec

/-- All consecutive differences are within numpy's tolerance (0.1 % plus 1e-8) of one common value. -/
def NearlyEven (l : List ℚ) : Prop :=
  ∃ m : ℚ, ∀ i x y, l[i]? = some x → l[i + 1]? = some y → |y - x - m| ≤ 1 / 10 ^ 8 + 1 / 1000 * |m|

/-- Strictly increasing or strictly decreasing. -/
def StrictMono' (l : List ℚ) : Prop := l.Pairwise (· < ·) ∨ l.Pairwise (· > ·)

/-- Positions at which `v` occurs in `l`, ascending. -/
def positions (v : ℚ) (l : List ℚ) : List ℕ := (List.range l.length).filter fun i => decide (l[i]? = some v)

end Spec

namespace Spec

/-- Label lists which `get_coord` can store without altering them: at most one label, an exact arithmetic
progression, or anything that is not strictly monotonic or not nearly even. -/
def Storable (l : List ℚ) : Prop :=
  l.length ≤ 1 ∨ (∃ s d n, d ≠ 0 ∧ l = progression s d n) ∨ ¬ StrictMono' l ∨ ¬ NearlyEven l

end Spec

namespace Spec

/-- Index `i` is the first sample of the ascending list `l` that is not smaller than `v` (up to `tol`). -/
def FirstAtOrAfter (tol : ℚ) (l : List ℚ) (v : ℚ) (i : ℤ) : Prop :=
  0 ≤ i ∧ i < l.length ∧ ∀ (j : ℕ) x, l[j]? = some x → (v - tol ≤ x ↔ i ≤ (j : ℤ))

/-- `m` is the least element of `l`. -/
def IsMin (l : List ℚ) (m : ℚ) : Prop := m ∈ l ∧ ∀ x ∈ l, m ≤ x
/-- `m` is the greatest element of `l`. -/
def IsMax (l : List ℚ) (m : ℚ) : Prop := m ∈ l ∧ ∀ x ∈ l, x ≤ m

end Spec
