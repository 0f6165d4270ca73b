import Verif.Model.Calculus
import Verif.Spec.Correlate
import Verif.Spec.Aggregate
import Mathlib.Algebra.Order.Group.Unbundled.Abs
import Mathlib.Algebra.Order.Field.Rat
/-! # Specification vocabulary for derivatives and integrals -/
namespace Spec
open Verif

/-- The place of the sample at index `i` along `d`: its label as a number (for times, in seconds). -/
def place {α} (p : PatchM α) (d : String) (i : List ℕ) : ℚ :=
  match p.cm.ents.get? d, label p d i with
  | some (_, .one k _), some (some v) => stepNumber k v
  | _, _ => 0

/-- The samples at `i` and `j` lie on the same line along `d`. -/
def SameLine {α} (p : PatchM α) (d : String) (i j : List ℕ) : Prop := ∀ e ∈ p.cm.dims, e ≠ d → posAlong p e j = posAlong p e i

/-- The labels of `d` ascend or descend strictly. -/
def Sequenced (m : CM) (d : String) : Prop :=
  d ∈ m.dims ∧ ∃ k c, m.ents.get? d = some ([d], .one k c) ∧ ((∃ r, c = .range r) ∨ ∃ vs, c = .mono vs)

/-- `q` is the derivative of `p` along `d`, estimated from every `step`-th sample. -/
structure Derivative (p q : PatchM ℚ) (d : String) (step : ℕ) : Prop where
  coords : q.cm = p.cm
  shape : q.data.shape = p.data.shape
  /-- The derivative of a polynomial of degree two is exact, at all samples. -/
  exact : ∀ i, InRange p.data.shape i → ∀ a b c : ℚ,
    (∀ j, InRange p.data.shape j → SameLine p d i j → posAlong p d j % step = posAlong p d i % step →
      p.data.get j = a + b * place p d j + c * place p d j ^ 2) → q.data.get i = b + 2 * c * place p d i
  /-- Away from the edges, and where the spacing is even, it is the central difference. -/
  central : ∀ i j k, InRange p.data.shape i → InRange p.data.shape j → InRange p.data.shape k → SameLine p d i j → SameLine p d i k →
    posAlong p d j + step = posAlong p d i → posAlong p d i + step = posAlong p d k →
    place p d k - place p d i = place p d i - place p d j →
    q.data.get i = (p.data.get k - p.data.get j) / (place p d k - place p d j)

/-- `F` is the integral of `p` along `d` up to each sample, by the trapezoidal rule. -/
structure Accumulates (p : PatchM ℚ) (d : String) (F : List ℕ → ℚ) : Prop where
  first : ∀ i, InRange p.data.shape i → posAlong p d i = 0 → F i = 0
  next : ∀ i j, InRange p.data.shape i → InRange p.data.shape j → SameLine p d i j → posAlong p d j = posAlong p d i + 1 →
    F j = F i + (place p d j - place p d i) * ((p.data.get i + p.data.get j) / 2)

/-- `q` is the integral of `p` along `d` from the first sample on, by the trapezoidal rule. -/
structure Integral (p q : PatchM ℚ) (d : String) : Prop where
  coords : q.cm = p.cm
  shape : q.data.shape = p.data.shape
  data : Accumulates p d q.data.get

/-- The names of the coordinates that keep the limits of an integration. -/
def limitName (d s : String) : String := "pre_integrate_" ++ d ++ s

/-- No dimension has a name with which the names of the limits begin. -/
def LimitsFree (m : CM) (d : String) : Prop :=
  ∀ e ∈ m.dims, ¬ e.toList <+: (limitName d "_min").toList ∧ ¬ e.toList <+: (limitName d "_max").toList

/-- `q` is the integral of `p` over all of `d`. -/
structure Definite (p q : PatchM ℚ) (d : String) : Prop where
  dims : q.cm.dims = p.cm.dims
  shape : q.data.shape = p.cm.dims.map fun e => if e = d then 1 else lenDim p.cm e
  /-- The data are the integral up to the last sample. -/
  data : ∀ F, Accumulates p d F → ∀ i, InRange q.data.shape i → ∀ j, InRange p.data.shape j → SameLine p d i j →
    posAlong p d j + 1 = lenDim p.cm d → q.data.get i = F j
  /-- The label is the mean of the labels: exactly for floats, else without the fraction. -/
  mean : ∀ k c, p.cm.ents.get? d = some ([d], .one k c) → ∀ i, InRange q.data.shape i → ∃ v, label q d i = some (some v) ∧
    (k = .float → v * c.vals.length = c.vals.sum) ∧ |v - c.vals.sum / c.vals.length| < 1
  /-- The limits are kept. -/
  limits : ∀ k c, p.cm.ents.get? d = some ([d], .one k c) → ∀ i, InRange q.data.shape i → ∃ lo hi,
    label q (limitName d "_min") i = some (some lo) ∧ label q (limitName d "_max") i = some (some hi) ∧
    lo ∈ c.vals ∧ hi ∈ c.vals ∧ ∀ v ∈ c.vals, lo ≤ v ∧ v ≤ hi
  labels : ∀ name ds c, p.cm.ents.get? name = some (ds, c) → name ∉ [d, limitName d "_min", limitName d "_max"] →
    (d ∈ ds → lenDim p.cm d = 1) → (∀ k x, c = .one k x → Storable x.vals) → ∀ i, InRange q.data.shape i → label q name i = label p name i
  lost : ∀ name ds c, p.cm.ents.get? name = some (ds, c) → name ∉ [d, limitName d "_min", limitName d "_max"] → d ∈ ds →
    lenDim p.cm d ≠ 1 → q.cm.ents.get? name = none

/-- `q` is estimated from pairs of samples of `p` that are `n` apart along `d`, and lies half way between them. -/
structure Staggered (p q : PatchM ℚ) (d : String) (n : ℕ) : Prop where
  dims : q.cm.dims = p.cm.dims
  shape : q.data.shape = p.cm.dims.map fun e => if e = d then lenDim p.cm d - n else lenDim p.cm e
  data : ∀ i j k, InRange q.data.shape i → InRange p.data.shape j → InRange p.data.shape k → SameLine p d i j → SameLine p d i k →
    posAlong p d j = posAlong p d i → posAlong p d k = posAlong p d i + n →
    q.data.get i = (p.data.get k - p.data.get j) / (place p d k - place p d j) ∧
    label q d i = some (some ((place p d j + place p d k) / 2))
  labels : ∀ name ds c, p.cm.ents.get? name = some (ds, c) → d ∉ ds → (∀ k x, c = .one k x → Storable x.vals) → ∀ i,
    InRange q.data.shape i → label q name i = label p name i
  lost : ∀ name ds c, p.cm.ents.get? name = some (ds, c) → name ≠ d → d ∈ ds → q.cm.ents.get? name = none

end Spec
