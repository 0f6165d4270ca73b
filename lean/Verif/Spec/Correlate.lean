import Verif.Model.Correlate
import Verif.Spec.PatchOps
/-! # Specification vocabulary for shifted correlations -/
namespace Spec
open Verif

/-- The step as a number: times are nanoseconds and count in seconds. -/
def stepNumber : Kind → ℚ → ℚ
  | .time, s => s / 10 ^ 9
  | _, s => s

/-- `q` is `p` with the samples along `dim` put in the order of their lags. The lags are multiples `t` of the step with `-n ≤ 2 t < n`;
the sample at position `k` has the lag with `t ≡ k (mod n)`. `f` is what happens to each value. -/
structure LagShifted {α} (f : α → α) (p q : PatchM α) (dim lag : String) (step : ℚ) : Prop where
  dims : q.cm.dims = p.cm.dims.map fun d => if d = dim then lag else d
  shape : q.data.shape = p.data.shape
  coord : ∃ k e, q.cm.ents.get? lag = some ([lag], .one k (.range e)) ∧ e.step = step ∧ e.len = lenDim p.cm dim
  moved : ∀ i, InRange p.data.shape i → ∃ x, ∃ t : ℤ, InRange q.data.shape (i.set (p.cm.dims.idxOf dim) x) ∧
    label q lag (i.set (p.cm.dims.idxOf dim) x) = some (some (t * step)) ∧ -(lenDim p.cm dim : ℤ) ≤ 2 * t ∧ 2 * t < lenDim p.cm dim ∧
    (lenDim p.cm dim : ℤ) ∣ t - posAlong p dim i ∧ q.data.get (i.set (p.cm.dims.idxOf dim) x) = f (p.data.get i)
  sorted : ∀ j, InRange q.data.shape j → label q lag j = some (some (((posAlong p dim j : ℤ) - (lenDim p.cm dim / 2 : ℕ)) * step))
  labels : ∀ nm ds c, p.cm.ents.get? nm = some (ds, c) → nm ≠ dim → (∀ k x, c = .one k x → Storable x.vals) →
    ∀ i, InRange q.data.shape i → label q nm i = label p nm i

/-- Every coordinate can be read again by `get_coord`. -/
def Readable (m : CM) : Prop := ∀ name ds c, m.ents.get? name = some (ds, c) → ∃ x, c.canon = .ok x

end Spec
