import Verif.Model.Stack
import Verif.Spec.Concat
/-! # Specification vocabulary for added patches -/
namespace Spec
open Verif
variable {α β : Type}

/-- The coordinates which both patches have are the same; that of the dimension which may vary need only have as many labels. -/
def Agrees (vary : Option String) (first p : HPatch α β) : Prop :=
  ∀ name ds c ds' c', first.cm.ents.get? name = some (ds, c) → p.cm.ents.get? name = some (ds', c') →
    SameCoord c c' ∨ (vary = some name ∧ c.shape = c'.shape)

/-- The labels of dimension `d` of `p` moved so that the lowest is zero. -/
structure StartsZero (d : String) (p q : HPatch α β) : Prop where
  labels : ∃ lo, IsMin (valuesOf d p) lo ∧ ∀ i, InRange p.data.shape i → ∀ x, label p.toPatchM d i = some (some x) →
    label q.toPatchM d i = some (some (x - lo))

open Classical in
/-- `q` is the sum of those patches which agree with the first, at the labels of the first. The dimension which may vary starts at zero. -/
structure SumOf [AddCommMonoid α] (vary : Option String) (first : HPatch α β) (ps : List (HPatch α β)) (q : HPatch α β) : Prop where
  dims : q.cm.dims = first.cm.dims
  shape : q.data.shape = first.data.shape
  data : ∀ i, InRange first.data.shape i →
    q.data.get i = ((ps.filter fun p => decide (Agrees vary first p)).map fun p => p.data.get i).sum
  labels : ∀ name ds c, first.cm.ents.get? name = some (ds, c) → vary ≠ some name → (∀ k x, c = .one k x → Storable x.vals) →
    ∀ i, label q.toPatchM name i = label first.toPatchM name i
  none : ∀ name, first.cm.ents.get? name = none → q.cm.ents.get? name = none
  rest : q.attrs = first.attrs ∧ q.history = first.history ++ ["stack"]

end Spec
