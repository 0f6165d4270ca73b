import Verif.Spec.Aggregate
import Verif.Model.ArrayFunc
/-! # What numpy functions may do to patches -/
namespace Spec
open Verif

/-- `q` holds the array, and has all the labels of `p` at the same positions. -/
structure LabelledAs {α β} (p : PatchM α) (a : Nd β) (q : PatchM β) : Prop where
  dims : q.cm.dims = p.cm.dims
  shape : q.data.shape = a.shape
  data : ∀ i, q.data.get i = a.get i
  labels : ∀ name i, label q name i = label p name i

/-- The function puts the element of the array at `place i` at the position `i`. -/
def Moves {α} (f : Nd α → Nd α) (place : List ℕ → List ℕ) : Prop := ∀ a i, (f a).get i = a.get (place i)

/-- The element moved keeps its labels. -/
def LabelsMoved {α} (p q : PatchM α) (place : List ℕ → List ℕ) : Prop :=
  ∀ name ∈ p.cm.dims, ∀ i, InRange q.data.shape i → label q name i = label p name (place i)

end Spec
