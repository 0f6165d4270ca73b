import Verif.Spec.CoordManager
/-! # What a conversion keeps of a patch -/
namespace Spec
open Verif
variable {α : Type}

/-- `q` is what is left of `p` after it was converted and converted back: the samples and dimensions, and of the coordinates those that are `kept`, with their dimensions and values.
Even coordinates stay even. -/
structure Converted (p q : PatchM α) (kept : String → Prop) : Prop where
  dims : q.cm.dims = p.cm.dims
  data : q.data = p.data
  shape : q.cm.shape = q.data.shape
  coords : ∀ name ds c, kept name → p.cm.ents.get? name = some (ds, c) → ∃ x, q.cm.ents.get? name = some (ds, x) ∧ SameValues c x
  even : ∀ name ds k r, kept name → p.cm.ents.get? name = some (ds, .one k (.range r)) → 2 ≤ r.len → q.cm.ents.get? name = some (ds, .one k (.range r))
  others : ∀ name, ¬ kept name → q.cm.ents.get? name = none

/-- A coordinate without values. -/
def Blank (c : MCoord) : Prop := ∃ k n, c = .one k (.part n)

/-- The coordinates that data arrays keep: those of the dimensions, and all others that have values. -/
def KeptByArrays (m : CM) (name : String) : Prop := name ∈ m.dims ∨ ∃ ds c, m.ents.get? name = some (ds, c) ∧ ¬ Blank c

end Spec
