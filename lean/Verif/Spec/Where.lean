import Verif.Model.Where
import Verif.Spec.Arith
/-! # Specification vocabulary for choosing between samples -/
namespace Spec
open Verif

/-- Every dimension carries labels. -/
def Labelled (m : CM) : Prop := ∀ d k c, d ∈ m.dims → m.ents.get? d = some ([d], .one k c) → ∀ n, c ≠ .part n

/-- `q` can be laid over `p`: it has no other dimensions, and if it has all of them they are in the same order. -/
def Overlays (p q : CM) : Prop := (∀ d ∈ q.dims, d ∈ p.dims) ∧ ((∀ d ∈ p.dims, d ∈ q.dims) → p.dims = q.dims)

/-- `r` has the samples of `p` which belong to a sample of `q`, with their labels; `pick i a b` is the sample at `i` made of the samples `a` of
`p` and `b` of `q`. -/
structure Picked {α β γ} (pick : List ℕ → α → β → γ) (p : PatchM α) (q : PatchM β) (r : PatchM γ) : Prop where
  dims : r.cm.dims = p.cm.dims
  /-- Every sample of the result comes from two samples that belong together and carries their labels. -/
  paired : ∀ i, InRange r.data.shape i → ∃ j k, InRange p.data.shape j ∧ InRange q.data.shape k ∧ Together p q j k ∧
    Stands p r j i ∧ Stands q r k i ∧ r.data.get i = pick i (p.data.get j) (q.data.get k)
  /-- All samples that belong together are in the result. -/
  complete : ∀ j k, InRange p.data.shape j → InRange q.data.shape k → Together p q j k →
    ∃ i, InRange r.data.shape i ∧ Stands p r j i ∧ Stands q r k i ∧ r.data.get i = pick i (p.data.get j) (q.data.get k)
  /-- The other coordinates of `p` keep their labels if the dimensions they are attached to are undisturbed. -/
  others : ∀ name ds c, p.cm.ents.get? name = some (ds, c) → name ∉ p.cm.dims → (∀ d ∈ ds, Undisturbed p.cm q.cm d) →
    (q.cm.ents.get? name = none ∨ c.isPartial = false) → (∀ k x, c = .one k x → Storable x.vals) →
    ∀ i, InRange r.data.shape i → label r name i = label p name (p.cm.dims.map fun d => posAlong r d i)
  /-- There are no other coordinates. -/
  none : ∀ name, p.cm.ents.get? name = none → r.cm.ents.get? name = none

/-- An array of this shape can be used with one of shape `target` without changing that shape: it has no more axes, and each is as long as the
one it stands at, counted from the last, or has length one. -/
def FitsIn (shape target : List ℕ) : Prop :=
  shape.length ≤ target.length ∧ ∀ t < shape.length, shape.getD t 0 = 1 ∨ shape.getD t 0 = target.getD (target.length - shape.length + t) 0

end Spec
