import Verif.Model.Resource
/-! # Specification vocabulary for resource managers -/
namespace Spec
open Verif

/-- Manager `r` is outermost: it was not made from another manager. -/
def Outermost (w : IOWorld) (r : ℕ) : Prop := ∃ M, w.mgrs[r]? = some M ∧ ∀ p, M.source ≠ .mgr p

/-- Manager `m` is `r` or nested in it, at any depth. -/
inductive NestedIn (w : IOWorld) (r : ℕ) : ℕ → Prop where
  | self : NestedIn w r r
  | step {m p : ℕ} {M : Mgr} (h : w.mgrs[m]? = some M) (hs : M.source = .mgr p) (hp : NestedIn w r p) : NestedIn w r m

/-- Manager `m` was made from another manager. -/
def Nested (w : IOWorld) (m : ℕ) : Prop := ∃ M p, w.mgrs[m]? = some M ∧ M.source = .mgr p

/-- Handle `h` was opened by manager `r` for type `t`. -/
def OpenedBy (w : IOWorld) (r t h : ℕ) : Prop := (r, t, h) ∈ w.opens

/-- No manager is made from a handle that is already open. -/
def PathsOnly (ops : List IOOp) : Prop := ∀ op ∈ ops, ∀ h, op ≠ .create (.handle h)

/-- The operation leaves or deletes manager `r`. -/
def Leaves (r : ℕ) (op : IOOp) : Prop := op = .exit r ∨ op = .del r

end Spec
