import Verif.Model.History
/-! What recording the history should do. -/
namespace Spec
open Verif

/-- The function keeps the history: a new patch it returns has the history of the patch it was given. -/
def KeepsHistory {δ : Type} (f : PatchFn δ) : Prop := ∀ p q, f.body p = .ok (.fresh q) → q.history = p.history

/-- The patch has everything the function requires. -/
structure HasRequired {δ : Type} (f : PatchFn δ) (p : TPatch δ) : Prop where
  dims : ∀ d ∈ f.requiredDims, d ∈ p.dims
  coords : ∀ c ∈ f.requiredCoords, c ∈ p.coords
  attrs : match f.requiredAttrs with
    | .names l => ∀ k ∈ l, ∃ v, p.attrs.get? k = some v
    | .values d => ∀ a ∈ d, ∃ v, p.attrs.get? a.1 = some v ∧ v.pyEq a.2 = true

/-- A chain of calls `patch.f(...).g(...)` from `p` to `r`; `made` are the functions that returned a new patch, in order. -/
inductive Chain {δ : Type} : List (PatchFn δ) → TPatch δ → List (PatchFn δ) → TPatch δ → Prop
  | done (p) : Chain [] p [] p
  | kept (f fs p o q made r) : f.body p = .ok .same → f.call p = .ok o → o.patch p = .ok q → Chain fs q made r → Chain (f :: fs) p made r
  | new (f fs p n o q made r) : f.body p = .ok (.fresh n) → f.call p = .ok o → o.patch p = .ok q → Chain fs q made r →
      Chain (f :: fs) p (f :: made) r

/-- The entry of a function: none if it is not recorded, the call, or just the name. -/
def recorded {δ : Type} (f : PatchFn δ) : Option String :=
  match f.mode with
  | .off => none
  | .full => some (callStr f.name f.args)
  | .methodName => some f.name

end Spec
