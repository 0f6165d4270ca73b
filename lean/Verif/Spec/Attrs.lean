import Verif.Model.Attrs
import Verif.Spec.Equality
/-! What merging attributes should do. -/
namespace Spec
open Verif

/-- The value of attribute `k`, if the set has one that is not to be dropped. -/
def attrOf (drop : List String) (m : AttrSet) (k : String) : Option AVal := if k ∈ drop then none else m.plain.get? k

/-- The summary of coordinate `x`, likewise. -/
def coordOf (drop : List String) (m : AttrSet) (x : String) : Option CSummary := if "coords" ∈ drop then none else m.coords.get? x

/-- The sets that take part in a merge along `name`: those having that coordinate (all if no name is given). -/
def takingPart (name : String) (drop : List String) (models : List AttrSet) : List AttrSet :=
  models.filter fun m => decide (name = "") || (coordOf drop m name).isSome

/-- The summaries to merge. -/
def summaries (name : String) (drop : List String) (models : List AttrSet) : List CSummary :=
  models.filterMap fun m => coordOf drop m name

/-- Two sets agree on attribute `k`: neither has it, or both have the same value. -/
def AgreeOn (drop : List String) (a b : AttrSet) (k : String) : Prop :=
  match attrOf drop a k, attrOf drop b k with
  | none, none => True
  | some v, some w => SameAttr v w
  | _, _ => False

/-- Two sets agree on every attribute, and on every coordinate other than the merged one. -/
structure AgreeAll (name : String) (drop : List String) (a b : AttrSet) : Prop where
  attrs : ∀ k, AgreeOn drop a b k
  coords : ∀ x, (name = "" ∨ x ≠ name) → coordOf drop a x = coordOf drop b x

/-- The summaries of one coordinate can be merged: same dtype, and same units wherever there are any. -/
structure Mergeable (l : List CSummary) : Prop where
  dtype : ∀ s ∈ l, ∀ t ∈ l, s.dtype = t.dtype
  units : ∀ s ∈ l, ∀ t ∈ l, ∀ u v, s.units = some u → t.units = some v → u = v

/-- `s` is the summary of all of `l`. -/
structure Covers (l : List CSummary) (s : CSummary) : Prop where
  least : ∀ t ∈ l, s.min ≤ t.min
  attained : ∃ t ∈ l, s.min = t.min
  greatest : ∀ t ∈ l, t.max ≤ s.max
  attained' : ∃ t ∈ l, s.max = t.max
  dtype : ∀ t ∈ l, s.dtype = t.dtype
  units : ∀ u, s.units = some u ↔ (∃ t ∈ l, t.units = some u)

/-- A set as the library makes it: both parts are dictionaries. -/
structure ProperAttrs (m : AttrSet) : Prop where
  attrs : (Dict.keys m.plain).Nodup
  coords : (Dict.keys m.coords).Nodup

end Spec
