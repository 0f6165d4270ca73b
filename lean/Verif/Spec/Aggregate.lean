import Verif.Model.Aggregate
import Verif.Spec.PatchOps
/-! # Specification vocabulary for aggregations -/
namespace Spec
open Verif

/-- The position `k` of a dimension is one that the `axis` argument denotes, `n` being the number of dimensions. -/
def Denotes (n : ℕ) (axis : AxisArg) (k : ℕ) : Prop :=
  k < n ∧ match axis with
    | .none => True
    | .one a => (k : ℤ) = a ∨ (k : ℤ) = a + n
    | .many as => ∃ a ∈ as, (k : ℤ) = a ∨ (k : ℤ) = a + n

/-- `q` is `p` aggregated with `f` over the dimensions `names`: it has the same dimensions, those aggregated with a single
position; every element is `f` of the elements of `p` at the same position along the other dimensions, in the order of the array.
Coordinates not attached to an aggregated dimension give each element the label the aggregated elements had; a
coordinate attached to an aggregated dimension (longer than one) is gone, except for that dimension's own. -/
structure Collapsed {α β} (f : List α → β) (p : PatchM α) (q : PatchM β) (names : List String) : Prop where
  dims : q.cm.dims = p.cm.dims
  shape : q.data.shape = p.cm.dims.map fun d => if d ∈ names then 1 else lenDim p.cm d
  data : ∀ i, InRange q.data.shape i → ∃ js : List (List ℕ), q.data.get i = f (js.map p.data.get) ∧ js.Pairwise (· < ·) ∧
    ∀ j, j ∈ js ↔ InRange p.data.shape j ∧ ∀ d ∈ p.cm.dims, d ∉ names → posAlong p d j = posAlong p d i
  labels : ∀ name ds c, p.cm.ents.get? name = some (ds, c) → name ∉ names → (∀ d ∈ ds, d ∈ names → lenDim p.cm d = 1) →
    (∀ k x, c = .one k x → Storable x.vals) → ∀ i, InRange q.data.shape i → label q name i = label p name i
  lost : ∀ name ds c, p.cm.ents.get? name = some (ds, c) → name ∉ names → (∃ d ∈ ds, d ∈ names ∧ lenDim p.cm d ≠ 1) →
    q.cm.ents.get? name = none
  none : ∀ name, p.cm.ents.get? name = none → q.cm.ents.get? name = none

/-- The coordinate of an aggregated dimension has no value, unless it had only one position: then it has the label it had. -/
def LabelsEmptied {α β} (p : PatchM α) (q : PatchM β) (d : String) : Prop :=
  ∀ i, InRange q.data.shape i → (lenDim p.cm d ≠ 1 → label q d i = some Option.none) ∧
    (lenDim p.cm d = 1 → (∀ ds k x, p.cm.ents.get? d = some (ds, .one k x) → Storable x.vals) → label q d i = label p d i)

/-- `q` is `p` with the dimension `dim` aggregated away: every element is `f` of the elements along it, and carries on each
coordinate not attached to `dim` the label which all of them had; coordinates attached to `dim` are gone. -/
structure Removed {α β} (f : List α → β) (p : PatchM α) (q : PatchM β) (dim : String) : Prop where
  dims : q.cm.dims = p.cm.dims.filter (· ≠ dim)
  shape : q.data.shape = (p.cm.dims.filter (· ≠ dim)).map (lenDim p.cm)
  data : ∀ i, InRange q.data.shape i → ∃ js : List (List ℕ), q.data.get i = f (js.map p.data.get) ∧ js.Pairwise (· < ·) ∧
    ∀ j, j ∈ js ↔ InRange p.data.shape j ∧ ∀ d ∈ p.cm.dims, d ≠ dim → posAlong p d j = i.getD (q.cm.dims.idxOf d) 0
  labels : ∀ name ds c, p.cm.ents.get? name = some (ds, c) → dim ∉ ds → name ≠ dim → ∀ i, InRange q.data.shape i →
    ∀ j, InRange p.data.shape j → (∀ d ∈ p.cm.dims, d ≠ dim → posAlong p d j = i.getD (q.cm.dims.idxOf d) 0) →
      label q name i = label p name j
  lost : ∀ name ds c, p.cm.ents.get? name = some (ds, c) → dim ∈ ds → q.cm.ents.get? name = none
  none : ∀ name, p.cm.ents.get? name = none → q.cm.ents.get? name = none

/-- The coordinate of an aggregated dimension has the one value which `g` makes of its values. -/
def LabelIs {α β} (g : List ℚ → ℚ) (p : PatchM α) (q : PatchM β) (d : String) : Prop :=
  ∀ ds k c, p.cm.ents.get? d = some (ds, .one k c) → ∀ i, InRange q.data.shape i → label q d i = some (some (g c.vals))

/-- Aggregating one dimension after the other. -/
inductive AggregatedBy {α} (f : List α → α) (r : DimReduce) : PatchM α → List String → PatchM α → Prop where
  | done (p : PatchM α) : AggregatedBy f r p [] p
  | emptied {p p₁ q : PatchM α} {d : String} {ds : List String} : r = .empty → Collapsed f p p₁ [d] → LabelsEmptied p p₁ d →
      AggregatedBy f r p₁ ds q → AggregatedBy f r p (d :: ds) q
  | removed {p p₁ q : PatchM α} {d : String} {ds : List String} : r = .squeeze → Removed f p p₁ d →
      AggregatedBy f r p₁ ds q → AggregatedBy f r p (d :: ds) q

end Spec

namespace Spec
open Verif

/-- Every dimension has a one dimensional coordinate. -/
def DimsListed (m : CM) : Prop := ∀ d ∈ m.dims, ∃ k c, m.ents.get? d = some ([d], .one k c)

end Spec
