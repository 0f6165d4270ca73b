import Verif.Model.Arith
import Verif.Spec.PatchOps
import Verif.Spec.Aggregate
import Mathlib.Algebra.Order.Group.Unbundled.Abs
import Mathlib.Algebra.Order.Field.Rat
/-! # Specification vocabulary for arithmetic between patches -/
namespace Spec
open Verif

/-- The samples at `j` of `p` and at `k` of `q` belong together: on every dimension both have they carry the same label. Where one of them
carries no label they are at the same position, or one of the patches has only one sample there (which goes with all). -/
def Together {α β} (p : PatchM α) (q : PatchM β) (j k : List ℕ) : Prop :=
  ∀ d ∈ p.cm.dims, d ∈ q.cm.dims →
    (∀ a b, label p d j = some (some a) → label q d k = some (some b) → a = b) ∧
    (label p d j = some none ∨ label q d k = some none →
      posAlong p d j = posAlong q d k ∨ lenDim p.cm d = 1 ∨ lenDim q.cm d = 1)

/-- The sample at `i` of the result `r` is where the sample at `j` of `p` belongs: it carries the labels of that sample on all dimensions
of `p`, and has its position where there is no label (unless there is only one). -/
def Stands {α γ} (p : PatchM α) (r : PatchM γ) (j i : List ℕ) : Prop :=
  ∀ d ∈ p.cm.dims, (∀ v, label p d j = some (some v) → label r d i = some (some v)) ∧
    (label p d j = some none → posAlong r d i = posAlong p d j ∨ lenDim p.cm d = 1)

/-- Lists of labels of the same length that differ by less than the tolerance of `np.isclose` are equal. -/
def CloseIsEqual (l l' : List ℚ) : Prop :=
  l.length = l'.length → (∀ (t : ℕ) a b, l[t]? = some a → l'[t]? = some b → |a - b| ≤ 1 / 10 ^ 8 + 1 / 10 ^ 5 * |b|) → l = l'

/-- What is asked of two patches before they are combined. Labels of dimensions can be stored unaltered; on a dimension both have, no label
is repeated, close labels are equal, and the common labels can be stored unaltered. A dimension of only one of them is not the
name of another coordinate of the other, and no name looks like a limit of a dimension. -/
structure Joinable (p q : CM) : Prop where
  left : ∀ d k c, d ∈ p.dims → p.ents.get? d = some ([d], .one k c) → Storable c.vals
  right : ∀ d k c, d ∈ q.dims → q.ents.get? d = some ([d], .one k c) → Storable c.vals
  nodup : ∀ d k c k' c', d ∈ p.dims → d ∈ q.dims → p.ents.get? d = some ([d], .one k c) → q.ents.get? d = some ([d], .one k' c') →
    c.vals.Nodup ∧ c'.vals.Nodup
  close : ∀ d k c k' c', d ∈ p.dims → d ∈ q.dims → p.ents.get? d = some ([d], .one k c) → q.ents.get? d = some ([d], .one k' c') →
    CloseIsEqual c.vals c'.vals
  common : ∀ d k c k' c', d ∈ p.dims → d ∈ q.dims → p.ents.get? d = some ([d], .one k c) → q.ents.get? d = some ([d], .one k' c') →
    ∀ l : List ℚ, l.Pairwise (· < ·) → (∀ v, v ∈ l ↔ v ∈ c.vals ∧ v ∈ c'.vals) → Storable l
  fresh : (∀ d ∈ q.dims, d ∉ p.dims → p.ents.get? d = none) ∧ (∀ d ∈ p.dims, d ∉ q.dims → q.ents.get? d = none)
  plain : ∀ name, name ∈ p.ents.keys ∨ name ∈ q.ents.keys → matchesPrefixSuffix (p.dims ++ q.dims) name = false

/-- Both patches have the same ascending labels on `d`, or only one of them has it. -/
def Undisturbed (p q : CM) (d : String) : Prop :=
  ∀ k c k' c', p.ents.get? d = some ([d], .one k c) → q.ents.get? d = some ([d], .one k' c') →
    c.labels = c'.labels ∧ c.labels.length = c.vals.length ∧ c.vals.Pairwise (· < ·)

/-- `r` is the result of combining the samples of `p` and `q` with `f`. -/
structure Combined {α β γ} (f : α → β → γ) (p : PatchM α) (q : PatchM β) (r : PatchM γ) : Prop where
  /-- The dimensions of `p` followed by the other dimensions of `q`. -/
  dims : r.cm.dims = p.cm.dims ++ q.cm.dims.filter fun d => d ∉ p.cm.dims
  /-- Every sample of the result comes from two samples that belong together and carries their labels. -/
  paired : ∀ i, InRange r.data.shape i → ∃ j k, InRange p.data.shape j ∧ InRange q.data.shape k ∧ Together p q j k ∧
    Stands p r j i ∧ Stands q r k i ∧ r.data.get i = f (p.data.get j) (q.data.get k)
  /-- All samples that belong together are combined. -/
  complete : ∀ j k, InRange p.data.shape j → InRange q.data.shape k → Together p q j k →
    ∃ i, InRange r.data.shape i ∧ Stands p r j i ∧ Stands q r k i ∧ r.data.get i = f (p.data.get j) (q.data.get k)
  /-- The other coordinates of `p` keep their labels if the dimensions they are attached to are undisturbed. -/
  others : ∀ name ds c, p.cm.ents.get? name = some (ds, c) → name ∉ p.cm.dims → (∀ d ∈ ds, Undisturbed p.cm q.cm d) →
    (q.cm.ents.get? name = none ∨ c.isPartial = false) → (∀ k x, c = .one k x → Storable x.vals) →
    ∀ i, InRange r.data.shape i → label r name i = label p name (p.cm.dims.map fun d => posAlong r d i)
  /-- There are no other coordinates. -/
  none : ∀ name, p.cm.ents.get? name = none → name ∉ q.cm.dims → r.cm.ents.get? name = none

/-- numpy's rule for an array of this shape that is used where index `i` has as many or more axes: the last axes of both belong together and an
axis of length one stands for all positions. -/
def castTo (shape i : List ℕ) : List ℕ :=
  (List.range shape.length).map fun t => if shape.getD t 0 = 1 then 0 else i.getD (i.length - shape.length + t) 0

/-- `r` is the result of combining the samples of `p` and of the array `a` with `f`. -/
structure WithArray {α β γ} (f : α → β → γ) (p : PatchM α) (a : Nd β) (r : PatchM γ) : Prop where
  dims : r.cm.dims = p.cm.dims
  /-- Only a dimension with one sample and without label gets longer. -/
  lengths : ∀ d ∈ p.cm.dims, lenDim r.cm d = lenDim p.cm d ∨ ∃ k, p.cm.ents.get? d = some ([d], .one k (.part 1))
  /-- The samples combined. -/
  data : ∀ i, InRange r.data.shape i → InRange p.data.shape (castTo p.data.shape i) ∧ InRange a.shape (castTo a.shape i) ∧
    r.data.get i = f (p.data.get (castTo p.data.shape i)) (a.get (castTo a.shape i))
  /-- No labels change. -/
  labels : ∀ name ds c, p.cm.ents.get? name = some (ds, c) → (∀ d ∈ ds, lenDim r.cm d = lenDim p.cm d) → (∀ k x, c = .one k x → Storable x.vals) →
    ∀ i, InRange r.data.shape i → label r name i = label p name (castTo p.data.shape i)

end Spec
