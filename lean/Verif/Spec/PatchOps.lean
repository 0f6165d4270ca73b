import Verif.Model.PatchOps
import Verif.Spec.CoordManager
/-! # Specification vocabulary for patch operations -/
namespace Spec
open Verif

/-- The length of dimension `d`. -/
def lenDim (m : CM) (d : String) : ℕ := m.ents.lenOf d

/-- Along `dim` the positions `ps`, along the other dimensions all positions. -/
def keepAlong (m : CM) (dim : String) (ps : List ℕ) (d : String) : List ℕ :=
  if d = dim then ps else List.range (lenDim m d)

/-- `q` consists of the positions `ps` of `p` along `dim`: every element is the element of `p` it came from and has the
label it had on `dim`'s own coordinate and on every coordinate not attached to `dim`. Other coordinates attached to
`dim` are gone, unless nothing was dropped. -/
structure Thinned {α} (p q : PatchM α) (dim : String) (ps : List ℕ) : Prop where
  dims : q.cm.dims = p.cm.dims
  shape : q.data.shape = p.cm.dims.map fun d => (keepAlong p.cm dim ps d).length
  data : ∀ i, InRange q.data.shape i → InRange p.data.shape (origin p.cm.dims (keepAlong p.cm dim ps) i) ∧
    q.data.get i = p.data.get (origin p.cm.dims (keepAlong p.cm dim ps) i)
  labels : ∀ name ds c, p.cm.ents.get? name = some (ds, c) → (name = dim ∨ dim ∉ ds ∨ ps = List.range (lenDim p.cm dim)) →
    StorableAfter p.cm (keepAlong p.cm dim ps) name → ∀ i, InRange q.data.shape i →
    label q name i = label p name (origin p.cm.dims (keepAlong p.cm dim ps) i)
  lost : ∀ name ds c, p.cm.ents.get? name = some (ds, c) → name ≠ dim → dim ∈ ds → ps.length ≠ lenDim p.cm dim →
    q.cm.ents.get? name = none
  none : ∀ name, p.cm.ents.get? name = none → q.cm.ents.get? name = none

/-- All positions along `d`, reversed for the dimensions listed. -/
def mirrored (m : CM) (dims : List String) (d : String) : List ℕ :=
  if d ∈ dims then (List.range (lenDim m d)).reverse else List.range (lenDim m d)

/-- No coordinate is attached to two of the dimensions listed. -/
def AttachedOnce (m : CM) (dims : List String) : Prop :=
  ∀ name ds c, m.ents.get? name = some (ds, c) → ∀ d ∈ ds, ∀ e ∈ ds, d ∈ dims → e ∈ dims → d = e

/-- The position of index `i` along dimension `d`. -/
def posAlong {α} (p : PatchM α) (d : String) (i : List ℕ) : ℕ := i.getD (p.cm.dims.idxOf d) 0

/-- What `dropna(dim, how)` should keep: the label at position `k` has no null sample (`any`), or not only null samples
(`all`). -/
def Clean {α} (nul : α → Bool) (all : Bool) (p : PatchM α) (dim : String) (k : ℕ) : Prop :=
  if all then ∃ i, InRange p.data.shape i ∧ posAlong p dim i = k ∧ nul (p.data.get i) = false
  else ∀ i, InRange p.data.shape i → posAlong p dim i = k → nul (p.data.get i) = false

/-- The amounts of padding asked for along `d`. -/
def padOf (kw : Dict (ℕ × ℕ)) (d : String) : ℕ × ℕ := (kw.get? d).getD (0, 0)

/-- Where the element at index `i` of a patch ends up after padding. -/
def shifted (dims : List String) (kw : Dict (ℕ × ℕ)) (i : List ℕ) : List ℕ := List.zipWith (fun d k => k + (padOf kw d).1) dims i

/-- `q` is `p` padded: every element of `p` is in `q`, moved by the padding at the start; all other elements are `fill`.
The labels of a padded dimension go on with the coordinate's step in both directions; every element of `p` keeps its
labels on the dimensions and on all coordinates not attached to a dimension that was enlarged (the others are gone). -/
structure Padded {α} (p q : PatchM α) (kw : Dict (ℕ × ℕ)) (fill : α) : Prop where
  dims : q.cm.dims = p.cm.dims
  shape : q.data.shape = p.cm.dims.map fun d => (padOf kw d).1 + lenDim p.cm d + (padOf kw d).2
  inside : ∀ i, InRange p.data.shape i → InRange q.data.shape (shifted p.cm.dims kw i) ∧
    q.data.get (shifted p.cm.dims kw i) = p.data.get i
  outside : ∀ i, InRange q.data.shape i → (∀ j, InRange p.data.shape j → i ≠ shifted p.cm.dims kw j) → q.data.get i = fill
  own : ∀ d k c, d ∈ kw.keys → p.cm.ents.get? d = some ([d], .one k (.range c)) → ∀ i, InRange q.data.shape i →
    label q d i = some (some (c.start + ((posAlong q d i : ℚ) - (padOf kw d).1) * c.step))
  labels : ∀ name ds c, p.cm.ents.get? name = some (ds, c) → (name ∈ kw.keys ∨ ∀ d ∈ ds, padOf kw d = (0, 0)) →
    (∀ k x, c = .one k x → Storable x.vals) → ∀ i, InRange p.data.shape i →
    label q name (shifted p.cm.dims kw i) = label p name i
  lost : ∀ name ds c, p.cm.ents.get? name = some (ds, c) → name ∉ kw.keys → (∃ d ∈ ds, padOf kw d ≠ (0, 0)) →
    q.cm.ents.get? name = none
  none : ∀ name, p.cm.ents.get? name = none → q.cm.ents.get? name = none

/-- The positions `0, …, n-1` moved round by `v`: position `i` shows what was at `i - v` (modulo `n`). -/
def turned (n : ℕ) (v : ℤ) : List ℕ := (List.range n).map fun i : ℕ => (((i : ℤ) - v) % (n : ℤ)).toNat

/-- `q` is `p` without the length-one dimensions `gone`: the coordinates are dropped as by `drop_coords`, and the element
of `q` at the positions of `i` along the remaining dimensions is the element of `p` at `i`. -/
structure Squeezed {α} (p q : PatchM α) (gone : List String) : Prop where
  dropped : Dropped p.cm q.cm gone
  ones : ∀ d ∈ gone, d ∈ p.cm.dims ∧ lenDim p.cm d = 1
  shape : q.data.shape = q.cm.dims.map (lenDim p.cm)
  data : ∀ i, InRange p.data.shape i → q.data.get (q.cm.dims.map fun d => posAlong p d i) = p.data.get i

/-- `q` is `p` with the dimensions `kw` appended: every element of `p` is copied along the new dimensions, keeps its
labels on the old coordinates, and gets the labels given on the new ones. -/
structure Extended {α} (p q : PatchM α) (kw : Dict MCoord) : Prop where
  dims : q.cm.dims = p.cm.dims ++ kw.map Prod.fst
  shape : q.data.shape = p.data.shape ++ kw.map fun r => r.2.len
  data : ∀ i j, InRange p.data.shape i → InRange (kw.map fun r => r.2.len) j → q.data.get (i ++ j) = p.data.get i
  labels : ∀ name ds c, p.cm.ents.get? name = some (ds, c) → (∀ k x, c = .one k x → Storable x.vals) →
    ∀ i j, InRange p.data.shape i → InRange (kw.map fun r => r.2.len) j → label q name (i ++ j) = label p name i
  given : ∀ name c, (name, c) ∈ kw → ∃ c', SameValues c c' ∧ q.cm.ents.get? name = some ([name], c')
  none : ∀ name, p.cm.ents.get? name = none → name ∉ kw.map Prod.fst → q.cm.ents.get? name = none

end Spec
