import Verif.Model.Concat
import Verif.Spec.Equality
/-! # Specification vocabulary for joined patches -/
namespace Spec
open Verif
variable {α β : Type}

/-- The index moved by `off` along `dim`. -/
def movedAlong (dims : List String) (dim : String) (off : ℕ) (i : List ℕ) : List ℕ :=
  i.set (dims.idxOf dim) (i.getD (dims.idxOf dim) 0 + off)

/-- How many samples along `dim` come before those of patch `j` of the group. -/
def before (dim : String) (g : List (HPatch α β)) (j : ℕ) : ℕ := ((g.take j).map fun p => lenDim p.cm dim).sum

/-- `gs` are the elements of `l` in order, in groups of `n` (the last may be smaller); without `n` in one group. -/
structure Grouped {γ : Type} (n : Option ℕ) (l : List γ) (gs : List (List γ)) : Prop where
  all : gs.flatten = l
  nonempty : ∀ g ∈ gs, g ≠ []
  one : n = none → gs.length ≤ 1
  size : ∀ k, n = some k → ∀ g ∈ gs, g.length ≤ k
  full : ∀ k, n = some k → ∀ (j : ℕ) g, j + 1 < gs.length → gs[j]? = some g → g.length = k

/-- The values of the coordinate of `dim`, where it has any. -/
def valuesOf (dim : String) (p : HPatch α β) : List ℚ :=
  match p.cm.ents.get? dim with
  | some (_, .one _ c) => c.vals
  | _ => []

/-- All labels along `dim` of the patches of a group, where they have values. -/
def allLabels (dim : String) (g : List (HPatch α β)) : List ℚ := g.flatMap (valuesOf dim)

/-- `q` is the patches of `g` one after the other along `dim`. Each sample of each patch is found in `q`, moved by the samples before it, with its
label along `dim`; it has the labels of the first patch on coordinates not attached to `dim`. Other coordinates attached to `dim`
are gone if the length changed. -/
structure Joined (dim : String) (g : List (HPatch α β)) (q : HPatch α β) : Prop where
  dims : ∀ p ∈ g, q.cm.dims = p.cm.dims
  shape : q.data.shape = q.cm.dims.map (lenDim q.cm)
  length : lenDim q.cm dim = (g.map fun p => lenDim p.cm dim).sum
  others : ∀ p ∈ g, ∀ d ∈ p.cm.dims, d ≠ dim → lenDim q.cm d = lenDim p.cm d
  data : ∀ (j : ℕ) p, g[j]? = some p → ∀ i, InRange p.data.shape i →
    InRange q.data.shape (movedAlong q.cm.dims dim (before dim g j) i) ∧
    q.data.get (movedAlong q.cm.dims dim (before dim g j) i) = p.data.get i
  own : Storable (allLabels dim g) → ∀ (j : ℕ) p, g[j]? = some p → ∀ i, InRange p.data.shape i →
    label q.toPatchM dim (movedAlong q.cm.dims dim (before dim g j) i) = label p.toPatchM dim i
  labels : ∀ p, g[0]? = some p → ∀ name ds c, p.cm.ents.get? name = some (ds, c) → dim ∉ ds → name ≠ dim →
    (∀ k x, c = .one k x → Storable x.vals) → ∀ i, label q.toPatchM name i = label p.toPatchM name i
  lost : ∀ p, g[0]? = some p → ∀ name ds c, p.cm.ents.get? name = some (ds, c) → name ≠ dim → dim ∈ ds →
    lenDim q.cm dim ≠ lenDim p.cm dim → q.cm.ents.get? name = none
  none : ∀ p, g[0]? = some p → ∀ name, p.cm.ents.get? name = none → q.cm.ents.get? name = none
  attrs : ∀ p, g[0]? = some p → q.attrs = p.attrs ∧ q.history = p.history ++ ["concatenate"]

/-- `q` is the patches of `g` next to each other along the new dimension `dim`, which has no values. -/
structure Stacked (dim : String) (g : List (HPatch α β)) (q : HPatch α β) : Prop where
  dims : ∀ p ∈ g, q.cm.dims = p.cm.dims ++ [dim]
  shape : ∀ p ∈ g, q.data.shape = p.data.shape ++ [g.length]
  data : ∀ (j : ℕ) p, g[j]? = some p → ∀ i, InRange p.data.shape i → q.data.get (i ++ [j]) = p.data.get i
  coord : ∃ k, q.cm.ents.get? dim = some ([dim], .one k (.part g.length))
  labels : ∀ p, g[0]? = some p → ∀ name ds c, p.cm.ents.get? name = some (ds, c) → name ≠ dim →
    (∀ k x, c = .one k x → Storable x.vals) → ∀ i j, InRange p.data.shape i → label q.toPatchM name (i ++ [j]) = label p.toPatchM name i
  none : ∀ p, g[0]? = some p → ∀ name, name ≠ dim → p.cm.ents.get? name = none → q.cm.ents.get? name = none
  attrs : ∀ p, g[0]? = some p → q.attrs = p.attrs ∧ q.history = p.history ++ ["concatenate"]

/-- The name starts with an underscore. -/
def isPrivate (name : String) : Prop := ∃ l, name.toList = '_' :: l

open Classical in
/-- `q` is `p` without its private coordinates. -/
structure NoPrivate (p q : HPatch α β) : Prop where
  cm : Dropped p.cm q.cm (p.cm.ents.keys.filter fun n => decide (isPrivate n))
  data : q.data = p.data
  attrs : q.attrs = p.attrs
  history : q.history = p.history

/-- The coordinates are the same: evenly sampled ones have the same start, stop, step and length, those without values
the same length, all others labels which count as equal. -/
def SameCoord : MCoord → MCoord → Prop
  | .one k (.range a), .one l (.range b) => (k = .time ↔ l = .time) ∧ a = b
  | .one _ (.part m), .one _ (.part n) => m = n
  | c, d => (∀ k r, c ≠ .one k (.range r)) ∧ (∀ k n, c ≠ .one k (.part n)) ∧ (∀ k r, d ≠ .one k (.range r)) ∧ (∀ k n, d ≠ .one k (.part n)) ∧
    c.shape = d.shape ∧ ∀ i, InRange c.shape i → NearLabel (holdsTimes c) (holdsTimes d) (c.arr.get i) (d.arr.get i)

/-- The coordinates which both patches have are the same, except that of `dim`. -/
def Compatible (dim : String) (p q : HPatch α β) : Prop :=
  ∀ name ds c ds' c', p.cm.ents.get? name = some (ds, c) → q.cm.ents.get? name = some (ds', c') → name ≠ dim → SameCoord c c'

open Classical in
/-- `qs` is what concatenating `ps` along `dim` in groups of `n` should give: private coordinates are dropped, of the patches those are kept which
are compatible with the first (with `raises` all of them are), they are grouped in order, and each group is joined (or stacked, for a new dimension). -/
def Concatenated (raises : Bool) (dim : String) (n : Option ℕ) (ps qs : List (HPatch α β)) : Prop :=
  ∃ pub first kept groups, List.Forall₂ NoPrivate ps pub ∧ pub[0]? = some first ∧ kept = pub.filter (fun p => decide (Compatible dim first p)) ∧
    (raises = true → kept = pub) ∧ Grouped n kept groups ∧ List.Forall₂ (if dim ∈ first.cm.dims then Joined dim else Stacked dim) groups qs

/-- The labels of two coordinates can be put together: both times or both numbers, and both with values or both without. -/
def Matching (c d : MCoord) : Prop :=
  ∃ k x l y, c = .one k x ∧ d = .one l y ∧ (k = .time ↔ l = .time) ∧ ((∃ n, x = .part n) ↔ ∃ n, y = .part n)

end Spec
