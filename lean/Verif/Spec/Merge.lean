import Verif.Model.Merge
import Verif.Spec.Concat
import Verif.Spec.Coord
/-! # Specification vocabulary for merged patches -/
namespace Spec
open Verif
variable {α : Type}

/-- How many samples along `dim` the patches before patch `j` have. -/
def samplesBefore (dim : String) (ps : List (PatchM α)) (j : ℕ) : ℕ := ((ps.take j).map fun p => lenDim p.cm dim).sum

/-- The labels of the patch along `dim`, where it has any. -/
def labelsAlong (dim : String) (p : PatchM α) : List ℚ :=
  match p.cm.ents.get? dim with
  | some (_, .one _ c) => c.vals
  | _ => []

/-- The patches are given in the order of their least labels along `dim`. -/
def InMinOrder (dim : String) (ps : List (PatchM α)) : Prop :=
  ps.Pairwise fun p q => ∃ a b, IsMin (labelsAlong dim p) a ∧ IsMin (labelsAlong dim q) b ∧ a ≤ b

/-- All patches have the coordinate, attached to the same dimensions and with the same values. -/
def Agreed (ps : List (PatchM α)) (name : String) (ds : List String) (c : MCoord) : Prop :=
  ∀ p ∈ ps, ∃ c', p.cm.ents.get? name = some (ds, c') ∧ SameCoord c c'

/-- `q` is the patches `ps` one after the other along `dim`. Each sample of each patch is found in `q`, moved by the samples before it. Of the
coordinates not attached to `dim` those are kept which all patches agree on, with the labels of the first patch. Nothing is said about the labels of coordinates attached to
`dim` (for its own see `OwnLabels`). -/
structure Merged (dim : String) (ps : List (PatchM α)) (q : PatchM α) : Prop where
  dims : ∀ p ∈ ps, q.cm.dims = p.cm.dims
  shape : q.data.shape = q.cm.dims.map (lenDim q.cm)
  length : lenDim q.cm dim = (ps.map fun p => lenDim p.cm dim).sum
  others : ∀ p ∈ ps, ∀ d ∈ p.cm.dims, d ≠ dim → lenDim q.cm d = lenDim p.cm d
  data : ∀ (j : ℕ) p, ps[j]? = some p → ∀ i, InRange p.data.shape i →
    InRange q.data.shape (movedAlong q.cm.dims dim (samplesBefore dim ps j) i) ∧
    q.data.get (movedAlong q.cm.dims dim (samplesBefore dim ps j) i) = p.data.get i
  kept : ∀ p, ps[0]? = some p → ∀ name ds c, p.cm.ents.get? name = some (ds, c) → dim ∉ ds → Agreed ps name ds c →
    ∃ x, q.cm.ents.get? name = some (ds, x) ∧ SameValues c x
  only : ∀ p, ps[0]? = some p → ∀ name ds x, q.cm.ents.get? name = some (ds, x) → dim ∉ ds →
    ∃ c, p.cm.ents.get? name = some (ds, c) ∧ Agreed ps name ds c
  labels : ∀ p, ps[0]? = some p → ∀ name ds c, p.cm.ents.get? name = some (ds, c) → dim ∉ ds → Agreed ps name ds c →
    (∀ k x, c = .one k x → Storable x.vals) → ∀ i off, i.length = q.cm.dims.length →
    label q name (movedAlong q.cm.dims dim off i) = label p name i
  attached : ∀ name ds x, q.cm.ents.get? name = some (ds, x) → dim ∈ ds → ∀ p ∈ ps, ∃ ds' c, p.cm.ents.get? name = some (ds', c) ∧ dim ∈ ds'

/-- Every sample has in `q` the label along `dim` it had in its patch. -/
def OwnLabels (dim : String) (ps : List (PatchM α)) (q : PatchM α) : Prop :=
  ∀ (j : ℕ) p, ps[j]? = some p → ∀ i, InRange p.data.shape i →
    label q dim (movedAlong q.cm.dims dim (samplesBefore dim ps j) i) = label p dim i

/-- The labels along `dim` of the patches, one after the other. -/
def joinedLabels (dim : String) (ps : List (PatchM α)) : List ℚ := ps.flatMap (labelsAlong dim)

/-- No coordinate which all patches have, attached to the same dimensions but not to `dim`, has different values. -/
def NoConflicts (dim : String) (ps : List (PatchM α)) : Prop :=
  ∀ p, ps[0]? = some p → ∀ name ds c, p.cm.ents.get? name = some (ds, c) → dim ∉ ds →
    (∀ r ∈ ps, ∃ c', r.cm.ents.get? name = some (ds, c')) → Agreed ps name ds c

/-- The labels of `q` along `dim` are evenly spaced, from `a` on. -/
def EvenFrom (dim : String) (a : ℚ) (q : PatchM α) : Prop :=
  ∃ s, 0 < s ∧ ∀ i, InRange q.data.shape i → label q dim i = some (some (a + s * ((i.getD (q.cm.dims.idxOf dim) 0 : ℕ) : ℚ)))

/-- Two of the patches have different least labels along `dim`. -/
def StartsDiffer (dim : String) (ps : List (PatchM α)) : Prop :=
  ∃ p ∈ ps, ∃ r ∈ ps, ∃ a b, IsMin (labelsAlong dim p) a ∧ IsMin (labelsAlong dim r) b ∧ a ≠ b

/-- The patch is evenly sampled along `dim`, with this step. -/
def StepIs (dim : String) (s : ℚ) (p : PatchM α) : Prop :=
  ∃ ds k r, p.cm.ents.get? dim = some (ds, .one k (.range r)) ∧ r.step = s

/-- `r` is `p` with its dimensions in the order `dims`: the same coordinates, and every element where it belongs. -/
structure Oriented (dims : List String) (p r : PatchM α) : Prop where
  order : r.cm.dims = dims
  perm : r.cm.dims.Perm p.cm.dims
  ents : r.cm.ents = p.cm.ents
  shape : r.data.shape = dims.map (lenDim p.cm)
  data : ∀ i, InRange r.data.shape i → r.data.get i = p.data.get (p.cm.dims.map fun d => i.getD (dims.idxOf d) 0)

end Spec
