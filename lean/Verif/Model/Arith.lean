import Verif.Model.Equality
/-!
# Arithmetic with patches (dascore/utils/array.py 79-198, dascore/utils/patch.py 940-990, 1088-1107, core/coordmanager.py 697-735)

The operator is any function of two samples. Attributes and units (array.py 121-129, 148-171: raising an error or converting) are not
modelled. Coordinates of a shared dimension with different families of dtypes are outside the model (an error value).
-/
namespace Verif

/-- misc.py 647-652, `_merge_tuples`. -/
def mergeTuples (a b : List String) : List String :=
  (a ++ b).foldl (fun l x => if l.contains x then l else l ++ [x]) []

namespace Nd

/-- numpy broadcasting of one axis of the arrays. -/
def broadcastLen (n m : ℕ) : Except Err ℕ :=
  if n = m then .ok n else if n = 1 then .ok m else if m = 1 then .ok n else .error .valueError

/-- The index used for an axis of an array that is broadcast: axes of length one are repeated. -/
def clip (shape i : List ℕ) : List ℕ := List.zipWith (fun n k => if n = 1 then 0 else k) shape i

/-- A numpy function of two arrays of the same rank. -/
def zipWith {α β γ : Type} (f : α → β → γ) (a : Nd α) (b : Nd β) : Except Err (Nd γ) := do
  let shape ← (a.shape.zip b.shape).mapM fun p => broadcastLen p.1 p.2
  return ⟨shape, fun i => f (a.get (clip a.shape i)) (b.get (clip b.shape i))⟩

/-- `np.broadcast_shapes` of two shapes: axes are aligned at the end. -/
def broadcastShapes (s t : List ℕ) : Except Err (List ℕ) :=
  ((List.replicate (t.length - s.length) 1 ++ s).zip (List.replicate (s.length - t.length) 1 ++ t)).mapM fun p : ℕ × ℕ => broadcastLen p.1 p.2

/-- The index into an array of this shape when it is broadcast to more axes. -/
def castIdx (shape i : List ℕ) : List ℕ := clip shape (i.drop (i.length - shape.length))

end Nd

/-- utils/patch.py 971-981 for one shared dimension: nothing if the coordinates are equal, otherwise the new coordinates and
the indexers. -/
def alignDim (argsort : List ℚ → List ℕ) (m n : CM) (d : String) :
    Except Err (Option (MCoord × MCoord × Indexer × Indexer)) :=
  match m.ents.get? d, n.ents.get? d with
  | some (_, .one k c), some (_, .one k' c') =>
    if k ≠ k' ∧ ¬ (MCoord.one k c).isPartial ∧ ¬ (MCoord.one k' c').isPartial then .error .notImplemented
    else if c.pyEq k c' then .ok none
    else (c.alignTo argsort k c').map fun r => some (.one k r.1, .one k' r.2.1, r.2.2.1, r.2.2.2)
  | _, _ => .error .keyError

/-- utils/patch.py 984-989 for one of the patches: the dimensions with their new coordinates and indexers. -/
def PatchM.realign {α} (p : PatchM α) (new : Dict (MCoord × Indexer)) : Except Err (PatchM α) := do
  let cm ← p.cm.update (new.map fun q => (q.1, CArg.simple q.2.1))
  let a ← applyUnion (p.cm.dims.map fun d => ((new.get? d).map Prod.snd).getD (.slice {})) p.data
  PatchM.new cm a

/-- utils/patch.py 963-964: appended dimensions have one sample and no labels. -/
def PatchM.spread {α} (p : PatchM α) (dims : List String) : Except Err (PatchM α) := do
  let q ← p.appendDims (dims.map fun d => (d, MCoord.one .float (.part 1)))
  q.transpose (dims.map .dim)

/-- utils/patch.py 940-990, `align_patch_coords`. -/
def alignPatches {α β} (argsort : List ℚ → List ℕ) (p : PatchM α) (q : PatchM β) : Except Err (PatchM α × PatchM β) :=
  if p.cm.equals q.cm (fun _ => none) (fun _ => none) then .ok (p, q)
  else
    let shared := p.cm.dims.filter fun d => q.cm.dims.contains d
    if shared = [] then .error .patchCoordinateError
    else do
      let dims := mergeTuples p.cm.dims q.cm.dims
      let p ← p.spread dims
      let q ← q.spread dims
      let r ← shared.mapM fun d => (alignDim argsort p.cm q.cm d).map fun x => (d, x)
      let new := r.filterMap fun x => x.2.map fun y => (x.1, y)
      if new.isEmpty then return (p, q)
      else
        let p ← p.realign (new.map fun x => (x.1, x.2.1, x.2.2.2.1))
        let q ← q.realign (new.map fun x => (x.1, x.2.2.1, x.2.2.2.2))
        return (p, q)

/-- utils/patch.py 1093-1106 for one name that both managers have. -/
def joinCoord (e f : List String × MCoord) : Except Err CArg :=
  if e.2.isPartial && f.2.isPartial then .ok (.nested e.1 (if f.2.len < e.2.len then e.2 else f.2))
  else if f.2.isPartial then .ok (.nested e.1 e.2)
  else if e.2.isPartial then .ok (.nested e.1 f.2)
  else if e.2.approxEqual f.2 none none && decide (e.1 = f.1) then .ok (.nested e.1 e.2)
  else .error .assertionError

/-- The coordinates of both managers with the names of both. -/
def sharedEnts (m n : CM) : Dict ((List String × MCoord) × (List String × MCoord)) :=
  m.ents.filterMap fun p => (n.ents.get? p.1).map fun f => (p.1, p.2, f)

/-- utils/patch.py 1088-1106, `_merge_aligned_coords`. -/
def mergeAligned (m n : CM) : Except Err CM :=
  if m.dims ≠ n.dims then .error .assertionError
  else do
    let out ← (sharedEnts m n).mapM fun p => (joinCoord p.2.1 p.2.2).map fun a => (p.1, a)
    m.update out

/-- array.py 79-198, `_apply_binary_ufunc` of two patches. -/
def PatchM.binary {α β γ} (argsort : List ℚ → List ℕ) (f : α → β → γ) (p : PatchM α) (q : PatchM β) : Except Err (PatchM γ) := do
  let r ← alignPatches argsort p q
  let cm ← mergeAligned r.1.cm r.2.cm
  let a ← Nd.zipWith f r.1.data r.2.data
  PatchM.new cm a

/-- core/coordmanager.py 718-733: the new coordinates of the dimensions which become longer. -/
def CM.grown (m : CM) (dropCoords : Bool) (target : List ℕ) : Except Err (Dict CArg) :=
  ((m.dims.zip (m.shape.zip target)).filter fun x => decide (x.2.1 < x.2.2)).mapM fun x =>
    match m.ents.get? x.1 with
    | some (_, c) =>
      if c.isPartial || dropCoords then .ok (x.1, .simple (.one .float (.part (max x.2.1 x.2.2)))) else .error .patchBroadcastError
    | none => .error .coordError

/-- proc/coords.py 315-345 and core/coordmanager.py 697-735, `make_broadcastable_to`. -/
def PatchM.broadcastTo {α} (p : PatchM α) (shape : List ℕ) (dropCoords : Bool) : Except Err (PatchM α) := do
  let target ← Nd.broadcastShapes p.cm.shape shape
  let kw ← p.cm.grown dropCoords target
  let cm ← p.cm.update kw
  PatchM.new cm ⟨target, fun i => p.data.get (Nd.castIdx p.data.shape i)⟩

/-- array.py 134-145, `_ensure_array_compatible`. -/
def PatchM.fitTo {α} (p : PatchM α) (shape : List ℕ) : Except Err (PatchM α) :=
  if p.data.shape = shape then .ok p
  else if p.data.shape.length < shape.length then .error .patchBroadcastError
  else p.broadcastTo shape false

/-- array.py 79-198, `_apply_binary_ufunc` of a patch and an array (a scalar is an array without axes). If the patch is the second
operand `f` is applied to swapped arguments. -/
def PatchM.withArray {α β γ} (f : α → β → γ) (p : PatchM α) (a : Nd β) : Except Err (PatchM γ) := do
  let q ← p.fitTo a.shape
  let shape ← Nd.broadcastShapes q.data.shape a.shape
  PatchM.new q.cm ⟨shape, fun i => f (q.data.get (Nd.castIdx q.data.shape i)) (a.get (Nd.castIdx a.shape i))⟩

end Verif
