import Verif.Model.Concat
/-!
# Merging patches (dascore/utils/coordmanager.py, dascore/utils/patch.py 387-465, dascore/core/spool.py 575-646)

Units of coordinates are not modelled; attributes are merged by `combine_patch_attrs` (Model/Attrs). The code of
`merge_coord_managers` for a given `snap_tolerance` is not modelled: nothing in the library gives one. Coordinates of dimensions which have no
values or are not one dimensional have no limits in the model.
-/
namespace Verif

/-- `coord.min()`, coords.py 1376-1378 and 1544-1549. -/
def MCoord.lowest : MCoord → Option ℚ
  | .one _ (.range r) => some r.cmin
  | .one _ c =>
    match c.vals with
    | [] => none
    | v :: l => some (l.foldl min v)
  | .nd _ => none

/-- `coord.max()`, coords.py 1380-1384 and 1544-1549. -/
def MCoord.highest : MCoord → Option ℚ
  | .one _ (.range r) => some r.cmax
  | .one _ c =>
    match c.vals with
    | [] => none
    | v :: l => some (l.foldl max v)
  | .nd _ => none

/-- `coord.step`. -/
def MCoord.stepOf : MCoord → Option ℚ
  | .one _ (.range r) => some r.step
  | _ => none

/-! ### Coordinate managers -/

/-- utils/coordmanager.py 54-64: names of coordinates not present in all managers with the same dimensions. -/
def unshared (ms : List CM) : List String :=
  ms.flatMap fun m => (m.ents.filter fun e => !ms.all fun n => decide ((n.ents.get? e.1).map Prod.fst = some e.2.1)).map Prod.fst

/-- utils/coordmanager.py 145: by the first value of the dimension, keeping the order of equal ones. Where there are no values the order is outside
the model. -/
def sortByMin (dim : String) (ms : List CM) : Except Err (List CM) := do
  let keyed ← ms.mapM fun m => match (m.ents.get? dim).bind fun c => c.2.lowest with
    | some k => .ok (k, m)
    | none => .error .notImplemented
  return (keyed.insertionSort fun a b => a.1 ≤ b.1).map Prod.snd

/-- utils/coordmanager.py 66-84 for one coordinate not attached to the dimension. -/
def keepCoord (dropConf : Bool) (ms : List CM) (e : String × List String × MCoord) : Except Err (Option (String × CArg)) :=
  if ms.all fun n => match n.ents.get? e.1 with
    | some (_, d) => e.2.2.modelEq d
    | none => false then .ok (some (e.1, .nested e.2.1 e.2.2))
  else if dropConf && !ms.any fun n => n.dims.contains e.1 then .ok none
  else .error .coordMergeError

/-- utils/coordmanager.py 110-130 for one coordinate attached to the dimension: the values of the *dimension's* coordinate are joined, along the axis
of the dimension in this coordinate (an AxisError if that is not the first). -/
def mergeCoord (dim : String) (ms : List CM) (e : String × List String × MCoord) : Except Err (String × CArg) := do
  let cs ← ms.mapM fun m => coordOf m dim
  if e.2.1.idxOf dim ≠ 0 then .error .valueError
  else (joinCoords cs).map fun c => (e.1, .nested [dim] c)

/-- utils/coordmanager.py 132-142 and 147. -/
def mergeSorted (dropConf : Bool) (dim : String) (dims : List String) : List CM → Except Err CM
  | [] => .error .indexError
  | m :: l => do
    let kept ← (m.ents.filter fun e => !e.2.1.contains dim).mapM (keepCoord dropConf (m :: l))
    let merged ← (m.ents.filter fun e => e.2.1.contains dim).mapM (mergeCoord dim (m :: l))
    getCoordManager (kept.filterMap id ++ merged) dims

/-- utils/coordmanager.py 17-147, `merge_coord_managers`. -/
def mergeManagers (dropConf : Bool) (dim : String) (ms : List CM) : Except Err CM :=
  match ms with
  | [] => .error .coordMergeError
  | m :: l =>
    if (m :: l).any fun n => decide (n.dims ≠ m.dims) then .error .coordMergeError
    else do
      let ms' ← (m :: l).mapM fun n => n.dropCoords (unshared (m :: l))
      let sorted ← sortByMin dim ms'
      mergeSorted dropConf dim m.dims sorted

/-- core/coordmanager.py 460-468: snap one coordinate; an even one is unchanged. -/
def snapCoord : MCoord → Except Err MCoord
  | .one k (.mono vs) => (ArrCoord.snap k (Coord.mono vs).isReverse vs).map (.one k)
  | .one k (.arr vs) => (ArrCoord.snap k false vs).map (.one k)
  | c => .ok c

/-- core/coordmanager.py 437-470, `snap` of one coordinate, without an array. -/
def CM.snap (argsort : List ℚ → List ℕ) (m : CM) (dim : String) : Except Err CM := do
  let r ← m.sortCM argsort [dim] false
  match r.1.ents.get? dim with
  | none => .error .keyError
  | some (ds, c) =>
    let c' ← snapCoord c
    CM.mk? r.1.dims (Dict.set r.1.ents dim (ds, c'))

/-- utils/patch.py 411-416, `_maybe_expected_step`: are the steps known and close to each other? For integers without steps the column is made of `None`,
of which there is no median (TypeError). -/
def hasExpectedStep (dim : String) (ms : List CM) : Except Err Bool := do
  let cs ← ms.mapM fun m => coordOf m dim
  let steps := cs.filterMap MCoord.stepOf
  if steps = [] && cs.any fun c => match c with
    | .one .int _ => true
    | _ => false then .error .typeError
  else .ok (decide (steps.length = cs.length) && allDiffsClose steps)

/-- utils/patch.py 419-429, `_get_merged_coord`. -/
def mergedCoord (argsort : List ℚ → List ℕ) (dropConf snap : Bool) (dim : String) (ms : List CM) : Except Err CM := do
  let cm ← mergeManagers dropConf dim ms
  let e ← hasExpectedStep dim ms
  if snap && e then cm.snap argsort dim else .ok cm

/-! ### Patches -/

/-- utils/patch.py 398-404 for one column: every value is null or that of the first row. -/
def columnEqual (l : List (Option ℚ)) : Bool :=
  match l with
  | [] => true
  | a :: _ => l.all fun x => decide (x = none) || decide (x = a)

/-- utils/patch.py 398-405 for one dimension. -/
def varies (ms : List CM) (dim : String) : Bool :=
  let cs := ms.filterMap fun m => (m.ents.get? dim).map Prod.snd
  !(columnEqual (cs.map MCoord.lowest) && columnEqual (cs.map MCoord.highest) && columnEqual (cs.map MCoord.stepOf))

/-- utils/patch.py 387-408, `_get_merge_dim`. -/
def mergeDim (ms : List CM) : Except Err (Option String) :=
  match ms with
  | [] => .error .indexError
  | m :: l =>
    if l.any fun n => decide (n.dims ≠ m.dims) then .error .assertionError
    else
      match m.dims.filter (varies (m :: l)) with
      | [] => .ok none
      | [d] => .ok (some d)
      | _ => .error .assertionError

variable {α : Type}

/-- utils/patch.py 432-465, `_force_patch_merge`. -/
def mergePatches (argsort : List ℚ → List ℕ) (dropConf snap : Bool) (ps : List (PatchM α)) : Except Err (PatchM α) :=
  match ps with
  | [] => .error .indexError
  | p :: l => do
    let dim ← mergeDim ((p :: l).map PatchM.cm)
    match dim with
    | none => .ok p
    | some dim =>
      let data ← Nd.concat (p.cm.dims.idxOf dim) ((p :: l).map PatchM.data)
      let cm ← mergedCoord argsort dropConf snap dim ((p :: l).map PatchM.cm)
      PatchM.new cm data

/-- The output array of the streaming merge and how much of it is filled. -/
structure Buffer (α : Type) where
  arr : Nd α
  off : ℕ

/-- core/spool.py 603-612: a larger array with the same start. `junk` is what `np.empty` happens to contain. -/
def Buffer.grow (junk : α) (axis : ℕ) (stop : ℕ) (b : Buffer α) : Nd α :=
  if b.arr.shape.getD axis 0 < stop then
    ⟨b.arr.shape.set axis stop, fun i => if i.getD axis 0 < b.off then b.arr.get i else junk⟩
  else b.arr

/-- numpy: can an array of shape `s` be assigned to a slab of the array of shape `t`? (Along `axis` the slab has the length of the array.) -/
def fitsSlab (axis : ℕ) (s t : List ℕ) : Bool :=
  decide (s.length = t.length) && (List.range s.length).all fun k => decide (k = axis) || decide (s.getD k 0 = 1) || decide (s.getD k 0 = t.getD k 0)

/-- core/spool.py 601-622, one patch is copied into the array; axes of length one are repeated. -/
def Buffer.put (junk : α) (axis : ℕ) (b : Buffer α) (d : Nd α) : Except Err (Buffer α) :=
  let stop := b.off + d.shape.getD axis 0
  let arr := b.grow junk axis stop
  if fitsSlab axis d.shape arr.shape then
    .ok ⟨⟨arr.shape, fun i =>
      if b.off ≤ i.getD axis 0 ∧ i.getD axis 0 < stop then
        d.get (List.zipWith (fun n j => if n = 1 then 0 else j) d.shape (i.set axis (i.getD axis 0 - b.off)))
      else arr.get i⟩, stop⟩
  else .error .coordMergeError

/-- core/spool.py 586-627: the data of the merged patch, given an estimate of its length. -/
def streamData (junk : α) (axis samples : ℕ) : List (Nd α) → Except Err (Nd α)
  | [] => .error .indexError
  | a :: l => do
    let b ← (a :: l).foldlM (Buffer.put junk axis) ⟨⟨a.shape.set axis samples, fun _ => junk⟩, 0⟩
    return ⟨b.arr.shape.set axis b.off, b.arr.get⟩

/-- core/spool.py 592-593: the patch with its dimensions in the given order. -/
def PatchM.orient (dims : List String) (p : PatchM α) : Except Err (PatchM α) :=
  if p.cm.dims = dims then .ok p else p.transpose (dims.map .dim)

/-- core/spool.py 575-646, `_merge_patches_streaming`. -/
def streamPatches (argsort : List ℚ → List ℕ) (junk : α) (dropConf snap : Bool) (dim : String) (samples : ℕ) (ps : List (PatchM α)) :
    Except Err (PatchM α) :=
  match ps with
  | [] => .error .indexError
  | p :: l =>
    if dim ∉ p.cm.dims then .error .patchDimError
    else do
      let qs ← (p :: l).mapM (PatchM.orient p.cm.dims)
      let data ← streamData junk (p.cm.dims.idxOf dim) samples (qs.map PatchM.data)
      let found ← mergeDim (qs.map PatchM.cm)
      if found ≠ some dim then .error .coordMergeError
      else do
        let cm ← mergedCoord argsort dropConf snap dim (qs.map PatchM.cm)
        PatchM.new cm data

end Verif
