import Verif.Model.CoordManager
/-!
# Patch operations that move, drop or add samples (dascore/proc/basic.py, proc/coords.py, proc/resample.py)

Data types are abstract: where the code looks at values (nulls) the test is a parameter. Conversions between data types
(for instance filling an integer array with a float) are not modelled.
-/
namespace Verif

namespace Nd
variable {α : Type}

/-- numpy: the array of the given shape whose elements come from the indices `f i`. -/
def gather (a : Nd α) (shape : List ℕ) (f : List ℕ → List ℕ) : Nd α := ⟨shape, fun i => a.get (f i)⟩

/-- All indices of an array of the given shape. -/
def indices : List ℕ → List (List ℕ)
  | [] => [[]]
  | n :: ns => (List.range n).flatMap fun k => (indices ns).map (k :: ·)

/-- Put zeros back where axes were dropped. -/
def unsqueeze : List Bool → List ℕ → List ℕ
  | [], _ => []
  | true :: ks, i :: is => i :: unsqueeze ks is
  | true :: ks, [] => 0 :: unsqueeze ks []
  | false :: ks, is => 0 :: unsqueeze ks is

/-- `np.squeeze(a, axis)`: axes marked `false` are dropped. -/
def squeezeAxes (a : Nd α) (keep : List Bool) : Nd α :=
  a.gather (maskIdx a.shape keep) (unsqueeze keep)

/-- `np.expand_dims` at the end followed by `np.broadcast_to`: new axes of the given lengths at the end. -/
def broadcastEnd (a : Nd α) (ns : List ℕ) : Nd α := a.gather (a.shape ++ ns) fun i => i.take a.shape.length

/-- `np.roll(a, v, axis)`. -/
def roll (a : Nd α) (v : ℤ) (axis : ℕ) : Nd α :=
  a.gather a.shape fun i => i.set axis (((i.getD axis 0 : ℤ) - v) % (a.shape.getD axis 0 : ℤ)).toNat

/-- One axis of `np.pad`: the index is inside the old array. -/
def inside (w : ℕ × ℕ) (n i : ℕ) : Bool := decide (w.1 ≤ i) && decide (i < w.1 + n)

/-- `np.pad(a, widths, mode="constant", constant_values=fill)`. -/
def pad (a : Nd α) (ws : List (ℕ × ℕ)) (fill : α) : Nd α where
  shape := List.zipWith (fun n w => w.1 + n + w.2) a.shape ws
  get := fun i =>
    if ((List.zip ws a.shape).zip i).all (fun p => inside p.1.1 p.1.2 p.2) then
      a.get (List.zipWith (fun k w => k - w.1) i ws)
    else fill

end Nd

namespace PatchM
variable {α : Type}

/-- proc/coords.py 262-286, `Patch.drop_coords`. -/
def dropCoords (p : PatchM α) (names : List String) : Except Err (PatchM α) :=
  if names.any fun n => p.cm.dims.contains n then .error .parameterError
  else do
    let cm ← p.cm.dropCoords names
    new cm p.data

/-- proc/coords.py 235-259, `Patch.update_coords`. -/
def updateCoords (p : PatchM α) (kw : Dict CArg) : Except Err (PatchM α) := do
  let cm ← p.cm.update kw
  new cm p.data

/-- proc/coords.py 722-733: which axes `np.squeeze` keeps; with `axis=None` it drops the axes of length one, with names
it drops those, which must be distinct and of length one (ValueError). -/
def squeezeKeep (p : PatchM α) : Option (List String) → Except Err (List Bool)
  | none => .ok (p.data.shape.map fun n => n != 1)
  | some ds =>
    if ¬ ds.Nodup then .error .valueError
    else if ds.any fun d => p.data.shape.getD (p.cm.dims.idxOf d) 0 != 1 then .error .valueError
    else .ok (p.cm.dims.map fun d => !ds.contains d)

/-- proc/coords.py 700-733, `Patch.squeeze`. -/
def squeeze (p : PatchM α) (dim : Option (List String)) : Except Err (PatchM α) := do
  let cm ← p.cm.squeeze dim
  if (p.cm.squeezeNames dim).isEmpty then return p
  else
    let keep ← p.squeezeKeep dim
    new cm (p.data.squeezeAxes keep)

/-- proc/coords.py 636-696, `Patch.append_dims`. The request is the dictionary of line 674 (an empty dimension has
length 1; a dimension given by its length is a coordinate without values). -/
def appendDims (p : PatchM α) (kw : Dict MCoord) : Except Err (PatchM α) :=
  let kw := kw.filter fun q => !p.cm.dims.contains q.1
  if kw.isEmpty then .ok p
  else do
    let cm ← p.cm.update (kw.map fun q => (q.1, CArg.nested [q.1] q.2))
    new cm (p.data.broadcastEnd (kw.map fun q => q.2.len))

/-- proc/basic.py 778-810, `Patch.flip`. `np.flip` is indexing with `[::-1]`; an axis given twice is a ValueError. -/
def flip (p : PatchM α) (dims : List String) (flipCoords : Bool) : Except Err (PatchM α) :=
  if dims.isEmpty then .ok p
  else if dims.any fun d => !p.cm.dims.contains d then .error .parameterError
  else if ¬ dims.Nodup then .error .valueError
  else do
    let a ← p.data.indexTuple (p.cm.dims.map fun d => if dims.contains d then CM.revSlice else .slice {})
    let cm ← if flipCoords then p.cm.flip dims else .ok p.cm
    new cm a

/-- proc/resample.py 83-94, `Patch.decimate` with `filter_type=None`. -/
def decimate (p : PatchM α) (dim : String) (n : ℤ) : Except Err (PatchM α) := do
  let r ← p.cm.decimate dim n
  let a ← p.data.indexTuple r.2
  new r.1 a

/-- proc/basic.py 491-503: the label at position `k` of the axis is kept. -/
def keepsLabel (nul : α → Bool) (all : Bool) (a : Nd α) (axis k : ℕ) : Bool :=
  let is := (Nd.indices a.shape).filter fun i => i.getD axis 0 == k
  !(if all then is.all fun i => nul (a.get i) else is.any fun i => nul (a.get i))

/-- proc/basic.py 455-511, `Patch.dropna`; `nul` is `~isfinite` or `isnull`. -/
def dropna (nul : α → Bool) (p : PatchM α) (dim : String) (all : Bool) : Except Err (PatchM α) :=
  if dim ∉ p.cm.dims then .error .parameterError
  else
    let axis := p.cm.dims.idxOf dim
    let mask := (List.range (p.data.shape.getD axis 0)).map (keepsLabel nul all p.data axis)
    match p.cm.ents.get? dim with
    | some (_, .one k c) => do
      let a ← p.data.indexTuple (p.cm.dims.map fun d => if d = dim then .mask mask else .slice {})
      let d ← c.getMask k mask
      let cm ← p.cm.update [(dim, .simple (.one k d))]
      new cm a
    | _ => .error .keyError

/-- proc/basic.py 515-553, `Patch.fillna`. -/
def fillna (nul : α → Bool) (p : PatchM α) (v : α) : PatchM α :=
  ⟨p.cm, p.data.shape, fun i => if nul (p.data.get i) then v else p.data.get i⟩

/-- proc/basic.py 621-630, the first branch of `_get_new_coord` (evenly sampled coordinates). The other branch puts
nulls among the values, which the model of coordinates does not have. -/
def padCoord (c : RangeCoord) (w : ℕ × ℕ) : Except Err Coord :=
  (mkRange (c.cmin - w.1 * c.step) (c.cmax + (w.2 + 1) * c.step) c.step).map .range

/-- proc/basic.py 649-653 for one dimension, the amounts being numbers of samples. -/
def padOne (p : PatchM α) (q : String × (ℕ × ℕ)) : Except Err CArg :=
  match p.cm.ents.get? q.1 with
  | some (_, .one k (.range c)) => (padCoord c q.2).map fun c => .simple (.one k c)
  | _ => .error .notImplemented

/-- proc/basic.py 557-663, `Patch.pad` with amounts in samples (a negative amount is a ValueError) and
`expand_coords=True`. -/
def pad (p : PatchM α) (kw : Dict (ℕ × ℕ)) (fill : α) : Except Err (PatchM α) :=
  if kw.any fun q => !p.cm.dims.contains q.1 then .error .parameterError
  else do
    let new ← kw.mapM fun q => (p.padOne q).map fun x => (q.1, x)
    let a := p.data.pad (p.cm.dims.map fun d => (kw.get? d).getD (0, 0)) fill
    let cm ← p.cm.update new
    PatchM.new cm a

/-- The list rotated by `v`, as `np.roll` does. -/
def rollList (l : List ℚ) (v : ℤ) : List ℚ :=
  (List.range l.length).map fun i : ℕ => l.getD (((i : ℤ) - v) % (l.length : ℤ)).toNat 0

/-- proc/basic.py 667-709, `Patch.roll` by a number of samples; `get_sample_count` raises unless the coordinate is
evenly sampled. -/
def roll (p : PatchM α) (dim : String) (v : ℤ) (updateCoord : Bool) : Except Err (PatchM α) :=
  if dim ∉ p.cm.dims then .error .parameterError
  else
    match p.cm.ents.get? dim with
    | some (_, .one k (.range c)) => do
      let a := p.data.roll v (p.cm.dims.idxOf dim)
      if updateCoord then
        let c' ← getCoordData k (rollList c.values v)
        let cm ← p.cm.update [(dim, .simple (.one k c'))]
        new cm a
      else new p.cm a
    | _ => .error .coordError

end PatchM

end Verif
