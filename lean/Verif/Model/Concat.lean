import Verif.Model.Equality
/-!
# Joining patches (dascore/utils/patch.py 993-1085, 1226-1338)

Units of coordinates are not modelled.
-/
namespace Verif

/-- utils/models.py 68-85, `coord1 == coord2`: evenly sampled and partial coordinates by their fields, arrays by `all_close`. -/
def MCoord.modelEq : MCoord → MCoord → Bool
  | .one k (.range a), .one l (.range b) => decide (k = .time ↔ l = .time) && decide (a = b)
  | .one _ (.part m), .one _ (.part n) => decide (m = n)
  | .one _ (.range _), _ | _, .one _ (.range _) | .one _ (.part _), _ | _, .one _ (.part _) => false
  | c, d => allClose c.isTime d.isTime c.arr d.arr

/-- patch.py 1031-1085, `check_coords(p, q, dim_to_ignore=dim, ignore_dim_eq_shape=False)`. -/
def checkCoords (dim : String) (m n : CM) : Bool :=
  m.ents.all fun e =>
    match n.ents.get? e.1 with
    | some (_, d) => e.2.2.modelEq d || decide (e.1 = dim)
    | none => true

namespace Nd
variable {α : Type}

/-- `np.concatenate((a, b), axis)` of arrays which differ along the axis only. -/
def concat2 (axis : ℕ) (a b : Nd α) : Nd α where
  shape := a.shape.set axis (a.shape.getD axis 0 + b.shape.getD axis 0)
  get i := if i.getD axis 0 < a.shape.getD axis 0 then a.get i else b.get (i.set axis (i.getD axis 0 - a.shape.getD axis 0))

/-- `np.concatenate`: all arrays must have the shape of the first but for the axis (ValueError). -/
def concat (axis : ℕ) : List (Nd α) → Except Err (Nd α)
  | [] => .error .valueError
  | a :: l =>
    if decide (axis < a.shape.length) && l.all fun b => decide (b.shape.length = a.shape.length) && decide (b.shape.set axis 0 = a.shape.set axis 0) then
      .ok (l.foldl (concat2 axis) a)
    else .error .valueError

/-- `a[..., None]`. -/
def newAxis (a : Nd α) : Nd α where
  shape := a.shape ++ [1]
  get i := a.get (i.take a.shape.length)

end Nd

/-- The dtype family of `np.concatenate` of two arrays; times and numbers do not mix (TypeError). -/
def joinKind : Kind → Kind → Except Err Kind
  | .time, .time => .ok .time
  | .time, _ | _, .time => .error .typeError
  | .int, .int => .ok .int
  | _, _ => .ok .float

/-- One coordinate in front of the joined others (see `joinCoords`). -/
def joinStep (k : Kind) (c : Coord) : MCoord → Except Err MCoord
  | .one k' (.part n) =>
    match c with
    | .part m => (joinKind k k').map fun k => .one k (.part (m + n))
    | _ => .error .notImplemented
  | .one k' d =>
    match c with
    | .part _ => .error .notImplemented
    | c => (joinKind k k').map fun k => .one k (.arr (c.vals ++ d.vals))
  | .nd _ => .error .notImplemented

/-- patch.py 1322-1323: the values of coordinates one after the other. Null labels, which come from coordinates without values (next to
others with values), are outside the model, as are coordinates of dimensions which are not one dimensional. -/
def joinCoords : List MCoord → Except Err MCoord
  | [] => .error .valueError
  | [.one k (.part n)] => .ok (.one k (.part n))
  | [.one k c] => .ok (.one k (.arr c.vals))
  | .one k c :: d :: l => (joinCoords (d :: l)).bind (joinStep k c)
  | .nd _ :: _ => .error .notImplemented

/-- A patch with its history and its other attributes. -/
structure HPatch (α β : Type) extends PatchM α where
  attrs : β
  history : List String

variable {α β : Type}

/-- proc/coords.py 290-311 with coordmanager.py 555-559 and 513-528, `drop_private_coords`: the data is emptied along private dimensions. -/
def HPatch.dropPrivate (p : HPatch α β) : Except Err (HPatch α β) := do
  let names := p.cm.ents.keys.filter fun n => "_".toList.isPrefixOf n.toList
  let cm ← p.cm.dropCoords names
  let data := (p.cm.dims.zipIdx.filter fun d => names.contains d.1).foldl (fun a d => a.takeAxis d.2 []) p.data
  let q ← PatchM.new cm data
  return { p with toPatchM := q }

/-- misc.py 398-402, `yield_sub_sequences`: a step of zero is a ValueError, of a negative number nothing is yielded. -/
def subSequences {γ : Type} (l : List γ) : Option ℤ → Except Err (List (List γ))
  | none => if l = [] then .error .valueError else .ok [l]
  | some n =>
    if n = 0 then .error .valueError
    else if n < 0 then .ok []
    else .ok ((List.range ((l.length + n.toNat - 1) / n.toNat)).map fun k => (l.drop (k * n.toNat)).take n.toNat)

/-- The coordinate of a dimension (`KeyError` if there is none). -/
def coordOf (m : CM) (dim : String) : Except Err MCoord :=
  match m.ents.get? dim with
  | some (_, c) => .ok c
  | none => .error .keyError

/-- patch.py 1311-1323 for one group: the new coordinate of the dimension. -/
def concatArg (dim : String) (isNew : Bool) (g : List (HPatch α β)) : Except Err CArg :=
  if isNew then .ok (CArg.nested [dim] (.one .float (.part g.length)))
  else do
    let cs ← g.mapM fun q => coordOf q.cm dim
    let c ← joinCoords cs
    .ok (CArg.simple c)

/-- patch.py 1331-1337 for one group. -/
def concatGroup (dim : String) (dims : List String) (isNew : Bool) (g : List (HPatch α β)) : Except Err (HPatch α β) :=
  match g with
  | [] => .error .indexError
  | p :: _ => do
    let data ← Nd.concat (dims.idxOf dim) (g.map fun q => if isNew then q.data.newAxis else q.data)
    let arg ← concatArg dim isNew g
    let cm ← p.cm.update [(dim, arg)]
    let q ← PatchM.new cm data
    return { toPatchM := q, attrs := p.attrs, history := p.history ++ ["concatenate"] }

/-- patch.py 1226-1338, `concatenate_patches(patches, check_behavior, **kw)`; `raises` is `check_behavior="raise"`. Patches that do not fit the
first are left out otherwise. -/
def concatenate (raises : Bool) (kw : List (String × Option ℤ)) (ps : List (HPatch α β)) : Except Err (List (HPatch α β)) :=
  match kw with
  | [(dim, n)] => do
    let ps ← ps.mapM HPatch.dropPrivate
    match ps with
    | [] => .error .indexError
    | first :: _ =>
      if ps.any fun p => decide (p.cm.dims ≠ first.cm.dims) then .error .patchCoordinateError
      else
        let isNew := !first.cm.dims.contains dim
        let dims := if isNew then first.cm.dims ++ [dim] else first.cm.dims
        let ok := ps.filter fun p => checkCoords dim first.cm p.cm
        if raises && decide (ok.length < ps.length) then .error .incompatiblePatch
        else do
          let groups ← subSequences ok n
          groups.mapM (concatGroup dim dims isNew)
  | _ => .error .parameterError

end Verif
