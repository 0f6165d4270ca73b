import Verif.Model.Concat
import Verif.Model.Arith
import Verif.Model.PatchAttrs
/-!
# Adding patches (dascore/utils/patch.py 993-1085, 1342-1389)

Samples are of any type with an addition. Warnings are not modelled, nor units of coordinates.
-/
namespace Verif

/-- patch.py 1031-1085, `check_coords(p, q, dim_to_ignore=vary)`: the coordinate of `vary` may have other values but not another shape. -/
def checkVary (vary : Option String) (m n : CM) : Bool :=
  m.ents.all fun e =>
    match n.ents.get? e.1 with
    | some (_, d) => e.2.2.modelEq d || (decide (vary = some e.1) && decide (e.2.2.shape = d.shape))
    | none => true

namespace Nd
variable {α : Type}

/-- `a + b` with the broadcasting of numpy. -/
def plus [Add α] (a b : Nd α) : Except Err (Nd α) := do
  let shape ← broadcastShapes a.shape b.shape
  return ⟨shape, fun i => a.get (castIdx a.shape i) + b.get (castIdx b.shape i)⟩

/-- `np.zeros_like`. -/
def zeros [Zero α] (shape : List ℕ) : Nd α := ⟨shape, fun _ => 0⟩

end Nd

variable {α β : Type}

/-- patch.py 1371-1377 for one patch. `check_dims` (993-1028) raises if it is told to, and returns True in any case. -/
def stackStep [Add α] (raises : Bool) (vary : Option String) (first : CM) (acc : Nd α) (p : HPatch α β) : Except Err (Nd α) :=
  if raises && decide (first.dims ≠ p.cm.dims) then .error .incompatiblePatch
  else if checkVary vary first p.cm then acc.plus p.data
  else if raises then .error .incompatiblePatch
  else .ok acc

/-- core/coords.py 1062, 1327-1355, 1519-1535, `coord.update_limits(min=0)`: irregular times cannot be subtracted from the number 0 (TypeError). -/
def MCoord.fromZero : MCoord → Except Err MCoord
  | .one k (.range r) => (r.updateLimits (some 0) none none).map (.one k)
  | .one k (.part n) => .ok (.one k (.part n))
  | .one k c => if k = .time then .error .typeError else (ArrCoord.updateLimits k c (some 0) none none).map (.one k)
  | .nd _ => .error .notImplemented

/-- patch.py 1383-1387. -/
def stackCM (vary : Option String) (m : CM) : Except Err CM :=
  match vary with
  | none => .ok m
  | some d => do
    let c ← coordOf m d
    let c ← c.fromZero
    m.update [(d, .simple c)]

/-- patch.py 1365-1368: the dimension which may vary must be one of the first patch. -/
def mayVary (vary : Option String) (m : CM) : Bool :=
  match vary with
  | none => true
  | some d => m.dims.contains d

/-- patch.py 1342-1389, `stack_patches(patches, dim_vary, check_behavior)`; `raises` is `check_behavior="raise"`. -/
def stackPatches [Add α] [Zero α] (raises : Bool) (vary : Option String) (ps : List (HPatch α β)) : Except Err (HPatch α β) :=
  match ps with
  | [] => .error .indexError
  | first :: _ =>
    if !mayVary vary first.cm then .error .patchCoordinateError
    else do
      let data ← ps.foldlM (stackStep raises vary first.cm) (Nd.zeros first.data.shape)
      let cm ← stackCM vary first.cm
      let q ← PatchM.new cm data
      return { toPatchM := q, attrs := first.attrs, history := first.history ++ ["stack"] }

end Verif
