import Verif.Model.Aggregate
/-!
# Numpy functions on patches (`/repo/dascore/utils/array.py`)

`Model/Aggregate.lean` has the functions which reduce along axes; here the function is arbitrary. Units and the conversion of results which are not arrays are left out.
-/
namespace Verif
namespace PatchM
variable {α β : Type}

/-- array.py 382-414, `_reassemble_patch`. `axis` is the argument of the function called `axis`, or its default; `none` when the function has no such parameter. -/
def reassemble (p : PatchM α) (result : Nd β) (axis : Option AxisArg) : Except Err (PatchM β) :=
  if result.shape = p.data.shape then new p.cm result
  else
    match axis with
    | none => .error .parameterError
    | some axis => do
      let axes := normalizeAxes p.cm.dims.length axis
      if result.shape.length < (Nd.keptAxes p.cm.dims.length axes).count true then .error .indexError
      else do
        let kw ← (axes.map fun x => p.cm.dims.getD x "").mapM (emptied p.cm)
        let cm ← p.cm.update kw
        new cm (result.expandAxes (Nd.keptAxes p.cm.dims.length axes))

/-- array.py 417-444, `apply_array_func`: `first` and `others` are the patches among the arguments, in their order. -/
def applyFunc (f : List (Nd α) → Nd β) (first : PatchM α) (others : List (PatchM α)) (axis : Option AxisArg) : Except Err (PatchM β) :=
  first.reassemble (f ((first :: others).map fun p => p.data)) axis

end PatchM
end Verif
