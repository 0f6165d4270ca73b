import Verif.Model.PatchOps
/-!
# Aggregations and numpy functions on patches (dascore/utils/array.py, dascore/proc/aggregate.py)

The function that is applied is arbitrary: it takes the list of the samples it aggregates, in the order of the array. Attributes
and units are not modelled.
-/
namespace Verif

/-- An `axis` argument: `None`, an integer, or a sequence of integers. -/
inductive AxisArg where
  | none
  | one (a : ℤ)
  | many (as : List ℤ)
  deriving DecidableEq, Repr

/-- array.py 349-357: normalise negatives and drop duplicates, keeping the order. -/
def dedupe (n : ℕ) : List ℤ → List ℕ → List ℕ
  | [], out => out
  | a :: as, out => dedupe n as (if out.contains (a % n).toNat then out else out ++ [(a % n).toNat])

/-- array.py 337-356, `_normalize_axes` (for a patch with dimensions). -/
def normalizeAxes (n : ℕ) : AxisArg → List ℕ
  | .none => List.range n
  | .one a => dedupe n [a] []
  | .many as => dedupe n as []

/-- numpy's `normalize_axis_tuple`: axes out of bounds raise AxisError, repeated ones ValueError. -/
def numpyAxes (n : ℕ) (axis : AxisArg) : Except Err (List ℕ) :=
  match axis with
  | .none => .ok (List.range n)
  | .one a => if -(n : ℤ) ≤ a ∧ a < n then .ok [(if a < 0 then a + n else a).toNat] else .error .indexError
  | .many as =>
    if as.all fun a => decide (-(n : ℤ) ≤ a) && decide (a < n) then
      (if (as.map fun a => (if a < 0 then a + (n : ℤ) else a).toNat).Nodup then
        .ok (as.map fun a => (if a < 0 then a + (n : ℤ) else a).toNat) else .error .valueError)
    else .error .indexError

namespace Nd
variable {α β : Type}

/-- The index with zeros along the given axes. -/
def zeroAt (axes : List ℕ) (i : List ℕ) : List ℕ := i.mapIdx fun k x => if axes.contains k then 0 else x

/-- numpy `f(a, axis=axes, keepdims=True)`: every element of the result is `f` of the elements with the same index but for
the axes given. -/
def collapse (f : List α → β) (a : Nd α) (axes : List ℕ) : Nd β where
  shape := a.shape.mapIdx fun k n => if axes.contains k then 1 else n
  get := fun i => f (((indices a.shape).filter fun j => decide (zeroAt axes j = zeroAt axes i)).map a.get)

/-- Which axes are kept. -/
def keptAxes (n : ℕ) (axes : List ℕ) : List Bool := (List.range n).map fun k => !axes.contains k

/-- numpy `f(a, axis=axes)`. -/
def reduceAxes (f : List α → β) (a : Nd α) (axes : List ℕ) : Nd β :=
  (a.collapse f axes).squeezeAxes (keptAxes a.shape.length axes)

/-- The shape of `a[inds]`, `inds` having `slice(None)` where `keep` is true and `None` elsewhere. -/
def expandShape : List Bool → List ℕ → List ℕ
  | [], s => s
  | true :: ks, n :: s => n :: expandShape ks s
  | true :: ks, [] => expandShape ks []
  | false :: ks, s => 1 :: expandShape ks s

/-- The index of `a` for an index of `a[inds]`. -/
def contract : List Bool → List ℕ → List ℕ
  | [], i => i
  | true :: ks, x :: i => x :: contract ks i
  | false :: ks, _ :: i => contract ks i
  | _ :: _, [] => []

/-- array.py 371-374 and 406, `result[inds]`. -/
def expandAxes (a : Nd α) (keep : List Bool) : Nd α := ⟨expandShape keep a.shape, fun i => a.get (contract keep i)⟩

/-- numpy `f(a, axis=axis)` for one axis. -/
def reduceAxis (f : List α → β) (a : Nd α) (axis : ℕ) : Nd β where
  shape := a.shape.eraseIdx axis
  get := fun i => f ((List.range (a.shape.getD axis 0)).map fun k => a.get (i.insertIdx axis k))

/-- `np.expand_dims(a, axis)`. -/
def expandDims (a : Nd α) (axis : ℕ) : Nd α := ⟨a.shape.insertIdx axis 1, fun i => a.get (i.eraseIdx axis)⟩

end Nd

/-- How the coordinate of an aggregated dimension is reduced (`dim_reduce`). With an aggregator, `keepsInt` tells whether it
makes an integer from integers (as `min`, `max`, `first`, `last` and `sum` do). -/
inductive DimReduce where
  | empty
  | squeeze
  | value (f : List ℚ → ℚ) (keepsInt : Bool)

/-- coords.py 993-1022, `reduce_coord`, with `update` (808-821) and `get_coord` of a scalar (1784-1792): an integer is taken to
be the length of a coordinate without values. (The aggregate of a coordinate without values is not modelled.) -/
def reduceCoord (r : DimReduce) (k : Kind) (c : Coord) : Except Err (Option MCoord) :=
  match r with
  | .empty => .ok (some (.one k (if c.length = 1 then c else .part 1)))
  | .squeeze => .ok none
  | .value f keepsInt =>
    match c with
    | .part _ => .error .notImplemented
    | c =>
      if k = .int ∧ keepsInt then (if f c.vals < 0 then .error .coordError else .ok (some (.one k (.part (truncZ (f c.vals)).toNat))))
      else .ok (some (.one k (.mono [f c.vals])))

namespace PatchM
variable {α β : Type}

/-- array.py 305-314, one dimension. -/
def aggStep (f : List α → α) (r : DimReduce) (p : PatchM α) (dim : String) : Except Err (PatchM α) :=
  match p.cm.ents.get? dim with
  | some (_, .one k c) =>
    if p.cm.dims.contains dim then
      (reduceCoord r k c).bind fun c' =>
        match c' with
        | none => (p.cm.dropCoords [dim]).bind fun cm => new cm (p.data.reduceAxis f (p.cm.dims.idxOf dim))
        | some c' => (p.cm.update [(dim, .simple c')]).bind fun cm =>
            new cm ((p.data.reduceAxis f (p.cm.dims.idxOf dim)).expandDims (p.cm.dims.idxOf dim))
    else .error .coordError
  | _ => .error .coordError

/-- Whether the dimension is to be removed. -/
def squeezes : DimReduce → Bool
  | .squeeze => true
  | _ => false

/-- array.py 295-315, `_apply_aggregator` (`Patch.aggregate`). -/
def aggregate (f : List α → α) (r : DimReduce) (p : PatchM α) (dim : Option (List String)) : Except Err (PatchM α) :=
  let names := dim.getD p.cm.dims
  if ¬ names.any p.cm.dims.contains then .error .parameterError
  else if ¬ names.all p.cm.dims.contains then .error .patchCoordinateError
  else if squeezes r && p.cm.dims.all names.contains then .error .parameterError
  else names.foldlM (aggStep f r) p

/-- array.py 409, the reduced coordinate of a dimension. -/
def emptied (m : CM) (d : String) : Except Err (String × CArg) :=
  match m.ents.get? d with
  | some (_, .one k c) => (reduceCoord .empty k c).bind fun c' =>
      match c' with
      | some c' => .ok (d, .simple c')
      | none => .error .coordError
  | _ => .error .coordError

/-- array.py 417-442, 382-414, `apply_array_func` and `_reassemble_patch`, for a numpy function which reduces along its axes. -/
def applyReduction (f : List α → β) (p : PatchM α) (axis : AxisArg) (keepdims : Bool) : Except Err (PatchM β) := do
  let ax ← numpyAxes p.data.shape.length axis
  let result := if keepdims then p.data.collapse f ax else p.data.reduceAxes f ax
  if result.shape = p.data.shape then new p.cm result
  else do
    let axes := normalizeAxes p.cm.dims.length axis
    let kw ← (axes.map fun x => p.cm.dims.getD x "").mapM (emptied p.cm)
    let cm ← p.cm.update kw
    new cm (result.expandAxes (Nd.keptAxes p.cm.dims.length axes))

end PatchM
end Verif
