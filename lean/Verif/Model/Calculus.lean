import Verif.Model.Correlate
/-!
# Differentiation and integration (dascore/transform/differentiate.py, integrate.py, strain.py)

Data are rational numbers and arithmetic is exact. Whether the array of the data holds integers is a parameter (`isInt`): numpy
truncates what is assigned into such an array. Units are not modelled. Differentiation with `order` other than 2 is done by the
package findiff and is not modelled.
-/
namespace Verif

/-- patch.py 929-934, what describes the places of the samples along a dimension: the step, or all labels, as numbers. -/
inductive Spacing where
  | dx (h : ℚ)
  | places (xs : List ℚ)
  deriving DecidableEq, Repr

/-- patch.py 900-937, `_get_dx_or_spacing_and_axes` with `require_sorted=True`, for one dimension. -/
def PatchM.spacing {α} (p : PatchM α) (dim : String) : Except Err (Spacing × ℕ) :=
  match p.cm.ents.get? dim with
  | some (_, .one k (.range r)) =>
    if p.cm.dims.contains dim then .ok (.dx (stepFloat k r.step), p.cm.dims.idxOf dim) else .error .parameterError
  | some (_, .one k (.mono vs)) =>
    if p.cm.dims.contains dim then .ok (.places (vs.map (stepFloat k)), p.cm.dims.idxOf dim) else .error .parameterError
  | _ => .error .coordError

/-- What is stored when a number is assigned into an array of floats, or of integers. -/
def storeIn (isInt : Bool) (q : ℚ) : ℚ := if isInt then (truncZ q : ℚ) else q

/-- The positions picked by `slice(r, None, step)`. -/
def strideIdx (n step r : ℕ) : List ℕ := (List.range ((n - r + step - 1) / step)).map fun j => r + step * j

/-! ### numpy.gradient -/

/-- `np.gradient(f, h, edge_order=2)` of one line (numpy/lib/_function_base_impl.py). -/
def gradEven (h : ℚ) (f : List ℚ) : List ℚ :=
  (List.range f.length).map fun i =>
    if i = 0 then -(3 / 2) / h * f.getD 0 0 + 2 / h * f.getD 1 0 + -(1 / 2) / h * f.getD 2 0
    else if i + 1 = f.length then 1 / 2 / h * f.getD (i - 2) 0 + -2 / h * f.getD (i - 1) 0 + 3 / 2 / h * f.getD i 0
    else (f.getD (i + 1) 0 - f.getD (i - 1) 0) / (2 * h)

/-- The derivative at the first of three samples with distances `d1`, `d2`. -/
def stencilFirst (d1 d2 f0 f1 f2 : ℚ) : ℚ :=
  -(2 * d1 + d2) / (d1 * (d1 + d2)) * f0 + (d1 + d2) / (d1 * d2) * f1 + -d1 / (d2 * (d1 + d2)) * f2

/-- The derivative at the second of three samples. -/
def stencilMiddle (d1 d2 f0 f1 f2 : ℚ) : ℚ :=
  -d2 / (d1 * (d1 + d2)) * f0 + (d2 - d1) / (d1 * d2) * f1 + d1 / (d2 * (d1 + d2)) * f2

/-- The derivative at the last of three samples. -/
def stencilLast (d1 d2 f0 f1 f2 : ℚ) : ℚ :=
  d2 / (d1 * (d1 + d2)) * f0 + -(d2 + d1) / (d1 * d2) * f1 + (2 * d2 + d1) / (d2 * (d1 + d2)) * f2

/-- The same for places which are not evenly spaced, `ds` being their differences. -/
def gradUneven (ds f : List ℚ) : List ℚ :=
  (List.range f.length).map fun i =>
    if i = 0 then stencilFirst (ds.getD 0 0) (ds.getD 1 0) (f.getD 0 0) (f.getD 1 0) (f.getD 2 0)
    else if i + 1 = f.length then
      stencilLast (ds.getD (i - 2) 0) (ds.getD (i - 1) 0) (f.getD (i - 2) 0) (f.getD (i - 1) 0) (f.getD i 0)
    else stencilMiddle (ds.getD (i - 1) 0) (ds.getD i 0) (f.getD (i - 1) 0) (f.getD i 0) (f.getD (i + 1) 0)

/-- numpy takes the first formula if all differences are equal. -/
def gradLine (s : Spacing) (f : List ℚ) : List ℚ :=
  match s with
  | .dx h => gradEven h f
  | .places xs =>
    if (diffs xs).all fun d => decide (d = (diffs xs).getD 0 0) then gradEven ((diffs xs).getD 0 0) f else gradUneven (diffs xs) f

namespace Nd
variable {α β : Type}

/-- The elements along `axis` through index `i`. -/
def lineThrough (a : Nd α) (axis : ℕ) (i : List ℕ) : List α := (List.range (a.shape.getD axis 0)).map fun k => a.get (i.set axis k)

/-- `f` applied to every line along `axis`. -/
def alongAxis (f : List ℚ → List ℚ) (a : Nd ℚ) (axis : ℕ) : Nd ℚ :=
  ⟨a.shape, fun i => (f (a.lineThrough axis i)).getD (i.getD axis 0) 0⟩

/-- `np.gradient(a, s, axis=axis, edge_order=2)`: at least three samples are needed, and as many places as samples (ValueError). -/
def gradient (a : Nd ℚ) (s : Spacing) (axis : ℕ) : Except Err (Nd ℚ) :=
  if a.shape.getD axis 0 < 3 then .error .valueError
  else match s with
    | .dx _ => .ok (a.alongAxis (gradLine s) axis)
    | .places xs => if xs.length = a.shape.getD axis 0 then .ok (a.alongAxis (gradLine s) axis) else .error .valueError

end Nd

/-- differentiate.py 21-26, `_grad_diff`. -/
def gradDiff (a : Nd ℚ) (sp : List (Spacing × ℕ)) : Except Err (Nd ℚ) := sp.foldlM (fun a s => a.gradient s.1 s.2) a

/-- differentiate.py 64-67: the spacing of the samples of a stride. -/
def Spacing.every (s : Spacing) (step r : ℕ) : Spacing :=
  match s with
  | .dx h => .dx (h * step)
  | .places xs => .places (takeIdx xs (strideIdx xs.length step r))

/-- differentiate.py 52-70, `_strided_diff`: `subs[r]` is assigned to the positions `r`, `r + step`, … of an array like the data. -/
def stridedDiff (isInt : Bool) (a : Nd ℚ) (sp : List (Spacing × ℕ)) (step : ℕ) : Except Err (Nd ℚ) :=
  match sp with
  | [] => .error .indexError
  | [(s, axis)] => do
    let subs ← (List.range step).mapM fun r =>
      (a.takeAxis axis (strideIdx (a.shape.getD axis 0) step r)).gradient (s.every step r) axis
    return ⟨a.shape, fun i => storeIn isInt
      (((subs[i.getD axis 0 % step]?).map fun b => b.get (i.set axis (i.getD axis 0 / step))).getD 0)⟩
  | _ => .error .parameterError

/-- differentiate.py 137-142. -/
def diffData (isInt : Bool) (a : Nd ℚ) (sp : List (Spacing × ℕ)) (step : ℤ) : Except Err (Nd ℚ) :=
  if 1 < step then stridedDiff isInt a sp step.toNat else gradDiff a sp

/-- differentiate.py 73-149, `Patch.differentiate` with `order=2`. -/
def PatchM.differentiate (isInt : Bool) (p : PatchM ℚ) (dim : Option (List String)) (step : ℤ) : Except Err (PatchM ℚ) := do
  let sp ← (dim.getD p.cm.dims).mapM p.spacing
  let a ← diffData isInt p.data sp step
  return ⟨p.cm, a⟩

/-! ### Integration -/

/-- The distances between neighbouring samples, of `n` samples. -/
def Spacing.widths (s : Spacing) (n : ℕ) : List ℚ :=
  match s with
  | .dx h => List.replicate (n - 1) h
  | .places xs => diffs xs

namespace Nd

/-- `np.trapezoid(a, x or dx, axis)[..., None, ...]`. -/
def trapezoid (a : Nd ℚ) (s : Spacing) (axis : ℕ) : Nd ℚ where
  shape := a.shape.set axis 1
  get := fun i => ((List.range (a.shape.getD axis 0 - 1)).map fun j =>
    (s.widths (a.shape.getD axis 0)).getD j 0 * (a.get (i.set axis (j + 1)) + a.get (i.set axis j)) / 2).sum

/-- integrate.py 77-79: the sums of the trapezoids, `w` being their widths, in an array like the data. -/
def cumulateWith (isInt : Bool) (a : Nd ℚ) (axis : ℕ) (w : List ℕ → ℚ) : Nd ℚ where
  shape := a.shape
  get := fun i => storeIn isInt ((List.range (i.getD axis 0)).map fun j =>
    (a.get (i.set axis (j + 1)) + a.get (i.set axis j)) * (w (i.set axis j) / 2)).sum

/-- integrate.py 69-79: with `s` an array, its differences are multiplied with an array of averages without being
reshaped, so numpy pairs them with the *last* axis (their number is 1 or the length of that axis, else ValueError). -/
def cumulate (isInt : Bool) (a : Nd ℚ) (s : Spacing) (axis : ℕ) : Except Err (Nd ℚ) :=
  match s with
  | .dx h => .ok (a.cumulateWith isInt axis fun _ => h)
  | .places xs =>
    if (diffs xs).length = 1 then .ok (a.cumulateWith isInt axis fun _ => (diffs xs).getD 0 0)
    else if (diffs xs).length = (if axis = a.shape.length - 1 then a.shape.getD axis 0 - 1 else a.shape.getD (a.shape.length - 1) 0) then
      .ok (a.cumulateWith isInt axis fun i => (diffs xs).getD (i.getD (a.shape.length - 1) 0) 0)
    else .error .valueError

end Nd

/-- integrate.py 22-29, `_quasi_mean`: the mean in the type of the labels. -/
def quasiMean (k : Kind) (vs : List ℚ) : ℚ := storeIn (decide (k ≠ .float)) (vs.sum / vs.length)

/-- integrate.py 37-42, the labels of the integrated dimension. -/
def meanArg (m : CM) (d : String) : Except Err (String × CArg) :=
  match m.ents.get? d with
  | some (_, .one k c) => .ok (d, .simple (.one k (.mono [quasiMean k c.vals])))
  | _ => .error .coordError

/-- integrate.py 39-42, the limits of the integration (numpy has no minimum of an empty array: ValueError). -/
def limitArgs (m : CM) (d : String) : Except Err (List (String × CArg)) :=
  match m.ents.get? d with
  | some (_, .one k c) => if c.vals = [] then .error .valueError else .ok
      [("pre_integrate_" ++ d ++ "_min", .nested [d] (.one k (.mono [c.vals.foldl min (c.vals.getD 0 0)]))),
       ("pre_integrate_" ++ d ++ "_max", .nested [d] (.one k (.mono [c.vals.foldl max (c.vals.getD 0 0)])))]
  | _ => .error .coordError

/-- integrate.py 32-56, 121-133, `Patch.integrate(definite=True)`. -/
def PatchM.integrateDefinite (p : PatchM ℚ) (dim : Option (List String)) : Except Err (PatchM ℚ) := do
  let dims := dim.getD p.cm.dims
  let sp ← dims.mapM p.spacing
  let means ← dims.mapM (meanArg p.cm)
  let limits ← dims.mapM (limitArgs p.cm)
  let cm ← p.cm.update (Dict.update (Dict.update [] means) limits.flatten)
  PatchM.new cm (sp.foldl (fun a s => a.trapezoid s.1 s.2) p.data)

/-- integrate.py 59-81, 121-133, `Patch.integrate(definite=False)`. -/
def PatchM.integrateIndefinite (isInt : Bool) (p : PatchM ℚ) (dim : Option (List String)) : Except Err (PatchM ℚ) := do
  let sp ← (dim.getD p.cm.dims).mapM p.spacing
  let a ← sp.foldlM (fun a s => a.cumulate isInt s.1 s.2) p.data
  PatchM.new p.cm a

/-! ### Strain rate -/

/-- strain.py 17-122, `velocity_to_strain_rate` with `order=2`. The gauge length stored is `n` times the step. -/
def PatchM.strainRate (isInt : Bool) (p : PatchM ℚ) (n : ℤ) : Except Err (PatchM ℚ × ℚ) :=
  if n ≤ 0 then .error .parameterError
  else if n % 2 ≠ 0 then .error .parameterError
  else match p.cm.ents.get? "distance" with
    | some (_, .one _ (.range r)) => (p.differentiate isInt (some ["distance"]) (n / 2)).map fun q => (q, r.step * n)
    | _ => .error .coordError

/-- strain.py 125-211, `velocity_to_strain_rate_edgeless`. -/
def PatchM.edgeless (argsort : List ℚ → List ℕ) (p : PatchM ℚ) (n : ℤ) : Except Err (PatchM ℚ) :=
  if n ≤ 0 then .error .parameterError
  else match p.cm.ents.get? "distance" with
    | some (_, .one _ (.range r)) => do
      let gauge := (n : ℚ) * r.step
      let p1 ← p.select argsort [("distance", .slice (.pair (some n) none))]
      let p2 ← p.select argsort [("distance", .slice (.pair none (some (-n))))]
      let v1 ← pySlice r.values ⟨some n, none, none⟩
      let v2 ← pySlice r.values ⟨none, some (-n), none⟩
      let mid := List.zipWith (fun a b => (a + b) / 2) v1 v2
      let cm ← p.cm.update [("distance", .simple (.one .float (.arr mid)))]
      PatchM.new cm ⟨p1.data.shape, fun i => (p1.data.get i - p2.data.get i) / gauge⟩
    | _ => .error .coordError

end Verif
