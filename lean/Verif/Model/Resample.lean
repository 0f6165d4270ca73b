import Verif.Model.Calculus
import Verif.Model.Chunk
import Verif.Model.Merge
import Verif.Model.Mute
import Verif.Model.Units
/-!
# Interpolation and resampling (dascore/proc/resample.py)

Data are rational numbers and arithmetic is exact; NaN is not modelled. Splines (`kind` a number) are not modelled. What
`scipy.signal.resample` does to one line of data is a parameter; the labels it returns are modelled.
-/
namespace Verif

/-! ### Interpolation -/

/-- resample.py 98, `kind`. -/
inductive InterpKind where
  | linear
  | nearest
  deriving DecidableEq, Repr

/-- Samples ordered by their labels: `interp1d` sorts them, keeping the order of equal labels. -/
def sortedPoints (xs ys : List ℚ) : List (ℚ × ℚ) := (xs.zip ys).insertionSort fun a b => a.1 ≤ b.1

/-- scipy `interp1d._call_linear` with `fill_value="extrapolate"`: the line through the two samples around `x`, or through the first or
last two. With fewer than two samples, or equal labels, numpy divides by zero (nan or infinity); here the quotient is zero. -/
def interpLinear (pts : List (ℚ × ℚ)) (x : ℚ) : ℚ :=
  let hi := min (max (searchLeft (pts.map Prod.fst) x) 1) (pts.length - 1)
  let a := pts.getD (hi - 1) (0, 0)
  let b := pts.getD hi (0, 0)
  (b.2 - a.2) / (b.1 - a.1) * (x - a.1) + a.2

/-- scipy `interp1d._call_nearest`: the sample in whose cell `x` lies, cells ending half way between labels. -/
def interpNearest (pts : List (ℚ × ℚ)) (x : ℚ) : ℚ :=
  (pts.getD (min (searchLeft (List.zipWith (fun a b => b.1 / 2 + a.1 / 2) pts pts.tail) x) (pts.length - 1)) (0, 0)).2

/-- The function for a kind. -/
def InterpKind.apply : InterpKind → List (ℚ × ℚ) → ℚ → ℚ
  | .linear => interpLinear
  | .nearest => interpNearest

/-- `interp1d(old, a, axis=axis, kind=kind, fill_value="extrapolate")(new)`. -/
def Nd.interpAxis (kind : InterpKind) (a : Nd ℚ) (axis : ℕ) (old new : List ℚ) : Nd ℚ where
  shape := a.shape.set axis new.length
  get := fun i => kind.apply (sortedPoints old (a.lineThrough axis i)) (new.getD (i.getD axis 0) 0)

/-- resample.py 139-142, the new labels: those given, else the snapped ones. -/
def interpSamples (k : Kind) (c : Coord) (samples : Option (Kind × List ℚ)) : Except Err (Kind × List ℚ) :=
  match samples with
  | some s => .ok s
  | none => do
    let c' ← snapCoord (.one k c)
    match c' with
    | .one k c' => .ok (k, c'.vals)
    | .nd _ => .error .coordError

/-- resample.py 97-155, `Patch.interpolate` with labels given as a sequence or as `None`. Numbers given for times are used as they are,
without becoming times (lines 139-140). The new labels pass through `get_coord` in `update`, as in line 147. -/
def PatchM.interpolate (p : PatchM ℚ) (kind : InterpKind) (dim : String) (samples : Option (Kind × List ℚ)) : Except Err (PatchM ℚ) :=
  if dim ∉ p.cm.dims then .error .parameterError
  else match p.cm.ents.get? dim with
    | some (ds, .one k c) => do
      let s ← interpSamples k c samples
      let cm ← p.cm.update [(dim, .nested ds (.one s.1 (.arr s.2)))]
      PatchM.new cm (p.data.interpAxis kind (p.cm.dims.idxOf dim) c.vals s.2)
    | _ => .error .coordError

/-- resample.py 153, `get_coord(data=samples)`: the new coordinate with its units. -/
def interpUCoord (k : Kind) (xs : List ℚ) : Except Err UCoord := do
  let c ← getCoordData k xs
  return (⟨k, c, none⟩ : UCoord).setLabeled none

/-! ### Resampling -/

/-- Data of one line resampled to a number of samples (`scipy.signal.resample(x, num)`). -/
abbrev LineResampler := List ℚ → ℕ → List ℚ

/-- `resample(a, num, axis=axis)`. -/
def Nd.resampleAxis (rs : LineResampler) (a : Nd ℚ) (axis num : ℕ) : Nd ℚ where
  shape := a.shape.set axis num
  get := fun i => (rs (a.lineThrough axis i) num).getD (i.getD axis 0) 0

/-- The labels scipy's `resample` returns, `np.arange(0, num) * (t[1] - t[0]) * Nx / float(num) + t[0]`: a timedelta divided by a float
loses the fraction of a nanosecond. -/
def resampledLabels (k : Kind) (r : RangeCoord) (num : ℕ) : List ℚ :=
  (List.range num).map fun i : ℕ =>
    (if k = .time then (truncZ ((i : ℚ) * r.step * r.len / num) : ℚ) else (i : ℚ) * r.step * r.len / num) + r.start

/-- The labels are floats, or times. -/
def Kind.divided : Kind → Kind
  | .time => .time
  | _ => .float

/-- resample.py 221-222, 238-243, with the number of samples known: that is `resample(samples=True)`. -/
def PatchM.resampleTo (rs : LineResampler) (p : PatchM ℚ) (dim : String) (num : ℤ) : Except Err (PatchM ℚ) :=
  if dim ∉ p.cm.dims then .error .parameterError
  else match p.cm.ents.get? dim with
    | some (_, .one k (.range r)) =>
      if r.len < 2 then .error .indexError
      else if num ≤ 0 then .error .valueError
      else do
        let cm ← p.cm.update [(dim, .simple (.one k.divided (.arr (resampledLabels k r num.toNat))))]
        PatchM.new cm (p.data.resampleAxis rs (p.cm.dims.idxOf dim) num.toNat)
    | _ => .error .coordError

/-- resample.py 244-248: the labels of the second step, from the least label on, before the greatest. -/
def steppedLabels (p : PatchM ℚ) (dim : String) (h : ℚ) : Except Err (Kind × List ℚ) :=
  match p.cm.ents.get? dim with
  | some (_, .one k c) => .ok (k, arangeQ c.lo c.hi h)
  | _ => .error .coordError

/-- resample.py 223-237, the number of samples (not rounded) for a step of `h`. Without a step, or for a step of zero, Python raises. -/
def resampledLength (p : PatchM ℚ) (dim : String) (h : ℚ) : Except Err ℚ :=
  if dim ∉ p.cm.dims then .error .parameterError
  else match p.cm.ents.get? dim with
    | some (_, .one _ (.range r)) => if h = 0 then .error .zeroDivision else .ok ((p.data.shape.getD (p.cm.dims.idxOf dim) 0 : ℕ) * (r.step / h))
    | _ => .error .coordError

/-- resample.py 158-249, `Patch.resample` to the step `h` (in the unit of the labels; nanoseconds for times). -/
def PatchM.resample (rs : LineResampler) (p : PatchM ℚ) (kind : InterpKind) (dim : String) (h : ℚ) : Except Err (PatchM ℚ) := do
  let len ← resampledLength p dim h
  let out ← p.resampleTo rs dim (rint len)
  if isClose len (rint len) then .ok out
  else do
    let s ← steppedLabels out dim h
    out.interpolate kind dim (some s)

/-- resample.py 226-235: the step meant by what is given, which may be a number, a period or a rate. -/
def resampleStep (k : Kind) (units : Option (Quant ℚ)) (v : FLimit ℚ) : Except Err ℚ := do
  let r ← getFilterUnits v v (units.map fun q => ⟨1 / q.mag, q.unit.inv⟩)
  match r.1 with
  | none => .error .typeError
  | some x => .ok (if k = .time then (rint (x * 1000000000) : ℚ) else x)

end Verif
