import Verif.Model.Fourier
import Verif.Model.Aggregate
import Mathlib.Analysis.SpecialFunctions.Pow.Real
/-!
# The Hilbert transform, envelopes and phase weighted stacks (dascore/transform/hilbert.py)

Samples are real numbers and arithmetic is exact. (scipy refuses complex data.) Attributes are not modelled.
-/
namespace Verif

/-- The weights of the frequencies in `scipy.signal.hilbert`. -/
noncomputable def hilbertWeight (n k : ℕ) : ℂ := if k = 0 ∨ 2 * k = n then 1 else if 2 * k < n then 2 else 0

/-- `scipy.signal.hilbert(a, axis=axis)`: the inverse transform of the weighted transform. -/
noncomputable def Nd.analytic (a : Nd ℝ) (axis : ℕ) : Nd ℂ :=
  let s := (⟨a.shape, fun i => (a.get i : ℂ)⟩ : Nd ℂ).fft axis
  (⟨a.shape, fun i => s.get i * hilbertWeight (a.shape.getD axis 0) (i.getD axis 0)⟩ : Nd ℂ).ifft axis

/-- hilbert.py 52-53: proc/coords.py 142-150 with `require_evenly_sampled`, and coordmanager.py 778-793. -/
def evenAxis (m : CM) (d : String) : Except Err ℕ :=
  match m.ents.get? d with
  | some (_, .one _ (.range _)) => if d ∈ m.dims then .ok (m.dims.idxOf d) else .error .coordError
  | _ => .error .coordError

/-- hilbert.py 20-59, `Patch.hilbert`. -/
noncomputable def PatchM.hilbert (p : PatchM ℝ) (d : String) : Except Err (PatchM ℂ) := do
  let axis ← evenAxis p.cm d
  PatchM.new p.cm (p.data.analytic axis)

/-- hilbert.py 62-99, `Patch.envelope`. -/
noncomputable def PatchM.envelope (p : PatchM ℝ) (d : String) : Except Err (PatchM ℝ) := do
  let axis ← evenAxis p.cm d
  PatchM.new p.cm ⟨p.data.shape, fun i => ‖(p.data.analytic axis).get i‖⟩

/-- hilbert.py 102-114, `__infer_transform_dim`. -/
def inferDim (m : CM) (stack : String) : Except Err String :=
  match m.dims.filter fun d => d ≠ stack with
  | [d] => .ok d
  | _ => .error .parameterError

/-- `np.mean`. -/
noncomputable def npMean {K : Type} [DivisionRing K] (l : List K) : K := l.sum / (l.length : K)

/-- hilbert.py 199-202, the unit phasors; `eps` is the smallest relative distance of floating point numbers. -/
noncomputable def unitPhasors (eps : ℝ) (a : Nd ℝ) (axis : ℕ) : Nd ℂ :=
  ⟨a.shape, fun i => (a.analytic axis).get i / ((max ‖(a.analytic axis).get i‖ eps : ℝ) : ℂ)⟩

/-- hilbert.py 203-213, means with `keepdims=True` and weights, for powers that are not negative. -/
noncomputable def stackData (eps power : ℝ) (a : Nd ℝ) (taxis saxis : ℕ) : Nd ℝ :=
  ⟨((a.reduceAxis npMean saxis).expandDims saxis).shape, fun i =>
    ((a.reduceAxis npMean saxis).expandDims saxis).get i * ‖(((unitPhasors eps a taxis).reduceAxis npMean saxis).expandDims saxis).get i‖ ^ power⟩

/-- `np.squeeze(a, axis=axis)` of an axis of length one. -/
def Nd.squeezeAxis {α : Type} (a : Nd α) (axis : ℕ) : Nd α := ⟨a.shape.eraseIdx axis, fun i => a.get (i.insertIdx axis 0)⟩

/-- hilbert.py 215-218, the coordinates and the patch. -/
noncomputable def stackPatch (m : CM) (stack : String) (data : Nd ℝ) : Option MCoord → Except Err (PatchM ℝ)
  | none => do
    let cm ← m.update [(stack, .drop)]
    PatchM.new cm (data.squeezeAxis (m.dims.idxOf stack))
  | some c => do
    let cm ← m.update [(stack, .simple c)]
    PatchM.new cm data

/-- hilbert.py 117-218, `Patch.phase_weighted_stack`. -/
noncomputable def PatchM.phaseStack (eps : ℝ) (p : PatchM ℝ) (stack : String) (transform : Option String) (power : ℝ) (r : DimReduce) : Except Err (PatchM ℝ) := do
  let t ← transform.elim (inferDim p.cm stack) .ok
  let taxis ← evenAxis p.cm t
  match p.cm.ents.get? stack with
  | some (_, .one k c) =>
    if stack ∈ p.cm.dims then do
      let c' ← reduceCoord r k c
      stackPatch p.cm stack (stackData eps power p.data taxis (p.cm.dims.idxOf stack)) c'
    else .error .coordError
  | _ => .error .coordError

end Verif
