import Verif.Model.Fourier
import Mathlib.Analysis.SpecialFunctions.Trigonometric.Basic
/-!
# Filtering by slope (dascore/proc/filter.py, `slope_filter`)

Arithmetic is exact. The filter has no units (`_maybe_transform_units` then makes it an array and changes nothing).
-/
namespace Verif

/-- Python's `a <= b` of two lists (or tuples): the first difference decides. -/
def lexLe : List ℚ → List ℚ → Bool
  | [], _ => true
  | _ :: _, [] => false
  | a :: as, b :: bs => decide (a < b) || (decide (a = b) && lexLe as bs)

/-- filter.py 552, `np.all(filt[:-1] <= filt[1:])`: element by element for an array, but one comparison of two sequences for a list or tuple. -/
def filtSorted (array : Bool) (filt : List ℚ) : Bool :=
  if array then (filt.dropLast.zip filt.tail).all fun x => decide (x.1 ≤ x.2) else lexLe filt.dropLast filt.tail

/-- `sys.float_info.epsilon`. -/
def floatEps : ℚ := 1 / 2 ^ 52

/-- filter.py 576-592, one element of `_get_slope_array`: `f` is the label along the second of the dimensions given, `k` that along the first. `none`
stands for nan and infinities (which no limit contains). -/
def slopeOf (directional : Bool) : Option ℚ → Option ℚ → Option ℚ
  | some f, some k => if k + floatEps = 0 then none else some (if directional then f / (k + floatEps) else |f / (k + floatEps)|)
  | _, _ => none

/-- filter.py 560-574, one element of `_get_taper_mask`, when it is a number. -/
noncomputable def slopeGain (a b c d : ℚ) (invert : Bool) : Option ℚ → ℝ
  | none => if invert then 1 else 0
  | some s =>
    let fac : ℝ := if a ≤ s ∧ s ≤ b then 1 - Real.sin (Real.pi / 2 * ((s - a) / (b - a) : ℚ)) else 1
    let fac : ℝ := if b ≤ s ∧ s ≤ c then 0 else fac
    let fac : ℝ := if c ≤ s ∧ s ≤ d then Real.sin (Real.pi / 2 * ((s - c) / (d - c) : ℚ)) else fac
    if invert then fac else 1 - fac

/-- filter.py 568-572: the element of the mask is nan (zero divided by zero; the one in line 564 is replaced in line 567). -/
def gainNan (c d : ℚ) (s : Option ℚ) : Bool := decide (c = d ∧ s = some c)

/-- `dft_patch.get_array(dim)` of a dimension, and its axis (filter.py 580-584). Coordinates of several dimensions are not modelled. -/
def PatchM.axisLabels {α} (p : PatchM α) (d : String) : Except Err (List (Option ℚ) × ℕ) :=
  match p.cm.ents.get? d with
  | some (_, .one _ c) => if d ∈ p.cm.dims then .ok (c.labels, p.cm.dims.idxOf d) else .error .valueError
  | _ => .error .notImplemented

/-- The slope at an index of the transform. -/
def slopeAt (directional : Bool) (fs ks : List (Option ℚ) × ℕ) (i : List ℕ) : Option ℚ :=
  slopeOf directional (fs.1.getD (i.getD fs.2 0) none) (ks.1.getD (i.getD ks.2 0) none)

/-- Some element of the mask is nan. -/
def anyNan (c d : ℚ) (directional : Bool) (fs ks : List (Option ℚ) × ℕ) : Bool :=
  fs.1.any fun f => ks.1.any fun k => gainNan c d (slopeOf directional f k)

/-- filter.py 626-637: the transform multiplied with the mask. A mask with a nan is not modelled. -/
noncomputable def FPatch.applyGain (Q : FPatch) (a b c d : ℚ) (d1 d2 : String) (directional invert : Bool) : Except Err FPatch := do
  let fs ← Q.patch.axisLabels ("ft_" ++ d2)
  let ks ← Q.patch.axisLabels ("ft_" ++ d1)
  if anyNan c d directional fs ks then .error .notImplemented
  else return ⟨⟨Q.patch.cm, ⟨Q.patch.data.shape, fun i => Q.patch.data.get i * (slopeGain a b c d invert (slopeAt directional fs ks i) : ℂ)⟩⟩,
    Q.isComplex, Q.padded⟩

/-- `patch.real()` (proc/basic.py). -/
noncomputable def FPatch.realPart (P : FPatch) : FPatch := ⟨⟨P.patch.cm, ⟨P.patch.data.shape, fun i => ((P.patch.data.get i).re : ℂ)⟩⟩, false, P.padded⟩

/-- filter.py 622-640, once the limits are known. Whether the patch was transformed is whether `dft` returned another one. -/
noncomputable def FPatch.slopeOver (fast : ℕ → ℕ) (argsort : List ℚ → List ℕ) (P : FPatch) (a b c d : ℚ) (d1 d2 : String) (directional invert : Bool) :
    Except Err FPatch := do
  let Q ← P.dft fast (some [d1, d2]) .no true
  let out ← Q.applyGain a b c d d1 d2 directional invert
  if (P.patch.cm.untransformed [d1, d2]).isEmpty then return out else return (← out.idft argsort none).realPart

/-- filter.py 468-640, `Patch.slope_filter`. -/
noncomputable def FPatch.slopeFilter (fast : ℕ → ℕ) (argsort : List ℚ → List ℕ) (P : FPatch) (array : Bool) (filt : List ℚ) (d1 d2 : String)
    (directional invert : Bool) : Except Err FPatch :=
  if !filtSorted array filt then .error .parameterError
  else match filt with
    | [a, b, c, d] =>
      if d1 ∈ P.patch.cm.ents.keys ∧ d2 ∈ P.patch.cm.ents.keys then P.slopeOver fast argsort a b c d d1 d2 directional invert
      else .error .parameterError
    | _ => .error .parameterError

end Verif
