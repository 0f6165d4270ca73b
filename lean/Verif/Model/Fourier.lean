import Verif.Model.Calculus
import Mathlib.Analysis.SpecialFunctions.Complex.Circle
/-!
# Discrete Fourier transforms (dascore/transform/fourier.py, `dft` and `idft`)

Data are complex numbers and arithmetic is exact; whether the array has a complex type is recorded beside them. Steps and
frequencies are rational. Units, and the outputs other than "FFT", are not modelled. `scipy.fft.next_fast_len` is a parameter.
-/
namespace Verif
open Complex

/-- A patch together with what the transforms look at besides coordinates and data. -/
structure FPatch where
  patch : PatchM ℂ
  /-- The type of the array of the data is complex. -/
  isComplex : Bool
  /-- The attribute `_dft_padded`. -/
  padded : Option Bool

/-- `e^(-2πi x)`. -/
noncomputable def expi (x : ℚ) : ℂ := exp (-(2 * Real.pi * x) * I)

namespace Nd

/-- `np.fft.fft(a, axis=axis)`. -/
noncomputable def fft (a : Nd ℂ) (axis : ℕ) : Nd ℂ :=
  ⟨a.shape, fun i => ((List.range (a.shape.getD axis 0)).map fun j : ℕ =>
    a.get (i.set axis j) * expi (j * (i.getD axis 0 : ℕ) / (a.shape.getD axis 0 : ℕ))).sum⟩

/-- `np.fft.ifft(a, axis=axis)`. -/
noncomputable def ifft (a : Nd ℂ) (axis : ℕ) : Nd ℂ :=
  ⟨a.shape, fun i => ((List.range (a.shape.getD axis 0)).map fun k : ℕ =>
    a.get (i.set axis k) * expi (-(k * (i.getD axis 0 : ℕ) / (a.shape.getD axis 0 : ℕ)))).sum / (a.shape.getD axis 0 : ℕ)⟩

/-- `np.fft.rfft(a, axis=axis)` of real data: only the frequencies that are not negative. -/
noncomputable def rfft (a : Nd ℂ) (axis : ℕ) : Nd ℂ := ⟨a.shape.set axis (a.shape.getD axis 0 / 2 + 1), (a.fft axis).get⟩

/-- The value at frequency `k` which `irfft` to length `n` uses: that of frequency `0` (and `n/2`) is taken as real, those of
negative frequencies are the conjugates of the positive ones, and those which are missing are zero. -/
noncomputable def hermitian (a : Nd ℂ) (axis n k : ℕ) (i : List ℕ) : ℂ :=
  if a.shape.getD axis 0 ≤ min k (n - k) then 0
  else if k = 0 ∨ 2 * k = n then ((a.get (i.set axis k)).re : ℂ)
  else if 2 * k < n then a.get (i.set axis k)
  else star (a.get (i.set axis (n - k)))

/-- `np.fft.irfft(a, n, axis=axis)`. -/
noncomputable def irfft (a : Nd ℂ) (n axis : ℕ) : Nd ℂ :=
  ⟨a.shape.set axis n, fun i => ((List.range n).map fun k : ℕ =>
    a.hermitian axis n k i * expi (-(k * (i.getD axis 0 : ℕ) / n))).sum / n⟩

/-- `np.fft.fftn(a, axes=axes)`: numpy begins with the last of the axes. -/
noncomputable def fftn (a : Nd ℂ) (axes : List ℕ) : Nd ℂ := axes.foldr (fun ax a => a.fft ax) a

/-- `np.fft.ifftn(a, s=sizes, axes=axes)`, the sizes being `None` or the lengths of the axes. -/
noncomputable def ifftn (a : Nd ℂ) (axes : List ℕ) : Nd ℂ := axes.foldr (fun ax a => a.ifft ax) a

/-- `np.fft.rfftn(a, axes=axes)`: the last of the axes is the real one. -/
noncomputable def rfftn (a : Nd ℂ) (axes : List ℕ) : Nd ℂ := (a.rfft (axes.getLastD 0)).fftn axes.dropLast

/-- `np.fft.irfftn(a, s=sizes, axes=axes)`; `n` is the last of the sizes. -/
noncomputable def irfftn (a : Nd ℂ) (n : ℕ) (axes : List ℕ) : Nd ℂ :=
  (axes.dropLast.foldl (fun a ax => a.ifft ax) a).irfft n (axes.getLastD 0)

/-- `np.fft.fftshift(a, axes)`. -/
def shiftAll {α} (a : Nd α) (axes : List ℕ) : Nd α := axes.foldr (fun ax a => a.fftshift ax) a

/-- `np.fft.ifftshift(a, axes)`. -/
def unshiftAll {α} (a : Nd α) (axes : List ℕ) : Nd α := axes.foldr (fun ax a => a.roll (-((a.shape.getD ax 0 / 2 : ℕ) : ℤ)) ax) a

/-- An array multiplied with a number. -/
noncomputable def scale (a : Nd ℂ) (s : ℂ) : Nd ℂ := ⟨a.shape, fun i => a.get i * s⟩

end Nd

/-! ### Names -/

/-- transformatter.py 16-20, `_forward_rename`. -/
def ftName (d : String) : String := if "ift_".toList.isPrefixOf d.toList then String.ofList (d.toList.drop 4) else "ft_" ++ d

/-- transformatter.py 22-26, `_inverse_rename`. -/
def iftName (d : String) : String := if "ft_".toList.isPrefixOf d.toList then String.ofList (d.toList.drop 3) else "ift_" ++ d

/-- The name of the coordinate that keeps the labels before padding (fourier.py 120). -/
def unpaddedName (d : String) : String := "_" ++ d ++ "_unpadded"

/-- The argument `real` of `dft`. -/
inductive RealArg where
  | no
  | last
  | dim (d : String)

/-- fourier.py 290 (`dims[-1]` of an empty list is an IndexError). -/
def RealArg.name (dims : List String) : RealArg → Except Err (Option String)
  | .no => .ok none
  | .last => match dims.getLast? with
    | some d => .ok (some d)
    | none => .error .indexError
  | .dim d => .ok (some d)

/-- fourier.py 138-147, `_get_untransformed_dims`. -/
def CM.untransformed (m : CM) (dims : List String) : List String :=
  dims.filter fun d => !(!m.dims.contains d && m.dims.contains ("ft_" ++ d))

/-- fourier.py 295-298, 343-346: the real dimension is moved to the end. -/
def realLast (dims : List String) : Option String → List String
  | some r => dims.erase r ++ [r]
  | none => dims

/-- patch.py 900-937, `_get_dx_or_spacing_and_axes` with `require_evenly_spaced=True`, for one dimension: step and axis. -/
def PatchM.evenSpacing {α} (p : PatchM α) (dim : String) : Except Err (ℚ × ℕ) :=
  match p.cm.ents.get? dim with
  | some (_, .one k (.range r)) =>
    if p.cm.dims.contains dim then .ok (stepFloat k r.step, p.cm.dims.idxOf dim) else .error .parameterError
  | _ => .error .coordError

/-! ### The forward transform -/

/-- fourier.py 97-103, `_get_fft_coord`. -/
def freqCoord (n : ℕ) (dx : ℚ) (real : Bool) : Except Err Coord :=
  if n * dx = 0 then .error .zeroDivision
  else
    let df := 1 / (n * dx)
    (mkRange (if real then 0 else -((n / 2 : ℕ) : ℚ) * df) (if real then ((n / 2 + 1 : ℕ) : ℚ) * df else (((n - 1) / 2 + 1 : ℕ) : ℚ) * df) df).map
      .range

/-- fourier.py 111-120 for one dimension: what is stored under the new names. -/
def freqArgs (m : CM) (orig : Option CM) (real : Option String) (d : String) (dx : ℚ) : Except Err (Dict CArg) := do
  let c ← freqCoord (m.ents.lenOf d) dx (decide (real = some d))
  match orig with
  | none => return [(ftName d, .nested [ftName d] (.one .float c))]
  | some o => match o.ents.get? d with
    | some (_, oc) => return [(ftName d, .nested [ftName d] (.one .float c)), (unpaddedName d, .nested [] oc)]
    | none => .error .coordError

/-- fourier.py 88-123, `_get_dft_new_coords`. -/
def dftCoords (m : CM) (orig : Option CM) (real : Option String) (dims : List String) (dxs : List ℚ) : Except Err CM := do
  let old ← m.disassociate dims
  let new ← (dims.zip dxs).mapM fun x => freqArgs m orig real x.1 x.2
  getCoordManager ((CM.nested old.ents).update new.flatten) (m.dims.map fun d => if d ∈ dims then ftName d else d)

/-- fourier.py 300-302: padding to a fast length at the end (patch.pad requires even sampling). -/
def PatchM.padFast (fast : ℕ → ℕ) (p : PatchM ℂ) (dims : List String) : Except Err (PatchM ℂ) := do
  let _ ← dims.mapM p.evenSpacing
  p.pad (dims.dedup.map fun d => (d, (0, fast (p.cm.ents.lenOf d) - p.cm.ents.lenOf d))) 0

/-- fourier.py 300-302. -/
def PatchM.padIf (fast : ℕ → ℕ) (p : PatchM ℂ) (dims : List String) (pad : Bool) : Except Err (PatchM ℂ) :=
  if pad then p.padFast fast dims else .ok p

/-- fourier.py 309-314: numpy refuses a real transform of complex data (TypeError). -/
noncomputable def dftData (isComplex : Bool) (a : Nd ℂ) (real : Option String) (axes : List ℕ) (dxs : List ℚ) : Except Err (Nd ℂ) :=
  match real with
  | none => .ok (((a.fftn axes).scale (dxs.prod : ℚ)).shiftAll axes)
  | some _ => if isComplex then .error .typeError else .ok (((a.rfftn axes).scale (dxs.prod : ℚ)).shiftAll axes.dropLast)

/-- fourier.py 295-317, once the dimensions are known. -/
noncomputable def FPatch.dftOver (fast : ℕ → ℕ) (P : FPatch) (dims : List String) (real : Option String) (pad : Bool) : Except Err FPatch := do
  let p ← P.patch.padIf fast dims pad
  let sp ← dims.mapM p.evenSpacing
  let cm ← dftCoords p.cm (if pad then some P.patch.cm else none) real dims (sp.map Prod.fst)
  let a ← dftData P.isComplex p.data real (sp.map Prod.snd) (sp.map Prod.fst)
  let q ← PatchM.new cm a
  return ⟨q, true, some pad⟩

/-- fourier.py 194-322, `Patch.dft` with `output="FFT"`. -/
noncomputable def FPatch.dft (fast : ℕ → ℕ) (P : FPatch) (dim : Option (List String)) (real : RealArg) (pad : Bool) : Except Err FPatch := do
  let asked := dim.getD P.patch.cm.dims
  if asked.any fun d => !P.patch.cm.ents.keys.contains d then .error .patchCoordinateError
  else do
    let r ← real.name asked
    let dims := P.patch.cm.untransformed asked
    let r := r.filter fun d => dims.contains d
    if dims.isEmpty then return P else P.dftOver fast (realLast dims r) r pad

/-! ### The inverse transform -/

/-- fourier.py 330-336: the dimensions to transform back. -/
def CM.idftDims (m : CM) (dim : Option (List String)) : List String :=
  match dim with
  | none => m.dims.filter fun d => "ft_".toList.isPrefixOf d.toList
  | some l => l.map fun d => if m.dims.contains d then d else ftName d

/-- fourier.py 338-339: the smallest label of an evenly sampled dimension is zero. -/
def CM.startsAtZero (m : CM) (d : String) : Except Err Bool :=
  match m.ents.get? d with
  | some (_, .one _ (.range r)) => .ok (decide (r.cmin = 0))
  | _ => .error .coordError

/-- The state of the loop of fourier.py 358-376: the coordinates, the sizes, the padding. -/
structure IdftState where
  coords : Dict CArg
  sizes : List ℕ
  padding : Dict ℕ

/-- fourier.py 373-376, the padding of one dimension. -/
def idftPadding (st : IdftState) (new : String) (c : MCoord) : Except Err IdftState :=
  match st.coords.get? (unpaddedName new) with
  | some (.nested _ o) =>
    let st := { st with coords := st.coords.filter fun p => p.1 != unpaddedName new }
    .ok (if o.len < c.len then { st with padding := st.padding ++ [(new, c.len - o.len)] } else st)
  | _ => .error .keyError

/-- fourier.py 360-376 for one dimension. -/
def idftStep (m : CM) (padded : Bool) (real : Option String) (st : IdftState) (old : String) : Except Err IdftState :=
  match st.coords.get? (iftName old) with
  | some (.nested _ c) =>
    let st := { st with
      sizes := if c.len = m.ents.lenOf old ∨ real = some old then st.sizes ++ [c.len] else st.sizes
      coords := st.coords.set (iftName old) (.nested [iftName old] c) }
    if padded then idftPadding st (iftName old) c else .ok st
  | _ => .error .notImplemented

/-- fourier.py 351-381, `_get_idft_coords_and_sizes`. -/
def idftCoords (m : CM) (padded : Bool) (real : Option String) (dims : List String) : Except Err (CM × IdftState) := do
  let old ← m.disassociate dims
  let st ← dims.foldlM (idftStep m padded real) ⟨CM.nested old.ents, [], []⟩
  let cm ← getCoordManager st.coords (m.dims.map fun d => if d ∈ dims then iftName d else d)
  let cm ← cm.dropCoords dims
  return (cm, st)

/-- fourier.py 460: the step of a coordinate, as a number (without a step, `to_float(None)` is NaN: not modelled). -/
def stepOf (m : CM) (d : String) : Except Err ℚ :=
  match m.ents.get? d with
  | some (_, .one k (.range r)) => .ok (stepFloat k r.step)
  | _ => .error .notImplemented

/-- fourier.py 461-462. numpy needs a size for every axis, or none at all (then the last axis of `irfftn` gets `2 (n - 1)`
elements: with a real dimension there is always its size). -/
noncomputable def idftData (a : Nd ℂ) (real : Option String) (axes sizes : List ℕ) (s : ℚ) : Except Err (Nd ℂ) :=
  if sizes ≠ [] ∧ sizes.length ≠ axes.length then .error .valueError
  else match real with
    | none => .ok (((a.scale (1 / (s : ℂ))).unshiftAll axes).ifftn axes)
    | some _ => .ok (((a.scale (1 / (s : ℂ))).unshiftAll axes.dropLast).irfftn (sizes.getLastD 0) axes)

/-- fourier.py 465-466. -/
def PatchM.trim (argsort : List ℚ → List ℕ) (p : PatchM ℂ) (padding : Dict ℕ) : Except Err (PatchM ℂ) :=
  if padding.isEmpty then .ok p
  else p.select argsort (padding.map fun x => (x.1, .slice (.pair (some 0) (some (-(x.2 : ℤ))))))

/-- fourier.py 338-348: the dimensions in the order of the transform, and the real one. -/
def CM.idftOrder (m : CM) (dims : List String) : Except Err (List String × Option String) := do
  let zero ← dims.mapM m.startsAtZero
  let reals := ((dims.zip zero).filter Prod.snd).map Prod.fst
  if 1 < reals.length then .error .assertionError else return (realLast dims reals.head?, reals.head?)

/-- fourier.py 407-467, `Patch.idft` of a patch whose attribute `_dft_output` is missing or "FFT". -/
noncomputable def FPatch.idft (argsort : List ℚ → List ℕ) (P : FPatch) (dim : Option (List String)) : Except Err FPatch := do
  let asked := P.patch.cm.idftDims dim
  if asked.any fun d => !P.patch.cm.dims.contains d then .error .patchCoordinateError
  else do
    let (dims, real) ← P.patch.cm.idftOrder asked
    let sp ← dims.mapM P.patch.evenSpacing
    let (cm, st) ← idftCoords P.patch.cm (P.padded.getD false) real dims
    let steps ← (dims.map iftName).mapM (stepOf cm)
    let a ← idftData P.patch.data real (sp.map Prod.snd) st.sizes steps.prod
    let q ← PatchM.new cm a
    let q ← q.trim argsort st.padding
    return ⟨q, real.isNone, none⟩

end Verif
