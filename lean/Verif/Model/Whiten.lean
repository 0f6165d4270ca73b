import Verif.Model.Fourier
import Verif.Model.Taper
import Verif.Model.Window
/-!
# Spectral whitening (dascore/proc/whiten.py)

Data are exact complex numbers. The limits of the band and the sizes are rational numbers without units. The window of the taper
(`scipy.signal.windows.hann`) and `scipy.fft.next_fast_len` are parameters.
-/
namespace Verif
open Complex

/-- whiten.py 14-40, `_get_dim_freq_range_from_kwargs`; an empty range counts as none (whiten.py 157). -/
def whitenDim (m : CM) : Dict (Option (List ℚ)) → Except Err (String × List ℚ)
  | [] => if m.dims.contains "time" || m.dims.contains "ft_time" then .ok ("time", []) else .error .parameterError
  | [(d, r)] => if m.dims.contains d || m.dims.contains (ftName d) then .ok (d, r.getD []) else .error .parameterError
  | _ => .error .parameterError

/-- whiten.py 55-66, `_check_smooth`. (A water level which is not a `float` is refused too.) -/
def checkSmooth (c : RangeCoord) (size : ℚ) (water : Option ℚ) : Except Err Unit :=
  if water.any fun l => decide (l < 0 ∨ 1 < l) then .error .parameterError
  else if size ≤ 0 then .error .parameterError
  else if c.cmax ≤ size then .error .parameterError
  else .ok ()

/-- whiten.py 69-78, `_check_freq_range`: no two limits that follow each other are closer than two steps. -/
def rangeTooNarrow (c : RangeCoord) (range : List ℚ) : Bool :=
  (range.zip range.tail).any fun x => decide (x.2 - x.1 < c.step * 2)

namespace Nd

/-- `scipy.ndimage.uniform_filter1d(a, n, axis=axis, mode="wrap")`: the mean of `n` elements around each, `n` not more than there are. -/
noncomputable def uniformWrap (a : Nd ℝ) (n axis : ℕ) : Nd ℝ :=
  ⟨a.shape, fun i => ((List.range n).map fun t : ℕ =>
    a.get (i.set axis ((i.getD axis 0 + (a.shape.getD axis 0 - n / 2) + t) % a.shape.getD axis 0))).sum / n⟩

/-- `a.max()` of an array without negative elements. -/
noncomputable def greatest (a : Nd ℝ) : ℝ := ((Nd.indices a.shape).map a.get).foldr max 0

/-- whiten.py 48-50: the water level. -/
noncomputable def raise (a : Nd ℝ) : Option ℚ → Nd ℝ
  | none => a
  | some l => ⟨a.shape, fun i => if a.get i < l * a.greatest then l * a.greatest else a.get i⟩

end Nd

open Classical in
/-- whiten.py 43-52, `_get_amp_envelope`. Where the smoothed spectrum is zero numpy gives NaN: not modelled. -/
noncomputable def ampEnvelope (a : Nd ℂ) (axis n : ℕ) (water : Option ℚ) : Except Err (Nd ℝ) :=
  let uni := ((⟨a.shape, fun i => ‖a.get i‖⟩ : Nd ℝ).uniformWrap n axis).raise water
  if ∀ i ∈ Nd.indices a.shape, uni.get i ≠ 0 then .ok ⟨a.shape, fun i => ‖a.get i‖ / uni.get i⟩ else .error .notImplemented

/-- whiten.py 145-153: the new amplitudes. Smoothing along frequencies that are not evenly sampled is not modelled. -/
noncomputable def PatchM.whiteAmp (q : PatchM ℂ) (ft : String) (size water : Option ℚ) : Except Err (Nd ℝ) :=
  match q.cm.ents.get? ft, size with
  | none, _ => .error .coordError
  | some _, none => .ok ⟨q.data.shape, fun _ => 1⟩
  | some (_, .one _ (.range c)), some s => do
    checkSmooth c s water
    let n ← c.sampleCount false true (.value s)
    ampEnvelope q.data (q.cm.dims.idxOf ft) n.toNat water
  | some _, some _ => .error .notImplemented

/-- whiten.py 156-159. The difference of limits is compared with a step which has to exist. -/
def PatchM.whiteBand (w : ℕ → List ℚ) (q : PatchM ℂ) (ft : String) (range : List ℚ) : Except Err (PatchM ℂ) :=
  if range.isEmpty then .ok q
  else match q.cm.ents.get? ft with
    | some (_, .one _ (.range c)) =>
      if rangeTooNarrow c range then .error .parameterError
      else q.taperRange (fun z x => z * (x : ℂ)) w ft [range.map some] false false false
    | _ => .error .typeError

/-- whiten.py 81-163, `Patch.whiten`. `np.exp(1j * np.angle(z))` is computed exactly. -/
noncomputable def FPatch.whiten (fast : ℕ → ℕ) (argsort : List ℚ → List ℕ) (w : ℕ → List ℚ) (P : FPatch) (kw : Dict (Option (List ℚ)))
    (size water : Option ℚ) : Except Err FPatch := do
  let (d, range) ← whitenDim P.patch.cm kw
  let Q ← P.dft fast (some [d]) (if P.isComplex then .no else .last) true
  let amp ← Q.patch.whiteAmp (ftName d) size water
  let q ← PatchM.new Q.patch.cm ⟨Q.patch.data.shape, fun i => (amp.get i : ℂ) * exp (arg (Q.patch.data.get i) * I)⟩
  let q ← q.whiteBand w (ftName d) range
  if (P.patch.cm.untransformed [d]).isEmpty then return ⟨q, true, Q.padded⟩ else FPatch.idft argsort ⟨q, true, Q.padded⟩ none

end Verif
