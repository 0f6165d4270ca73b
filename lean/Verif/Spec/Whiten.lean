import Verif.Spec.Fourier
import Verif.Spec.Taper
import Verif.Model.Whiten
/-! # What spectral whitening is -/
namespace Spec
open Verif

/-- The direction of a number: the number of absolute value one with its phase (which is zero for zero). -/
noncomputable def heading (z : ℂ) : ℂ := if z = 0 then 1 else z / (‖z‖ : ℂ)

/-- The Fourier sum along dimension `d` at frequency `f`, on the line through index `i`. -/
noncomputable def lineSpectrum (p : PatchM ℂ) (d : String) (f : ℚ) (i : List ℕ) : ℂ := fourierSum p (fun _ => f) [d] i

/-- The white signal with the phases of `p`: the sum of the waves of `n` samples along `d`, each with the phase of its Fourier sum and the same amplitude. -/
noncomputable def whiteSignal (p : PatchM ℂ) (d : String) (n : ℕ) (i : List ℕ) : ℂ :=
  (∑ k ∈ Finset.range n, heading (lineSpectrum p d (k / (n * spacingOf p.cm d)) i) * wave (-((k : ℚ) * posAlong p d i / n))) / (n * spacingOf p.cm d : ℚ)

/-! ### Signals from spectra that change along the frequencies -/

/-- The number of frequencies of a transform of `n` samples: all, or those which are not negative. -/
def bandCount (half : Bool) (n : ℕ) : ℕ := if half then n / 2 + 1 else n

/-- Frequency number `k` of a transform of `n` samples `dx` apart: of all (with zero in the middle), or of those which are not negative. -/
def bandFrequency (half : Bool) (n : ℕ) (dx : ℚ) (k : ℕ) : ℚ := ((k : ℚ) - (if half then 0 else (n / 2 : ℕ))) / (n * dx)

/-- The signal along dimension `d` of `p` made of waves: on the line through index `i`, `A (i.set _ k)` is the coefficient of frequency number `k`.
If only the frequencies that are not negative are given, the others have the conjugate coefficients: the signal is real. -/
noncomputable def synthesis (p : PatchM ℂ) (d : String) (n : ℕ) (half : Bool) (A : List ℕ → ℂ) (i : List ℕ) : ℂ :=
  let term := fun k : ℕ => A (i.set (p.cm.dims.idxOf d) k) *
    wave (-(bandFrequency half n (spacingOf p.cm d) k * (posAlong p d i * spacingOf p.cm d)))
  if half then ((∑ k ∈ Finset.range (n / 2 + 1), (if k = 0 ∨ 2 * k = n then 1 else 2) * (term k).re : ℝ) : ℂ) / (n * spacingOf p.cm d : ℚ)
  else (∑ k ∈ Finset.range n, term k) / (n * spacingOf p.cm d : ℚ)

/-- The Fourier sum along `d` on the line through index `i`, at the frequency whose number is the position of `i` along `d`. -/
noncomputable def spectrumAt (p : PatchM ℂ) (d : String) (n : ℕ) (half : Bool) (i : List ℕ) : ℂ :=
  lineSpectrum p d (bandFrequency half n (spacingOf p.cm d) (posAlong p d i)) i

/-- The shape of the spectrum. -/
def spectrumShape (p : PatchM ℂ) (d : String) (n : ℕ) (half : Bool) : List ℕ :=
  p.cm.dims.map fun e => if e = d then bandCount half n else lenDim p.cm e

/-- The mean amplitude of `l` frequencies around each, from `l / 2` before it on; they are counted in a circle. -/
noncomputable def smoothed (p : PatchM ℂ) (d : String) (n : ℕ) (half : Bool) (l : ℕ) (i : List ℕ) : ℝ :=
  (∑ t ∈ Finset.range l, ‖spectrumAt p d n half (i.set (p.cm.dims.idxOf d)
    ((((posAlong p d i : ℤ) - (l / 2 : ℕ) + t) % (bandCount half n : ℕ)).toNat))‖) / l

/-- An amplitude that is at least the part `level` of the greatest one. -/
noncomputable def atLevel (level : Option ℚ) (greatest x : ℝ) : ℝ :=
  match level with
  | none => x
  | some l => max x (l * greatest)

/-- Frequency number `i` is the first which is at least `v`, up to the rounding to ten decimals of the distance of frequencies. -/
def FirstFrom (half : Bool) (n : ℕ) (dx : ℚ) (v : ℚ) (i : ℕ) : Prop :=
  i < bandCount half n ∧ ∀ x : ℕ, i ≤ x ↔ v - 1 / (n * dx) * (1 / (2 * 10 ^ 10)) ≤ bandFrequency half n dx x

end Spec
