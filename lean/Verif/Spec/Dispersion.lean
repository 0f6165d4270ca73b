import Verif.Spec.Fourier
import Verif.Spec.Hilbert
import Verif.Spec.Resample
import Verif.Model.Dispersion
/-! # What a dispersion image is -/
namespace Spec
open Verif

/-- A patch of distance and time, in either order: channel `i` is at distance `x i`, and times are `nt` datetimes, one every `dt` seconds. -/
structure Gather (p : PatchM ℂ) (nx : ℕ) (x : ℕ → ℚ) (nt : ℕ) (dt : ℚ) : Prop where
  dims : p.cm.dims.Perm ["distance", "time"]
  distance : ∃ k c, p.cm.ents.get? "distance" = some (["distance"], .one k c) ∧ c.labels = (List.range nx).map fun i => some (x i)
  time : ∃ t₀, EvenAlong p.cm "time" .time t₀ (dt * 1000000000) nt

/-- Sample `j` of channel `i`. -/
def sampleOf (p : PatchM ℂ) (i j : ℕ) : ℂ := p.data.get (p.cm.dims.map fun d => if d = "distance" then i else j)

/-- The Fourier sum of the first samples of channel `i` (`n` of them, or all), at the frequency `g`. -/
noncomputable def channelSpectrum (p : PatchM ℂ) (nt n : ℕ) (dt : ℚ) (i : ℕ) (g : ℚ) : ℂ :=
  ∑ j ∈ Finset.range (min nt n), sampleOf p i j * wave (g * (j * dt))

/-- The phase of a number, as a number of absolute value one; zero for zero. -/
noncomputable def phaseOf (z : ℂ) : ℂ := z / (‖z‖ : ℂ)

/-- How well `nx` phases agree after they are shifted for a wave of frequency `f` and velocity `v`: the length of their mean. -/
noncomputable def coherence (nx : ℕ) (x : ℕ → ℚ) (φ : ℕ → ℂ) (f v : ℚ) : ℝ :=
  ‖(∑ i ∈ Finset.range nx, φ i * wave (-(f * x i / v))) / (nx : ℂ)‖

/-- What the arguments of a dispersion image have to be: velocities that are positive and increase, a positive resolution, and positive limits below
the Nyquist frequency. -/
structure DispersionArgs (dt : ℚ) (vs : List ℚ) (res : Option ℚ) (lim : Option (ℚ × ℚ)) : Prop where
  some : vs ≠ []
  positive : ∀ v ∈ vs, 0 < v
  increase : vs.Pairwise (· < ·)
  res : ∀ r, res = .some r → 0 < r
  lim : ∀ a b, lim = .some (a, b) → 0 < a ∧ a < b ∧ b < 1 / (2 * dt)

/-- The limits of the frequencies: zero and Nyquist if there are none. -/
def limitsFor (dt : ℚ) : Option (ℚ × ℚ) → ℚ × ℚ
  | none => (0, 1 / (2 * dt))
  | some l => l

/-- The number of frequencies up to the sampling rate: that of samples, or as many as the resolution asks for. -/
def frequencyCount (nt : ℕ) (dt : ℚ) : Option ℚ → ℕ
  | none => nt
  | some r => ⌊1 / dt / r⌋.toNat

end Spec
