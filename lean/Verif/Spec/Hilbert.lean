import Verif.Spec.Fourier
import Verif.Spec.Aggregate
import Verif.Model.Hilbert
import Mathlib.Analysis.SpecialFunctions.Pow.Real
/-! # What the analytic signal is -/
namespace Spec
open Verif

/-- `a` is the analytic signal of the `n` samples `x`: its real part is `x`, it has no negative frequencies, and its imaginary part has neither a constant
nor (if the number of samples is even) an alternating part. -/
structure Analytic (n : ℕ) (x : ℕ → ℝ) (a : ℕ → ℂ) : Prop where
  real : ∀ j < n, (a j).re = x j
  positive : ∀ k < n, n < 2 * k → ∑ j ∈ Finset.range n, a j * wave ((j : ℚ) * k / n) = 0
  constant : ∑ j ∈ Finset.range n, (a j).im = 0
  alternating : n % 2 = 0 → ∑ j ∈ Finset.range n, (-1) ^ j * (a j).im = 0

/-- The samples on the line through `i` along an axis. -/
def traceOn {α : Type} (a : Nd α) (axis : ℕ) (i : List ℕ) (j : ℕ) : α := a.get (i.set axis j)

/-- The mean. -/
noncomputable def meanOf {K : Type} [DivisionRing K] (l : List K) : K := l.sum / (l.length : K)

/-- Every sample with the phase of the analytic signal `h`, as a number of absolute value one (or less, if the signal is smaller than `eps`). -/
noncomputable def withPhases (eps : ℝ) (p : PatchM ℝ) (h : PatchM ℂ) : PatchM (ℝ × ℂ) :=
  ⟨p.cm, p.data.shape, fun i => (p.data.get i, h.data.get i / ((max ‖h.data.get i‖ eps : ℝ) : ℂ))⟩

/-- The mean of samples, times a power of the absolute value of the mean of their phases. -/
noncomputable def weightedMean (power : ℝ) (l : List (ℝ × ℂ)) : ℝ := meanOf (l.map Prod.fst) * ‖meanOf (l.map Prod.snd)‖ ^ power

end Spec
