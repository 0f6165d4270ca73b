import Verif.Spec.Fourier
import Verif.Model.Slope
import Mathlib.Algebra.Order.Group.Unbundled.Abs
import Mathlib.Algebra.Order.Field.Rat
/-! # Specification vocabulary for filtering by slope -/
namespace Spec
open Verif

/-- Frequency number `j` of a transform of `n` samples `dx` apart, in ascending order for a positive `dx`. -/
def frequency (n : ℕ) (dx : ℚ) (j : ℕ) : ℚ := ((j : ℚ) - (n / 2 : ℕ)) / (n * dx)

/-- The sum, over all the frequencies of two dimensions of `p` continued with zeros to `N d` samples, of the waves in `p` as the Fourier sums give them,
each multiplied with `g` (of the frequency along `d1` and that along `d2`). -/
noncomputable def weightedWaves (p : PatchM ℂ) (N : String → ℕ) (g : ℚ → ℚ → ℝ) (d1 d2 : String) (i : List ℕ) : ℂ :=
  ((List.range (N d1)).map fun j : ℕ => ((List.range (N d2)).map fun l : ℕ =>
    let f1 := frequency (N d1) (spacingOf p.cm d1) j
    let f2 := frequency (N d2) (spacingOf p.cm d2) l
    (g f1 f2 : ℂ) * fourierSum p (fun d => if d = d1 then f1 else f2) [d1, d2] i *
      (wave (-(f1 * (posAlong p d1 i * spacingOf p.cm d1))) / (N d1 * spacingOf p.cm d1 : ℚ)) *
      (wave (-(f2 * (posAlong p d2 i * spacingOf p.cm d2))) / (N d2 * spacingOf p.cm d2 : ℚ))).sum).sum

/-- `gain` passes the slopes between `b` and `c`, stops those outside `a` and `d`, and changes between with quarters of sines. -/
structure Passes (a b c d : ℚ) (gain : ℚ → ℝ) : Prop where
  range : ∀ s, 0 ≤ gain s ∧ gain s ≤ 1
  inside : ∀ s, b ≤ s → s ≤ c → gain s = 1
  outside : ∀ s, s < a ∨ d < s → gain s = 0
  rise : ∀ s, a ≤ s → s < b → gain s = Real.sin (Real.pi / 2 * ((s - a) / (b - a) : ℚ))
  fall : ∀ s, c < s → s ≤ d → gain s = 1 - Real.sin (Real.pi / 2 * ((s - c) / (d - c) : ℚ))
  up : ∀ s t, s ≤ t → t ≤ c → gain s ≤ gain t
  down : ∀ s t, b ≤ s → s ≤ t → gain t ≤ gain s

/-- The slope of a wave: the frequency `f` along the second dimension over the frequency `k` along the first, which is first moved by the smallest
relative distance of floating point numbers; without its sign unless the filter is directional. -/
def waveSlope (directional : Bool) (k f : ℚ) : ℚ := if directional then f / (k + 1 / 2 ^ 52) else |f / (k + 1 / 2 ^ 52)|

/-- What a wave is multiplied with, the filter being inverted or not. (Where the slope has no value it is outside all limits.) -/
noncomputable def waveGain (gain : ℚ → ℝ) (directional invert : Bool) (k f : ℚ) : ℝ :=
  let g := if k + 1 / 2 ^ 52 = 0 then 0 else gain (waveSlope directional k f)
  if invert then 1 - g else g

end Spec
