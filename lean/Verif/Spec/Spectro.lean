import Verif.Model.Spectro
/-! # C109: what the labels of spectra and spectrograms mean -/
namespace Spec
open Verif

/-- Label number `k` of the frequencies of `n` samples `dx` apart is that of an oscillation with `k` periods in these samples. -/
def BinLabels (n : ℕ) (dx : ℚ) (fs : List ℚ) : Prop := fs.length = n / 2 + 1 ∧ ∀ (k : ℕ) f, fs[k]? = some f → f * (n * dx) = k

/-- The mean of some numbers. -/
def sliceMean (l : List ℚ) : ℚ := l.sum / l.length

/-- The labels of some samples. -/
def labelsAt (c : RangeCoord) (l : List ℕ) : List ℚ := l.map fun j => c.values.getD j 0

/-- The slices are all the runs of `w` samples that begin at multiples of `hop`, with a label for each: the mean of the labels of its samples, moved by
`shift`. -/
structure SlicesOf (c : RangeCoord) (w hop : ℕ) (shift : ℚ) (s : Spectro) : Prop where
  slices : ∀ i, s.slices[i]? = if i * hop + w ≤ c.len then some (List.range' (i * hop) w) else none
  count : s.labels.length = s.slices.length
  labels : ∀ (i : ℕ) l v, s.slices[i]? = some l → s.labels[i]? = some v → v = sliceMean (labelsAt c l) + shift
  freqs : BinLabels w c.step s.freqs

end Spec
