import Verif.Spec.WindowFilter
import Verif.Spec.Aggregate
import Verif.Model.Trigger
/-! # What kurtosis and STA/LTA mean -/
namespace Spec

/-- The mean. -/
def average (l : List ℚ) : ℚ := l.sum / l.length

/-- The mean of the powers of the differences from the mean. -/
def centralMoment (k : ℕ) (l : List ℚ) : ℚ := average (l.map fun x => (x - average l) ^ k)

/-- Pearson's kurtosis: the fourth central moment over the square of the variance. Samples that are all equal have none. -/
def kurtosisOf (l : List ℚ) : Option ℚ := if centralMoment 2 l = 0 then none else some (centralMoment 4 l / centralMoment 2 l ^ 2)

/-- The samples at the `n` positions from `i - n / 2` on, as far as there are any. -/
def windowAround (l : List ℚ) (n i : ℕ) : List ℚ := (l.take (i + (n - n / 2))).drop (i - n / 2)

/-- The last `n` samples up to position `i`. -/
def lastSamples (l : List ℚ) (n i : ℕ) : List ℚ := (l.take (i + 1)).drop (i + 1 - n)

/-- The sum of all values so far, with weights that fade by a factor `c` with every step and add up to one in the long run. -/
def fading (c : ℚ) (x : ℕ → ℚ) (i : ℕ) : ℚ := ((List.range (i + 1)).map fun j : ℕ => (1 - c) * c ^ (i - j) * x j).sum

/-- The running kurtosis: a fading sum of fourth powers of the differences from the fading mean, over the square of the fading variance, or that of the
variance of all samples if this is larger. -/
def runningKurtosis (c : ℚ) (l : List ℚ) (i : ℕ) : ℚ :=
  let x := fun j : ℕ => l.getD j 0
  let off := fun j : ℕ => x j - fading c x j
  let var := fading c fun j => off j ^ 2
  fading c (fun j => off j ^ 4 / max (var j) (centralMoment 2 l) ^ 2) i

end Spec
