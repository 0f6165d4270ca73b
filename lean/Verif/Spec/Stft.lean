import Verif.Model.Stft
import Verif.Spec.Fourier
/-! # Specification vocabulary for short-time Fourier transforms -/
namespace Spec
open Verif

/-- The value of a window at position `j`; outside of its samples it is zero. -/
def windowVal (w : List ℚ) (j : ℤ) : ℚ := if 0 ≤ j then w.getD j.toNat 0 else 0

/-- The Fourier sum, at the frequency `f`, of the `n` samples `x` under the window `w`, whose centre is put at sample number `c`. The samples are `h` apart;
positions are counted from the centre of the window, and every sample stands for an interval as long as the spacing. -/
noncomputable def sliceSum (n : ℕ) (x : ℕ → ℂ) (w : List ℚ) (c : ℤ) (f h : ℚ) : ℂ :=
  ((List.range n).map fun k : ℕ => x k * (windowVal w (k - c + (w.length / 2 : ℕ)) : ℚ) * (wave (f * (((k : ℚ) - c) * h)) * (h : ℚ))).sum

/-- What the dimension of a short-time transform needs: it is evenly sampled, the names which the transform gives are free, and the name of the
dimension does not look like the name of a limit (`time_min`) or of an inverse transform. -/
structure Sliceable (m : CM) (d : String) : Prop where
  even : d ∈ m.dims ∧ ∃ k r, m.ents.get? d = some ([d], .one k (.range r))
  free : ∀ n ∈ ["ft_" ++ d, "_stft_window", "_stft_old_coord"], m.ents.get? n = none
  forward : ¬ "ift_".toList <+: d.toList
  plain : ∀ t ∈ ["_min", "_max", "_step"], ¬ t.toList <:+: d.toList

/-- `q` is the short-time Fourier transform of `p` along `d`: the window `w` is moved `hop` samples from slice to slice, `size` samples are transformed;
`first` slices come before the one centred at the first sample, and there are `count` of them. If `real`, only frequencies that are not negative are kept. -/
structure Sliced (p q : PatchM ℂ) (d : String) (w : List ℚ) (hop size : ℕ) (real : Bool) (first count : ℕ) : Prop where
  dims : q.cm.dims = (p.cm.dims.map fun e => if e = d then "ft_" ++ d else e) ++ [d]
  shape : q.data.shape = (p.cm.dims.map fun e => if e = d then (if real then size / 2 + 1 else size) else lenDim p.cm e) ++ [count]
  /-- The labels of the slices are those of their centres, which continue the labels of the samples. -/
  time : ∀ k r, p.cm.ents.get? d = some ([d], .one k (.range r)) → ∀ i, InRange q.data.shape i →
    label q d i = some (some (r.start + ((i.getD p.cm.dims.length 0 : ℚ) - first) * hop * r.step))
  /-- Labels which are times stay times; others are not cut to integers. -/
  kind : ∀ k r, p.cm.ents.get? d = some ([d], .one k (.range r)) → ∃ x, q.cm.ents.get? d = some ([d], .one (if k = .time then .time else .float) x)
  /-- The frequencies ascend in steps of one over the length that is transformed, and zero is in the middle (or first, if `real`). -/
  freq : ∀ i, InRange q.data.shape i → label q ("ft_" ++ d) i =
    some (some (((posAlong p d i : ℚ) - (if real then 0 else (size / 2 : ℕ))) / (size * spacingOf p.cm d)))
  /-- Each element is the Fourier sum of the samples under the window around the centre of the slice. -/
  data : ∀ i, InRange q.data.shape i → ∀ f : ℚ, label q ("ft_" ++ d) i = some (some f) →
    q.data.get i = sliceSum (lenDim p.cm d) (fun k => p.data.get (i.dropLast.set (p.cm.dims.idxOf d) k)) w
      (((i.getD p.cm.dims.length 0 : ℤ) - first) * hop) f (spacingOf p.cm d)
  /-- No slice is missing in which the window is not zero at every sample. -/
  complete : ∀ (c : ℤ) (k : ℕ), k < lenDim p.cm d → windowVal w (k - c * hop + (w.length / 2 : ℕ)) ≠ 0 → -(first : ℤ) ≤ c ∧ c < count - first
  /-- The window of every slice meets the samples, or begins just after them. -/
  near : ∀ c : ℤ, -(first : ℤ) ≤ c → c < count - first →
    0 < c * hop - (w.length / 2 : ℕ) + w.length ∧ c * hop - (w.length / 2 : ℕ) ≤ lenDim p.cm d
  /-- Coordinates not attached to the dimension are as before. -/
  labels : ∀ n ds c, p.cm.ents.get? n = some (ds, c) → d ∉ ds → (∀ k x, c = .one k x → Storable x.vals) →
    ∀ i, InRange q.data.shape i → label q n i = label p n i.dropLast
  /-- The others are gone. -/
  lost : ∀ n ≠ d, ∀ ds c, p.cm.ents.get? n = some (ds, c) → d ∈ ds → q.cm.ents.get? n = none

/-- The sum of the squares of all the windows which are moved by multiples of `hop`, at position `j` of one of them. -/
def overlapTotal (w : List ℚ) (hop : ℕ) (j : ℕ) : ℚ :=
  ((List.range (2 * w.length + 1)).map fun t : ℕ => windowVal w (j + ((t : ℤ) - w.length) * hop) ^ 2).sum

/-- Every sample is seen: no step leaves samples out, and the squares of the windows nowhere add up to next to nothing, compared with elsewhere. -/
def SeesAll (w : List ℚ) (hop : ℕ) : Prop :=
  hop ≤ w.length ∧ ∀ i j : ℕ, i < w.length → j < w.length → 0 < overlapTotal w hop j ∧ 1 / 10 ^ 15 * overlapTotal w hop i ≤ overlapTotal w hop j

end Spec
