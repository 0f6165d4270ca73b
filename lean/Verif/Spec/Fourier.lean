import Verif.Model.Fourier
import Verif.Spec.Calculus
/-! # Specification vocabulary for Fourier transforms -/
namespace Spec
open Verif

/-- The wave `e^(-2πi x)`. -/
noncomputable def wave (x : ℚ) : ℂ := Complex.exp (-(2 * Real.pi * x) * Complex.I)

/-- The spacing of the samples along an evenly sampled dimension, as a number (for times, in seconds). -/
def spacingOf (m : CM) (d : String) : ℚ :=
  match m.ents.get? d with
  | some (_, .one k (.range r)) => stepNumber k r.step
  | _ => 0

/-- The Fourier sum of the samples of `p` over the dimensions listed, at the frequencies `f`, on the lines through index `i`: positions
are counted from the first sample, and every sample stands for an interval as long as the spacing. -/
noncomputable def fourierSum (p : PatchM ℂ) (f : String → ℚ) : List String → List ℕ → ℂ
  | [], i => p.data.get i
  | d :: ds, i => ((List.range (lenDim p.cm d)).map fun j : ℕ =>
      fourierSum p f ds (i.set (p.cm.dims.idxOf d) j) * (wave (f d * (j * spacingOf p.cm d)) * (spacingOf p.cm d : ℚ))).sum

/-- What the dimensions of a Fourier transform need: they are different and evenly sampled, the names their frequencies and kept labels get are free,
and their names do not look like names of limits (`time_min`) or of an inverse transform. -/
structure Transformable (m : CM) (D : List String) : Prop where
  nodup : D.Nodup
  even : ∀ d ∈ D, d ∈ m.dims ∧ ∃ k r, m.ents.get? d = some ([d], .one k (.range r))
  free : ∀ d ∈ D, m.ents.get? ("ft_" ++ d) = none ∧ m.ents.get? ("_" ++ d ++ "_unpadded") = none
  forward : ∀ d ∈ D, ¬ "ift_".toList <+: d.toList
  plain : ∀ d ∈ D, ∀ t ∈ ["_min", "_max", "_step"], ¬ t.toList <:+: ("ft_" ++ d).toList

/-- The dimension that the argument `real` of `dft` selects. -/
def realDim (D : List String) : RealArg → Option String
  | .no => none
  | .last => D.getLast?
  | .dim d => if d ∈ D then some d else none

/-- `idft(dim)` asks for the dimensions `D` of a transform: by their old or new names in any order, or with `None`, if no other dimension has
a name that begins with `ft_`. -/
def AsksBack (m : CM) (D : List String) : Option (List String) → Prop
  | some l => l.Perm D ∨ l.Perm (D.map ("ft_" ++ ·))
  | none => ∀ d ∈ m.dims, d ∉ D → ¬ "ft_".toList <+: d.toList

/-- The labels of the dimensions listed ascend. -/
def Ascending (m : CM) (D : List String) : Prop := ∀ d ∈ D, 0 < spacingOf m d

/-- `q` is the Fourier transform of `p` over the dimensions `D`, continued with zeros to `N d` samples; `real` is the dimension of which only
frequencies that are not negative are kept. -/
structure Transformed (p q : PatchM ℂ) (D : List String) (real : Option String) (N : String → ℕ) : Prop where
  dims : q.cm.dims = p.cm.dims.map fun d => if d ∈ D then "ft_" ++ d else d
  shape : q.data.shape = p.cm.dims.map fun d => if real = some d then N d / 2 + 1 else if d ∈ D then N d else lenDim p.cm d
  /-- The frequencies ascend in steps of one over the length, and zero is in the middle (or first, for the real dimension). -/
  freq : ∀ d ∈ D, ∀ i, InRange q.data.shape i → label q ("ft_" ++ d) i =
    some (some (((posAlong p d i : ℚ) - (if real = some d then 0 else (N d / 2 : ℕ))) / (N d * spacingOf p.cm d)))
  /-- Each element is the Fourier sum of the samples at its labels. -/
  data : ∀ i, InRange q.data.shape i → ∀ f : String → ℚ, (∀ d ∈ D, label q ("ft_" ++ d) i = some (some (f d))) →
    q.data.get i = fourierSum p f D i
  /-- Coordinates not attached to the dimensions transformed are as before. -/
  labels : ∀ n ds c, p.cm.ents.get? n = some (ds, c) → (∀ d ∈ ds, d ∉ D) → (∀ k x, c = .one k x → Storable x.vals) →
    ∀ i, InRange q.data.shape i → label q n i = label p n i
  /-- The others are gone. -/
  lost : ∀ n ∉ D, ∀ ds c, p.cm.ents.get? n = some (ds, c) → (∃ d ∈ ds, d ∈ D) → q.cm.ents.get? n = none

/-- `r` is `p` again, as far as it can be found in its transform over `D`. -/
structure Restored (p r : PatchM ℂ) (D : List String) : Prop where
  dims : r.cm.dims = p.cm.dims
  shape : r.data.shape = p.data.shape
  data : ∀ i, InRange p.data.shape i → r.data.get i = p.data.get i
  labels : ∀ n ds c, p.cm.ents.get? n = some (ds, c) → n ∈ D ∨ (∀ d ∈ ds, d ∉ D) → (∀ k x, c = .one k x → Storable x.vals) →
    ∀ i, InRange p.data.shape i → label r n i = label p n i
  lost : ∀ n ∉ D, ∀ ds c, p.cm.ents.get? n = some (ds, c) → (∃ d ∈ ds, d ∈ D) → r.cm.ents.get? n = none
  none : ∀ n, p.cm.ents.get? n = none → r.cm.ents.get? n = none

end Spec
