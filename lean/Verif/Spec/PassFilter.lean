import Verif.Spec.Moving
import Verif.Spec.Resample
import Verif.Spec.Units
import Verif.Model.PassFilter
/-! # What filtering the lines of a patch means -/
namespace Spec
open Verif

/-- The patch `q` is `p` with `f` applied to every line along the dimension `d`; all coordinates are the same. -/
structure LinesBy {K : Type} (f : List K → List K) (p q : PatchM K) (d : String) : Prop where
  coords : q.cm = p.cm
  shape : q.data.shape = p.data.shape
  lines : ∀ i, InRange p.data.shape i → lineAt q.data (p.cm.dims.idxOf d) i = f (lineAt p.data (p.cm.dims.idxOf d) i)

/-- One filter after the other. -/
inductive InTurn {K : Type} : List (String × (List K → List K)) → PatchM K → PatchM K → Prop
  | nil (p) : InTurn [] p p
  | cons {d f l p r q} : LinesBy f p r d → InTurn l r q → InTurn ((d, f) :: l) p q

/-- The time between samples in seconds, or the distance between them. -/
def sampleSpacing (k : Kind) (step : ℚ) : ℚ := if k = .time then step / 10 ^ 9 else step

/-- The Nyquist frequency: half a cycle between samples. -/
def nyquistOf (k : Kind) (step : ℚ) : ℚ := 1 / 2 / sampleSpacing k step

/-- The frequencies to pass, in terms of the Nyquist frequency: from the lower limit on, up to the upper limit, or between them. -/
def bandFor (nyquist : ℚ) : Option ℚ → Option ℚ → Option PassBand
  | some lo, some hi => some (.band (lo / nyquist) (hi / nyquist))
  | some lo, none => some (.highpass (lo / nyquist))
  | none, some hi => some (.lowpass (hi / nyquist))
  | none, none => none

/-- Limits of a pass filter: there is one, they are in order, and strictly between zero and the Nyquist frequency. -/
structure LimitsInside (nyquist : ℚ) (lo hi : Option ℚ) : Prop where
  given : lo ≠ none ∨ hi ≠ none
  low : ∀ x, lo = some x → 0 < x ∧ x < nyquist
  high : ∀ x, hi = some x → 0 < x ∧ x < nyquist
  order : ∀ x y, lo = some x → hi = some y → x < y

/-- The limits a user writes as numbers; an end is left open by None or by `...`. -/
inductive LimitText : Option ℚ → PassLimit → Prop
  | num (x : ℚ) : LimitText (some x) (.num x)
  | null : LimitText none .null
  | dots : LimitText none .dots

/-- The samples a line must have more of, for a filter that is applied forwards and backwards. -/
def filterPadding (corners : ℕ) (lo hi : Option ℚ) : ℕ := 3 * ((if lo.isSome && hi.isSome then 2 * corners else corners) + 1)

/-- Every sample of the result is a fixed combination of the `n` samples of the line. -/
def LinearOn {K : Type} [CommRing K] (n : ℕ) (f : List K → List K) : Prop :=
  ∃ A : ℕ → ℕ → K, ∀ g : ℕ → K, f ((List.range n).map g) = (List.range n).map fun i => ((List.range n).map fun t => A i t * g t).sum

end Spec
