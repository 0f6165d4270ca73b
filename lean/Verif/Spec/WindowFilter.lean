import Verif.Spec.PassFilter
import Verif.Spec.Window
import Verif.Model.WindowFilter
/-! # What the filters with windows mean -/
namespace Spec
open Verif

/-- A window asked for, and its number of samples `step` apart: the number itself with `samples=True`, and else the fewest samples that last that long. -/
inductive AsksFor (step : ℚ) : Bool → WinReq → ℤ → Prop
  | count (n : ℤ) : AsksFor step true (.count n) n
  | value (v : ℚ) (n : ℤ) : 0 ≤ v → v ≤ n * step → (∀ m : ℤ, v ≤ m * step → n ≤ m) → AsksFor step false (.value v) n

/-- The windows of the dimensions given; these have ascending, evenly spaced labels. -/
def Windows (m : CM) (samples : Bool) (kw : Dict WinReq) (ns : List ℤ) : Prop :=
  List.Forall₂ (fun (q : String × WinReq) n => ∃ k s₀ s len, EvenAlong m q.1 k s₀ s len ∧ 0 < s ∧ AsksFor s samples q.2 n) kw ns

/-- Odd windows and half their widths, for all dimensions; those not given have a window of one sample. -/
def HalfWidths (kw : Dict WinReq) (ns : List ℤ) (dims : List String) (hw : List ℕ) : Prop :=
  List.Forall₂ (fun d (h : ℕ) => (∃ r n, ((d, r), n) ∈ kw.zip ns ∧ n = 2 * (h : ℤ) + 1) ∨ (d ∉ kw.map Prod.fst ∧ h = 0)) dims hw

/-- The positions that differ by at most the half widths `h` from those of `i`, also beyond the ends. -/
def boxAround : List ℕ → List ℕ → List (List ℤ)
  | h :: hs, j :: i => (List.range (2 * h + 1)).flatMap fun t : ℕ => (boxAround hs i).map fun r => ((j : ℤ) - (h : ℤ) + (t : ℤ)) :: r
  | _, _ => [[]]

/-- `k` is what position `j` is a reflection of, at the ends of `n` samples: each end may have been passed several times. -/
def Reflects (n : ℕ) (j : ℤ) (k : ℕ) : Prop := k < n ∧ ((2 * n : ℤ) ∣ j - k ∨ (2 * n : ℤ) ∣ j + k + 1)

/-- A position in all dimensions. -/
inductive ReflectsAll : List ℕ → List ℤ → List ℕ → Prop
  | nil : ReflectsAll [] [] []
  | cons {n sh j js k ks} : Reflects n j k → ReflectsAll sh js ks → ReflectsAll (n :: sh) (j :: js) (k :: ks)

end Spec
