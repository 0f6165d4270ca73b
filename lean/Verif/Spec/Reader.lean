import Verif.Spec.Coord
import Verif.Model.Reader
/-! # Specification vocabulary for readers of files (of the model, only the type of patches and their labels) -/
namespace Spec
open Verif

/-- The entries of `xs` whose labels lie between the limits (widened by `tol`). -/
def pickedBy {α} (tol : ℚ) (a b : Option ℚ) (labels : List ℚ) (xs : List α) : List α :=
  ((labels.zip xs).filter fun p => decide (Between tol a b p.1)).map (·.2)

/-- `n` is a nearest integer to `x`. -/
def Nearest (x : ℚ) (n : ℚ) : Prop := (∃ k : ℤ, n = k) ∧ n - 1 / 2 ≤ x ∧ x ≤ n + 1 / 2

/-- What a reader gives: nothing if no sample is left, otherwise a patch with these labels and samples. -/
def GivesRecording {α} (r : Except Err (Option (Recording α))) (times distances : List ℚ) (rows : List (List α)) : Prop :=
  if times = [] ∨ distances = [] then r = .ok none
  else ∃ w, r = .ok (some w) ∧ w.times.labels = times.map some ∧ w.distances.labels = distances.map some ∧ w.rows = rows

end Spec
