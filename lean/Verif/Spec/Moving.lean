import Verif.Model.Moving
import Verif.Spec.Gaps
import Verif.Spec.Coord
/-! # Specification vocabulary for moving windows and despiking -/
namespace Spec
open Verif

/-- `x` is what the operation gives for the samples `ws`; `sd` is the standard deviation. -/
def WindowValue (sd : List ℚ → ℚ) (op : MoveOp) (ws : List ℚ) (x : ℚ) : Prop :=
  match op with
  | .median => IsMedian ws x
  | .mean => x = ws.sum / ws.length
  | .sum => x = ws.sum
  | .least => IsMin ws x
  | .greatest => IsMax ws x
  | .std => x = sd ws

/-- The sample at position `k` with the `h` samples before and after it. -/
def centred (l : List ℚ) (k h : ℕ) : List ℚ := (l.drop (k - h)).take (2 * h + 1)

/-- The line of data along an axis through an index. -/
def lineAt {α : Type} (a : Nd α) (axis : ℕ) (i : List ℕ) : List α := (List.range (a.shape.getD axis 0)).map fun t : ℕ => a.get (i.set axis t)

/-- `e` continues the line `l` to both sides, in one of the ways of `scipy.ndimage`. -/
structure Extends (mode : BoundaryMode) (l : List ℚ) (e : ℤ → ℚ) : Prop where
  inside : ∀ j : ℕ, j < l.length → l[j]? = some (e j)
  reflect : mode = .reflect → (∀ j, e (-1 - j) = e j) ∧ ∀ j, e (j + 2 * l.length) = e j
  constant : ∀ c, mode = .constant c → ∀ j, j < 0 ∨ (l.length : ℤ) ≤ j → e j = c
  nearest : mode = .nearest → (∀ j < 0, e j = e 0) ∧ ∀ j, (l.length : ℤ) ≤ j → e j = e (l.length - 1)
  mirror : mode = .mirror → (∀ j, e (-j) = e j) ∧ ∀ j, e (j + (2 * l.length - 2)) = e j
  wrap : mode = .wrap → ∀ j, e (j + l.length) = e j

/-- The position of an index along an axis is `h` samples or more away from both ends. -/
def Interior (a : Nd ℚ) (axis h : ℕ) (i : List ℕ) : Prop := h ≤ i.getD axis 0 ∧ i.getD axis 0 + h < a.shape.getD axis 0

/-- All samples of the line are `c`, but for the one at position `s`. -/
def OneSpike (l : List ℚ) (c : ℚ) (s : ℕ) : Prop := ∀ t < l.length, t ≠ s → l.getD t 0 = c

end Spec
