import Verif.Model.Taper
import Verif.Spec.PatchOps
/-! # Specification vocabulary for tapers -/
namespace Spec
open Verif

/-- `k` steps of the coordinate are at most the distance `v`, up to the rounding to ten decimals of a step. -/
def WithinAmt (c : RangeCoord) (k : ℤ) (v : ℚ) : Prop := ((k : ℚ) - 1 / (2 * 10 ^ 10)) * c.step ≤ v

/-- The length of a taper: a fraction is one of the distance between the first and the last label. -/
def askedTaper (c : RangeCoord) : TaperAmt → ℚ
  | .frac f => f * (((c.len : ℚ) - 1) * c.step)
  | .amount v => v

/-- The taper at the start reaches the sample number `x`. -/
def StartReaches (c : RangeCoord) (start : Option TaperAmt) (x : ℤ) : Prop := ∃ t, start = some t ∧ WithinAmt c x (askedTaper c t)

/-- The taper at the end reaches the sample number `x`. -/
def EndReaches (c : RangeCoord) (stop : Option TaperAmt) (x : ℤ) : Prop := ∃ t, stop = some t ∧ WithinAmt c ((c.len : ℤ) - 1 - x) (askedTaper c t)

/-- `q` is `p` tapered along `dim`, whose coordinate is `c`: the first `a` samples are multiplied with the rising half of a window
of length `2 * a` and those from number `b` on with the falling half of a window, the others are untouched. -/
structure Tapered {α} (mul : α → ℚ → α) (w : ℕ → List ℚ) (p q : PatchM α) (dim : String) (c : RangeCoord) (start stop : Option TaperAmt)
    (a b : ℕ) : Prop where
  coords : q.cm = p.cm
  shape : q.data.shape = p.data.shape
  order : a ≤ b ∧ b ≤ c.len
  first : ∀ x : ℕ, x < c.len → (x < a ↔ StartReaches c start x)
  last : ∀ x : ℕ, x < c.len → (b ≤ x ↔ EndReaches c stop x)
  data : ∀ i, InRange p.data.shape i → q.data.get i =
    if posAlong p dim i < a then mul (p.data.get i) ((w (2 * a)).getD (posAlong p dim i) 0)
    else if b ≤ posAlong p dim i then mul (p.data.get i) ((w (2 * (c.len - b))).getD ((c.len - b) + (posAlong p dim i - b)) 0)
    else p.data.get i

/-- The sample number `i` is the first whose label is at least `v`, up to the rounding to ten decimals of a step. -/
def NextIndex (c : RangeCoord) (v : ℚ) (i : ℕ) : Prop :=
  i < c.len ∧ ∀ x : ℕ, i ≤ x ↔ v - c.step * (1 / (2 * 10 ^ 10)) ≤ c.start + x * c.step

/-- The envelope of a range: 0 before `i1`, rising up to `i2`, 1 up to `i3`, falling up to `i4` and 0 from there. -/
def rangeEnv (w : ℕ → List ℚ) (i1 i2 i3 i4 x : ℕ) : ℚ :=
  if x < i1 then 0
  else if x < i2 then (w (2 * (i2 - i1) + 1)).getD (x - i1) 0
  else if x < i3 then 1
  else if x < i4 then (w (2 * (i4 - i3) + 1)).getD (i4 - 1 - x) 0
  else 0

end Spec
