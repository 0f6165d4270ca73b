import Verif.Model.Mute
import Verif.Spec.Calculus
/-! # Specification vocabulary for mutes -/
namespace Spec
open Verif

/-- Along `d` the samples are evenly spaced: the coordinate is `r`, of kind `k`. -/
def Even (m : CM) (d : String) (k : Kind) (r : RangeCoord) : Prop := d ∈ m.dims ∧ m.ents.get? d = some ([d], .one k (.range r))

/-- The smallest place along an evenly sampled coordinate, as a number (for times, in seconds). -/
def lowest (k : Kind) (r : RangeCoord) : ℚ := min (stepNumber k r.start) (stepNumber k (r.start + (r.len - 1) * r.step))

/-- The largest place. -/
def highest (k : Kind) (r : RangeCoord) : ℚ := max (stepNumber k r.start) (stepNumber k (r.start + (r.len - 1) * r.step))

/-- The length of a dimension, counting one interval for each sample. -/
def extent (k : Kind) (r : RangeCoord) : ℚ := r.len * |stepNumber k r.step|

/-- Where a value lies: relative values are counted from the smallest place if they are positive, from the largest if negative. -/
def whereIs (k : Kind) (r : RangeCoord) (relative : Bool) (v : ℚ) : ℚ :=
  if relative then (if 0 ≤ v then lowest k r + v else highest k r + v) else v

/-- The place of a limit along one dimension; `none` if there is none. -/
def limitAt (k : Kind) (r : RangeCoord) (relative : Bool) : Bound → Option ℚ
  | .value v => some (whereIs k r relative v)
  | _ => none

/-- A limit along one dimension is a number, or not given. -/
def OneLimit : Bound → Prop
  | .pair _ _ => False
  | _ => True

/-- The line given by its boundaries along two dimensions: through two points, or where one coordinate is constant. `A` and `B` tell where
values lie. -/
def lineThrough (A B : ℚ → ℚ) : Bound → Bound → Option Line
  | .pair x x', .pair y y' => some ⟨(A x, B y), (A x', B y')⟩
  | .value x, .hole => some ⟨(A x, 0), (A x, 1)⟩
  | .hole, .value y => some ⟨(0, B y), (1, B y)⟩
  | _, _ => none

/-- The direction of a line. -/
def along (l : Line) : ℚ × ℚ := (l.q.1 - l.p.1, l.q.2 - l.p.2)

/-- The point `o` lies on the line. -/
def OnLine (l : Line) (o : ℚ × ℚ) : Prop := ∃ t, o = (l.p.1 + t * (along l).1, l.p.2 + t * (along l).2)

/-- The point `c` lies inside the wedge in which the lines go in the directions `u` and `v` from where they meet. -/
def InWedge (l m : Line) (u v c : ℚ × ℚ) : Prop :=
  ∃ o, OnLine l o ∧ OnLine m o ∧ ∃ a b : ℚ, 0 < a ∧ 0 < b ∧ c = (o.1 + a * u.1 + b * v.1, o.2 + a * u.2 + b * v.2)

/-- The point `c` lies between two lines, and not on them. -/
def InStrip (l m : Line) (c : ℚ × ℚ) : Prop :=
  ¬ OnLine l c ∧ ∃ o o', OnLine l o ∧ OnLine m o' ∧ ∃ t : ℚ, 0 < t ∧ t < 1 ∧ c = (o.1 + t * (o'.1 - o.1), o.2 + t * (o'.2 - o.2))

/-- The scalar product of two directions when the dimensions have lengths `e` and `f`. -/
def inner (e f : ℚ) (u v : ℚ × ℚ) : ℚ := u.1 / e * (v.1 / e) + u.2 / f * (v.2 / f)

/-- Directions long enough to be told from zero. -/
def Long (e f : ℚ) (u v : ℚ × ℚ) : Prop := (1 / 10 ^ 9) ^ 2 ≤ inner e f u u ∧ (1 / 10 ^ 9) ^ 2 ≤ inner e f v v

/-- Directions different enough to be told apart. -/
def Skew (e f : ℚ) (u v : ℚ × ℚ) : Prop :=
  inner e f u v ^ 2 ≤ (1 - 1 / 10 ^ 9) ^ 2 * (inner e f u u * inner e f v v) ∧ 1 / 10 ^ 8 < |u.1 * v.2 - u.2 * v.1|

/-- The directions in which the wedge opens: the lines', except that one which is given by a number is reversed if it goes to the other side. -/
def Opens (e f : ℚ) (first second : Bool) (u v u' v' : ℚ × ℚ) : Prop :=
  (0 ≤ inner e f u v ∧ u' = u ∧ v' = v) ∨
  (inner e f u v < 0 ∧ first = true ∧ second = false ∧ u' = (-u.1, -u.2) ∧ v' = v) ∨
  (inner e f u v < 0 ∧ second = true ∧ u' = u ∧ v' = (-v.1, -v.2))

/-- A line is given by a number. -/
def constant : Bound → Bound → Bool
  | .value _, _ => true
  | _, .value _ => true
  | _, _ => false

/-- The values of a boundary are not negative. -/
def NonNeg : Bound → Prop
  | .pair a b => 0 ≤ a ∧ 0 ≤ b
  | .hole => True
  | .value v => 0 ≤ v

/-- The boundaries are given for the first two dimensions of the patch, in their order; or in the other order and relative to the smallest
places. -/
def RightOrder (m : CM) (d1 d2 : String) (relative : Bool) (r1 r2 : Bound × Bound) : Prop :=
  (∃ rest, m.dims = d1 :: d2 :: rest) ∨
  (∃ rest, m.dims = d2 :: d1 :: rest ∧ relative = true ∧ NonNeg r1.1 ∧ NonNeg r1.2 ∧ NonNeg r2.1 ∧ NonNeg r2.2)

/-- `q` is `p` with the samples of a region set to zero, or with all others set to zero (`invert`). -/
structure Muted (p q : PatchM ℚ) (invert : Bool) (region : List ℕ → Prop) : Prop where
  coords : q.cm = p.cm
  shape : q.data.shape = p.data.shape
  inside : ∀ i, InRange p.data.shape i → region i → q.data.get i = if invert then p.data.get i else 0
  outside : ∀ i, InRange p.data.shape i → ¬ region i → q.data.get i = if invert then 0 else p.data.get i

/-- At the distances `x` and `y` from the origin the slope `x / y` is less than `s` (`none` is infinite). -/
def Below (x y : ℚ) : Option ℚ → Prop
  | some s => x < s * y
  | none => 0 < y

/-- It is greater than `s`. -/
def Above (x y : ℚ) : Option ℚ → Prop
  | some s => s * y < x
  | none => False

/-- It is strictly between two slopes. -/
def BetweenSlopes (s t : Option ℚ) (x y : ℚ) : Prop := (Above x y s ∧ Below x y t) ∨ (Above x y t ∧ Below x y s)

/-- A slope is zero or not too small (`none` is infinite). -/
def SlopeOk (s : Option ℚ) : Prop := ∀ x ∈ s, x = 0 ∨ 1 / 10 ^ 8 < x

/-- The direction with slope `s`, with a first component of length `range` unless the slope is zero or infinite. -/
def slopeDir (range : ℚ) : Option ℚ → ℚ × ℚ
  | none => (1, 0)
  | some s => if s = 0 then (0, 1) else (range, range / s)

end Spec
