import Verif.Model.Relative
import Verif.Spec.CoordManager
import Verif.Spec.Units
import Mathlib.Algebra.Order.Field.Rat
/-!
# What the limits of a selection mean
-/
namespace Spec
open Verif

/-- `t` nanoseconds are `x` seconds, as nearly as whole nanoseconds and the precision of float64 numbers allow. -/
def TimeOf (x t : ℚ) : Prop := (∃ n : ℤ, t = n) ∧ |t - x * 10 ^ 9| ≤ 1 / 2 + |x| * 10 ^ 9 / 2 ^ 51

/-- `v`, a number of the labels of a coordinate, is what the number `x` stands for: numbers are seconds if the labels are times. -/
def NumberOf (k : Kind) (x v : ℚ) : Prop := if k = .time then TimeOf x v else v = x

/-- How much `x` times the units `u` are, as a difference of two amounts: no zero is involved. -/
def difference (u : Quant ℚ) (x : ℚ) : ℚ := x * u.mag * u.unit.scale

/-- `v` (in labels) is the amount that `a` names on a coordinate whose labels extend over `extent`. Quantities are as much as they are in any other units, `size`
telling how much that is. A percentage of a duration is cut to whole nanoseconds. -/
def AmountOf (size : Quant ℚ → ℚ → ℚ) (c : UCoord) (extent : ℚ) : SValue → ℚ → Prop
  | .num s, v => ∃ x, s.value = some x ∧ NumberOf c.kind x v
  | .ns t, v => c.kind = .time ∧ v = t
  | .quant q, v => ∃ u x, c.units = some u ∧ Comparable ⟨1, q.unit⟩ u ∧ size u x = size ⟨1, q.unit⟩ q.mag ∧ NumberOf c.kind x v
  | .percent x, v => if c.kind = .time then (∃ n : ℤ, v = n) ∧ |v - x / 100 * extent| < 1 ∧ |v| ≤ |x / 100 * extent| else v = x / 100 * extent

/-- Values that count from the start or end of the coordinate: all of them if `relative` is given, and percentages. -/
def Counted (relative : Bool) (a : SValue) : Prop := relative = true ∨ ∃ x, a = .percent x

/-- The label `x` is where `a` points to: counted from the least label if it is not negative, and back from the greatest label if it is. -/
def PointsTo (c : UCoord) (relative : Bool) (a : SValue) (x : ℚ) : Prop :=
  (¬ Counted relative a ∧ AmountOf amount c 0 a x) ∨
    (Counted relative a ∧ ∃ lo hi v, IsMin c.coord.vals lo ∧ IsMax c.coord.vals hi ∧ AmountOf difference c (hi - lo) a v ∧
      ((0 ≤ v ∧ x = lo + v) ∨ (v < 0 ∧ x = hi + v)))

/-- The limit `x` (`none` for none) is the one that `a` describes. -/
def LimitOf (c : UCoord) (relative : Bool) (a : SValue) (x : Option ℚ) : Prop :=
  (a = .num .null ∧ x = none) ∨ ∃ y, x = some y ∧ PointsTo c relative a y

/-- The query `q`, in terms of labels, is what is asked about the coordinate. -/
def StandsFor (c : UCoord) (relative : Bool) : Ask → CQuery → Prop
  | .range a b, q => ∃ x y, q = .between x y ∧ LimitOf c relative a x ∧ LimitOf c relative b y
  | .array vs, q => ∃ os : List (Option ℚ), q = .values (os.filterMap id) ∧ List.Forall₂ (LimitOf c relative) vs os
  | .mask m, q => q = .mask m

/-- The keywords `kw'` ask in terms of labels what the keywords `kw` ask, one by one. -/
def SaysSame (m : CM) (units : String → Option (Quant ℚ)) (relative : Bool) (kw : Dict Ask) (kw' : Dict CQuery) : Prop :=
  List.Forall₂ (fun a q => q.1 = a.1 ∧ ∃ ds k c, m.ents.get? a.1 = some (ds, .one k c) ∧ StandsFor ⟨k, c, units a.1⟩ relative a.2 q.2) kw kw'

/-- A value that the coordinate can make sense of: a number, a time if its labels are times, a quantity of the kind of its units, or a percentage. -/
def Sensible (c : UCoord) : SValue → Prop
  | .num _ => True
  | .ns _ => c.kind = .time
  | .quant q => ∃ u, c.units = some u ∧ Comparable ⟨1, q.unit⟩ u ∧ Usable u
  | .percent _ => True

/-- A quantity, if it is one, is in units which have the same zero as those of the coordinate. -/
def SameZero (c : UCoord) : SValue → Prop
  | .quant q => ∀ u, c.units = some u → q.unit.offset = u.unit.offset
  | _ => True

/-- The values in what is asked. -/
def valuesIn : Ask → List SValue
  | .range a b => [a, b]
  | .array vs => vs
  | .mask _ => []

/-- Offsets are only given in units which have the same zero as those of the coordinate. -/
def ZerosAgree (m : CM) (units : String → Option (Quant ℚ)) (relative : Bool) (kw : Dict Ask) : Prop :=
  relative = true → ∀ a ∈ kw, ∀ v ∈ valuesIn a.2, ∀ ds k c, m.ents.get? a.1 = some (ds, .one k c) → SameZero ⟨k, c, units a.1⟩ v

end Spec
