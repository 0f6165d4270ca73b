import Verif.Model.UnitArith
import Verif.Spec.Arith
import Verif.Spec.Units
/-!
# What arithmetic with units means

A number with units is an amount of something: so many times the base unit of its kind. A number without units is that number of nothing in
particular.
-/
namespace Spec
open Verif

/-- How much `x` is in these units, counted in base units. -/
def worth (u : Option (Quant ℚ)) (x : ℚ) : ℚ :=
  match u with
  | none => x
  | some u => amount u x

/-- What the units measure: the exponents of length, mass, time and so on. A number without units measures nothing. -/
def kindOf (u : Option (Quant ℚ)) : List ℤ :=
  match u with
  | none => [0, 0, 0, 0, 0, 0, 0]
  | some u => u.unit.dim

/-- Units in which every amount can be expressed, which do not have a zero of their own, and with the seven base dimensions. -/
structure Ordinary (u : Quant ℚ) : Prop where
  mag : u.mag ≠ 0
  scale : 0 < u.unit.scale
  fromZero : FromZero u
  seven : u.unit.dim.length = 7

/-- The amount which is the result of an operation. -/
def resultAmount : ArithOp → ℚ → ℚ → ℚ
  | .add, a, b => a + b
  | .sub, a, b => a - b
  | .mul, a, b => a * b
  | .div, a, b => a / b

/-- What the result measures, if it can be formed. -/
def ResultKind : ArithOp → List ℤ → List ℤ → List ℤ → Prop
  | .add, d, e, r => d = e ∧ r = d
  | .sub, d, e, r => d = e ∧ r = d
  | .mul, d, e, r => r.length = 7 ∧ ∀ k < 7, r.getD k 0 = d.getD k 0 + e.getD k 0
  | .div, d, e, r => r.length = 7 ∧ ∀ k < 7, r.getD k 0 = d.getD k 0 - e.getD k 0

/-- `f`, applied to numbers of `u` and of `v`, gives numbers of `w` which are the results of the operation on the amounts. -/
structure Computes (op : ArithOp) (u v w : Option (Quant ℚ)) (f : ℚ → ℚ → ℚ) : Prop where
  kind : ResultKind op (kindOf u) (kindOf v) (kindOf w)
  value : ∀ a b, worth w (f a b) = resultAmount op (worth u a) (worth v b)

/-- The comparison of two amounts. -/
def holds : CompOp → ℚ → ℚ → Prop
  | .gt, a, b => a > b
  | .ge, a, b => a ≥ b
  | .lt, a, b => a < b
  | .le, a, b => a ≤ b

/-- `f`, applied to numbers of `u` and of `v`, compares the amounts. -/
structure Compares (op : CompOp) (u v : Option (Quant ℚ)) (f : ℚ → ℚ → Bool) : Prop where
  kind : kindOf u = kindOf v
  value : ∀ a b, f a b = true ↔ holds op (worth u a) (worth v b)

/-- All samples are zero. -/
def AllZero {α : Type} [Zero α] (a : Nd α) : Prop := ∀ i, InRange a.shape i → a.get i = 0

/-- The array `b` of numbers of `w` holds the same amounts as the array `a` of numbers of `v`. -/
structure SameArray (v w : PintUnit ℚ) (a b : Nd ℚ) : Prop where
  kind : w.dim = v.dim
  shape : b.shape = a.shape
  worth : ∀ i, InRange a.shape i → b.get i * w.scale = a.get i * v.scale

/-- The results hold the same amounts under the same labels. -/
structure SameResult (r s : MPatch) : Prop where
  kind : kindOf s.units = kindOf r.units
  shape : s.patch.data.shape = r.patch.data.shape
  coords : s.patch.cm = r.patch.cm
  worth : ∀ i, InRange r.patch.data.shape i → Spec.worth s.units (s.patch.data.get i) = Spec.worth r.units (r.patch.data.get i)

end Spec
