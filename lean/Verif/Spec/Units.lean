import Verif.Model.Units
import Verif.Spec.Coord
/-!
# What units mean
-/
namespace Spec
open Verif

section
variable {K : Type} [Field K]

/-- The amount, in the base unit, of the number `x` given in the units `u` (which may have a factor of their own, like "10 m"). -/
def amount (u : Quant K) (x : K) : K := x * u.mag * u.unit.scale + u.unit.offset

/-- Units in which every amount can be expressed. -/
structure Usable (u : Quant K) : Prop where
  mag : u.mag ≠ 0
  scale : u.unit.scale ≠ 0

/-- Units of the same kind of quantity, such as two lengths. -/
def Comparable (a b : Quant K) : Prop := a.unit.dim = b.unit.dim

/-- Units whose zero is nothing at all: all but those of temperatures (and pressures) on shifted scales. -/
def FromZero (u : Quant K) : Prop := u.unit.offset = 0

/-- The numbers `l` in units `a` and the numbers `l'` in units `b` are the same amounts, one by one. -/
def SameAmounts (a b : Quant K) (l l' : List K) : Prop := List.Forall₂ (fun x y => amount b y = amount a x) l l'

/-- The base unit for quantities like `u`. -/
def IsBase (u b : Quant K) : Prop := b.mag = 1 ∧ b.unit.dim = u.unit.dim ∧ b.unit.scale = 1 ∧ b.unit.offset = 0

end

/-- The coordinate `c'` has the labels of `c` as numbers of `u`, where those of `c` are numbers of `a`. Evenly sampled labels are still
evenly sampled. -/
structure Relabeled (a u : Quant ℚ) (c c' : UCoord) : Prop where
  units : c'.units = some u
  labels : ∃ l l', c.coord.labels = l.map some ∧ c'.coord.labels = l'.map some ∧ SameAmounts a u l l'
  even : ∀ r, c.coord = .range r → ∃ r', c'.coord = .range r'

/-- A coordinate that keeps labels, with a list of labels which are not times. -/
structure Numeric (c : UCoord) : Prop where
  number : c.kind ≠ .time
  valid : ∀ r, c.coord = .range r → r.step ≠ 0 ∧ 1 ≤ r.len ∧ r.stop = r.start + r.step * r.len
  whole : ∀ n, c.coord ≠ .part n

/-- Labels kept one by one: once expressed in units `u`, they are labels which a coordinate can store unaltered. -/
def LabelsFit (a u : Quant ℚ) (c : UCoord) : Prop :=
  ∀ vs, c.coord = .mono vs ∨ c.coord = .arr vs → ∀ l, SameAmounts a u vs l → Storable l

/-- All coordinates but those named are the same, and those named belong to the same dimensions as before. -/
structure OnlyNamed (names : List String) (m m' : Dict (List String × UCoord)) : Prop where
  others : ∀ name, name ∉ names → m'.get? name = m.get? name
  attached : ∀ name, (m'.get? name).map Prod.fst = (m.get? name).map Prod.fst

section
variable {K : Type} [Field K]

/-- Rates belonging to the unit `u`, such as frequencies if it is a unit of time. -/
def RateFor (u : PintUnit K) (q : Quant K) : Prop := q.unit.dim = u.dim.map (- ·)

/-- Lengths of cycles measured like `u`, such as periods if it is a unit of time. -/
def CycleFor (u : PintUnit K) (q : Quant K) : Prop := q.unit.dim = u.dim

/-- The unit is not that of a number: the rates are different from the cycles. -/
def HasDim (u : PintUnit K) : Prop := ∃ e ∈ u.dim, e ≠ 0

/-- `f` cycles per `u`, as a rate in the base unit. -/
def cyclesPer (u : PintUnit K) (f : K) : K := f / u.scale

end

end Spec
