import Verif.Model.Filter
/-! # What a query means (only the types of tables and queries are shared with the model) -/
namespace Spec
open Verif

/-- `t` lies between two limits, given in either order; `none` is an open end. -/
def Within (a b : Option ℚ) (t : ℚ) : Prop :=
  match a, b with
  | some a, some b => (a ≤ t ∧ t ≤ b) ∨ (b ≤ t ∧ t ≤ a)
  | some a, none => a ≤ t
  | none, some b => t ≤ b
  | none, none => True

/-- The limit a listed value stands for. -/
def limit : QElem → Option ℚ
  | .num q => some q
  | _ => none

/-- A cell holds a listed value. -/
def Holds (c : Cell) (x : QElem) : Prop :=
  match x with
  | .num q => c = .num q
  | .str s => c = .str s
  | .none => c = .null
  | .dots => False

/-- The row's interval along `b` and the range have a point in common. -/
def Overlaps (b : String) (x y : Option ℚ) (r : TRow) : Prop :=
  ∃ lo hi t, r ⟨b, .min⟩ = .num lo ∧ r ⟨b, .max⟩ = .num hi ∧ lo ≤ t ∧ t ≤ hi ∧ Within x y t

/-- A row meets one condition of a query. Absent values (`None`, `...`) ask for nothing. -/
def Satisfies (glob : String → String → Bool) (cols : List Key) (k : Key) (v : QArg) (r : TRow) : Prop :=
  if k ∈ cols then
    match v with
    | .none => True
    | .dots => True
    | .num q => r k = .num q
    | .str s => ∃ c, r k = .str c ∧ glob s c = true
    | .coll l => ∃ x ∈ l, Holds (r k) x
  else
    match k.suf, v with
    | .min, .num q => ∃ c, r ⟨k.base, .plain⟩ = .num c ∧ q ≤ c
    | .max, .num q => ∃ c, r ⟨k.base, .plain⟩ = .num c ∧ c ≤ q
    | .plain, .coll [x, y] =>
      (⟨k.base, .min⟩ : Key) ∈ cols → (⟨k.base, .max⟩ : Key) ∈ cols → Overlaps k.base (limit x) (limit y) r
    | _, _ => True

/-- Every interval of the row is in order. -/
def Ordered (r : TRow) : Prop := ∀ b lo hi, r ⟨b, .min⟩ = .num lo → r ⟨b, .max⟩ = .num hi → lo ≤ hi

end Spec
