import Verif.Spec.CoordManager
/-! # When selecting cannot fail -/
namespace Spec
open Verif

/-- Every one dimensional coordinate of floats is evenly sampled (or all null). Others may be anything. -/
def EvenFloats (m : CM) : Prop :=
  ∀ name ds c, m.ents.get? name = some (ds, .one .float c) → (∃ r, c = .range r) ∨ ∃ n, c = .part n

/-- The query is an interval of labels or a slice of samples whose step is not zero. -/
def IntervalOrSlice : CQuery → Prop
  | .between _ _ => True
  | .slice s => (toSlice s).step ≠ some 0
  | _ => False

/-- The coordinate is attached to a dimension and its labels are strictly monotonic. -/
def Askable (m : CM) (name : String) : Prop :=
  ∃ d k c, m.ents.get? name = some ([d], .one k c) ∧ ((∃ r, c = .range r) ∨ ∃ l, c = .mono l)

end Spec
