import Verif.Model.Attach
import Verif.Spec.Resample
/-! # Specification vocabulary for coordinates computed from tables and places -/
namespace Spec
open Verif
variable {α : Type}

/-- `v` lies at `x` on the straight line between two rows of the table which follow each other and have `x` between them. -/
def WithinRows (rows : List (ℚ × ℚ)) (x v : ℚ) : Prop :=
  ∃ a ∈ rows, ∃ b ∈ rows, a.1 ≤ x ∧ x ≤ b.1 ∧ (∀ r ∈ rows, r.1 ≤ a.1 ∨ b.1 ≤ r.1) ∧ v = a.2 + (b.2 - a.2) * ((x - a.1) / (b.1 - a.1))

/-- The same, going on with the first or last line outside of the table. -/
def OnLines (rows : List (ℚ × ℚ)) (x v : ℚ) : Prop :=
  ∃ a ∈ rows, ∃ b ∈ rows, a.1 < b.1 ∧ (a.1 ≤ x ∨ ∀ r ∈ rows, a.1 ≤ r.1) ∧ (x ≤ b.1 ∨ ∀ r ∈ rows, r.1 ≤ b.1) ∧ (∀ r ∈ rows, r.1 ≤ a.1 ∨ b.1 ≤ r.1) ∧
    v = a.2 + (b.2 - a.2) * ((x - a.1) / (b.1 - a.1))

/-- `x` is before or after all rows. -/
def OutsideRows (rows : List (ℚ × ℚ)) (x : ℚ) : Prop := (∀ r ∈ rows, x < r.1) ∨ ∀ r ∈ rows, r.1 < x

/-- `q` is `p` with further coordinates, those called `names`, or with others under these names. -/
structure WithMore (p q : PatchM α) (names : List String) : Prop where
  data : q.data = p.data
  dims : q.cm.dims = p.cm.dims
  labels : ∀ name ds c, p.cm.ents.get? name = some (ds, c) → name ∉ names → (∀ k x, c = .one k x → Storable x.vals) → ∀ i, label q name i = label p name i
  none : ∀ name, name ∉ names → p.cm.ents.get? name = none → q.cm.ents.get? name = none

/-- The coordinate `name` of `q` is a single value, attached to no dimension. -/
def Single (q : PatchM α) (name : String) (v : ℚ) : Prop := ∃ c, q.cm.ents.get? name = some ([], c) ∧ c.shape = [1] ∧ c.arr.get [0] = some v

/-- The value `v` follows from `x` for every label `x` which dimension `d` has, or there is none. -/
def ByLabel (p q : PatchM α) (d name : String) (R : ℚ → Option ℚ → Prop) : Prop :=
  ∀ i, InRange p.data.shape i → ∀ x, label p d i = some (some x) → ∃ v, label q name i = some v ∧ R x v

/-- All labels of `p` along `d` taken together. -/
def LabelsAre (p : PatchM α) (d : String) (xs : List ℚ) : Prop := ∃ k c, p.cm.ents.get? d = some ([d], .one k c) ∧ c.labels = xs.map some

/-- The place `i` of the patch has the coordinates `xs` under the names of the origin. -/
def PlacedAt (p : PatchM α) (origin : Dict ℚ) (i : List ℕ) (xs : List ℚ) : Prop := List.Forall₂ (fun n x => label p n i = some (some x)) origin.keys xs

/-- The difference of the origin and a place. -/
def offsets (origin : Dict ℚ) (xs : List ℚ) : List ℚ := List.zipWith (fun o x => o - x) (origin.map Prod.snd) xs

end Spec
