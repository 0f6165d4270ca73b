import Verif.Model.Resample
import Verif.Spec.Calculus
/-! # Specification vocabulary for interpolation and resampling -/
namespace Spec
open Verif

/-- `q` has the labels `xs` along `d`; all other coordinates are those of `p`, but those attached to `d` are gone if its length changed. -/
structure Regridded (p q : PatchM ℚ) (d : String) (xs : List ℚ) : Prop where
  dims : q.cm.dims = p.cm.dims
  shape : q.data.shape = p.cm.dims.map fun e => if e = d then xs.length else lenDim p.cm e
  own : Storable xs → ∀ i, InRange q.data.shape i → label q d i = some (xs[posAlong q d i]?)
  labels : ∀ name ds c, p.cm.ents.get? name = some (ds, c) → name ≠ d → (d ∈ ds → xs.length = lenDim p.cm d) →
    (∀ k x, c = .one k x → Storable x.vals) → ∀ i, InRange q.data.shape i → label q name i = label p name i
  lost : ∀ name ds c, p.cm.ents.get? name = some (ds, c) → name ≠ d → d ∈ ds → xs.length ≠ lenDim p.cm d → q.cm.ents.get? name = none
  none : ∀ name, p.cm.ents.get? name = none → q.cm.ents.get? name = none

/-- A sample of `p` on the line along `d` through index `i`: its index and its label. -/
def LineSample (p : PatchM ℚ) (d : String) (i j : List ℕ) (a : ℚ) : Prop :=
  InRange p.data.shape j ∧ SameLine p d i j ∧ label p d j = some (some a)

/-- The samples `j` and `k` follow each other in the order of the labels, and their labels are the two nearest `x`: `x` is between the
labels unless it is outside of all labels. -/
structure Around (p : PatchM ℚ) (d : String) (i : List ℕ) (x : ℚ) (j k : List ℕ) (a b : ℚ) : Prop where
  left : LineSample p d i j a
  right : LineSample p d i k b
  less : a < b
  next : ∀ l y, LineSample p d i l y → y ≤ a ∨ b ≤ y
  above : a ≤ x ∨ ∀ l y, LineSample p d i l y → a ≤ y
  below : x ≤ b ∨ ∀ l y, LineSample p d i l y → y ≤ b

/-- The data of `q` are those of `p`, at the places `xs` along `d`, on straight lines between the samples. -/
def OnSegments (p q : PatchM ℚ) (d : String) (xs : List ℚ) : Prop :=
  ∀ i, InRange q.data.shape i → ∀ x, xs[posAlong q d i]? = some x → ∃ j k a b, Around p d i x j k a b ∧
    q.data.get i = p.data.get j + (p.data.get k - p.data.get j) * ((x - a) / (b - a))

/-- The data of `q` are those of the nearest samples of `p`. -/
def FromNearest (p q : PatchM ℚ) (d : String) (xs : List ℚ) : Prop :=
  ∀ i, InRange q.data.shape i → ∀ x, xs[posAlong q d i]? = some x → ∃ j a, LineSample p d i j a ∧
    (∀ l y, LineSample p d i l y → |x - a| ≤ |x - y|) ∧ q.data.get i = p.data.get j

/-- The labels of `d` are all different numbers, at least two. -/
def Distinguished (m : CM) (d : String) : Prop :=
  d ∈ m.dims ∧ ∃ k c, m.ents.get? d = some ([d], .one k c) ∧ c.vals.Nodup ∧ 2 ≤ c.vals.length

/-- Each line of `q` along `d` is the line of `p`, resampled by `rs` to the number of samples which `q` has. -/
def FromLines (rs : List ℚ → ℕ → List ℚ) (p q : PatchM ℚ) (d : String) : Prop :=
  ∀ i, InRange q.data.shape i →
    q.data.get i = (rs ((List.range (lenDim p.cm d)).map fun t : ℕ => p.data.get (i.set (p.cm.dims.idxOf d) t)) (lenDim q.cm d)).getD (posAlong q d i) 0

/-- The labels of `d` are the numbers `start, start + step, …`, `n` of them, of kind `k`; none of the labels is missing. -/
def EvenAlong (m : CM) (d : String) (k : Kind) (start step : ℚ) (n : ℕ) : Prop :=
  d ∈ m.dims ∧ ∃ stop, m.ents.get? d = some ([d], .one k (.range ⟨start, stop, step, n⟩))

/-- Steps between times are whole numbers of nanoseconds. -/
def EvenTimes (k : Kind) (h : ℚ) : Prop := k = .time → ∃ z : ℤ, h = z

end Spec
