import Mathlib.Algebra.Order.Group.Unbundled.Abs
import Mathlib.Algebra.Order.Field.Rat
import Mathlib.Data.List.Sort
/-!
# What the edges of the cells around samples should be (independent of the model)
-/
namespace Spec

/-- The middle value of the sorted list, or the mean of the two in the middle. -/
def IsMedian (l : List ℚ) (m : ℚ) : Prop :=
  ∀ s : List ℚ, s.Perm l → s.Pairwise (· ≤ ·) → m = (s.getD ((l.length - 1) / 2) 0 + s.getD (l.length / 2) 0) / 2

/-- Strictly increasing (`d = 1`) or strictly decreasing (`d = -1`). -/
def Runs (d : ℚ) (l : List ℚ) : Prop := l.Pairwise fun a b => 0 < d * (b - a)

/-- The cell of sample `i`: one per earlier sample and one per earlier gap. -/
def cellOf (mask : List Bool) (i : ℕ) : ℕ := i + (mask.take i).count true

/-- The sample `x` lies inside cell `c`. -/
def InCell (d : ℚ) (edges : List ℚ) (c : ℕ) (x : ℚ) : Prop :=
  ∃ a b, edges[c]? = some a ∧ edges[c + 1]? = some b ∧ 0 < d * (x - a) ∧ 0 < d * (b - x)

/-- The edges run in the direction of the samples and the cells are those of the samples and, after the samples marked, one more. -/
structure Cells (d : ℚ) (v edges : List ℚ) (mask : List Bool) : Prop where
  runs : Runs d edges
  count : edges.length = v.length + mask.count true + 1
  holds : ∀ (i : ℕ) x, v[i]? = some x → InCell d edges (cellOf mask i) x

/-- The gaps are exactly the spacings above the limit. -/
def MarksGaps (v : List ℚ) (mask : List Bool) (isGap : ℚ → Prop) : Prop :=
  mask.length = v.length - 1 ∧
  ∀ (i : ℕ) x y, v[i]? = some x → v[i + 1]? = some y → (mask[i]? = some true ↔ isGap |y - x|)

/-- All spacings between neighbours. -/
def spacings (v : List ℚ) : List ℚ := List.zipWith (fun a b => |b - a|) v v.tail

/-- Which spacings are gaps. -/
def gapRule (v : List ℚ) (factor : Option ℚ) (x : ℚ) : Prop := ∃ f m, factor = some f ∧ IsMedian (spacings v) m ∧ f * m < x

/-- Where the inner edges are: halfway between neighbours, and around a gap half the usual step from the samples. -/
def Placed (d step : ℚ) (v edges : List ℚ) (mask : List Bool) : Prop :=
  ∀ (i : ℕ) x y, v[i]? = some x → v[i + 1]? = some y →
    (mask[i]? = some false → edges[cellOf mask i + 1]? = some ((x + y) / 2)) ∧
    (mask[i]? = some true → edges[cellOf mask i + 1]? = some (x + d * step / 2) ∧ edges[cellOf mask i + 2]? = some (y - d * step / 2))

end Spec
