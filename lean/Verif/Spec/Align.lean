import Verif.Model.Align
import Verif.Spec.PatchOps
/-! # Specification vocabulary for aligning traces -/
namespace Spec
open Verif

/-- `q` is `p` with every trace along `dim` moved by `g v` samples, `v` being the trace's value on coordinate `name`. `q` has `n`
samples along `dim`, the first of which is `first` samples after the first one of `p`. What falls outside is lost, what
nothing falls on is `fill`. Labels along `dim` go on with the coordinate's step; other coordinates keep their labels. -/
structure Aligned {α β} (cast : α → β) (fill : β) (p : PatchM α) (q : PatchM β) (dim name : String) (g : ℚ → ℤ) (first : ℤ) (n : ℕ) :
    Prop where
  dims : q.cm.dims = p.cm.dims
  shape : q.data.shape = p.cm.dims.map fun d => if d = dim then n else lenDim p.cm d
  value : ∀ i, InRange q.data.shape i → ∃ v, label p name i = some (some v)
  data : ∀ i v, InRange q.data.shape i → label p name i = some (some v) → ∀ j : ℤ, j = (posAlong p dim i : ℤ) + first - g v →
    q.data.get i = if 0 ≤ j ∧ j < lenDim p.cm dim then cast (p.data.get (i.set (p.cm.dims.idxOf dim) j.toNat)) else fill
  own : ∀ k c, p.cm.ents.get? dim = some ([dim], .one k (.range c)) → ∀ i, InRange q.data.shape i →
    label q dim i = some (some (c.start + ((posAlong p dim i : ℤ) + first) * c.step))
  coord : ∀ k c, p.cm.ents.get? dim = some ([dim], .one k (.range c)) → n ≠ 0 → ∃ e, q.cm.ents.get? dim = some ([dim], .one k (.range e)) ∧
    e.start = c.start + first * c.step ∧ e.step = c.step ∧ e.len = n
  labels : ∀ nm ds c, p.cm.ents.get? nm = some (ds, c) → dim ∉ ds → (∀ k x, c = .one k x → Storable x.vals) →
    ∀ i, InRange q.data.shape i → label q nm i = label p nm i
  none : ∀ nm, p.cm.ents.get? nm = none → q.cm.ents.get? nm = none

/-- What a shift of `v` along the range `c` becomes, in samples; `r` is 1, or -1 for a reversed shift. A shift given in samples
and a shift by a multiple of the step are exact, any other is off by at most one step (and the rounding to ten decimals). -/
structure ShiftOk (c : RangeCoord) (samples : Bool) (r : ℤ) (v : ℚ) (s : ℤ) : Prop where
  inSamples : samples = true → ∀ m : ℤ, v = m → s = r * m
  grid : samples = false → ∀ m : ℤ, v = m * c.step → s = r * m
  near : samples = false → |(s : ℚ) * c.step - r * v| ≤ c.step * (1 + 1 / (2 * 10 ^ 10))

/-- The sample `j` of `q` is where the sample `i` of `p` goes when moved by `k` steps along `dim`: the same place in all other
dimensions, and the label on `dim` is `k` steps further. -/
def MovedTo {α β} (p : PatchM α) (q : PatchM β) (dim : String) (c : RangeCoord) (k : ℤ) (i j : List ℕ) : Prop :=
  (∃ x, j = i.set (p.cm.dims.idxOf dim) x) ∧ ∃ t, label p dim i = some (some t) ∧ label q dim j = some (some (t + k * c.step))

end Spec
