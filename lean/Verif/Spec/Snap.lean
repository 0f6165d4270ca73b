import Verif.Model.Snap
import Verif.Spec.CoordManager
import Mathlib.Algebra.Order.Field.Rat
import Mathlib.Algebra.Order.Group.Unbundled.Abs
/-! # Specification: snapping coordinates -/
namespace Spec
open Verif

/-- The coordinates asked for: those named, all dimensions if none is named. -/
def askedCoords (m : CM) (names : List String) : List String := if names = [] then m.dims else names

/-- `l'` is what becomes of the labels `l` when they are snapped: as many, evenly spaced, in the order asked for, from the first label on. The last label is
kept; for times it moves by at most half a nanosecond per step. -/
structure Evened (kind : Kind) (reverse : Bool) (l l' : List ℚ) : Prop where
  even : ∃ s, s ≠ 0 ∧ l' = progression (l.headD 0) s l.length
  order : InOrder reverse l'
  last : kind ≠ .time → l'.getLastD 0 = l.getLastD 0
  near : |l'.getLastD 0 - l.getLastD 0| ≤ (l.length - 1 : ℕ) / 2

/-- `q` is `s` with the labels of some coordinates replaced. -/
structure Relabelled {α} (s q : PatchM α) (names : List String) : Prop where
  data : q.data = s.data
  dims : q.cm.dims = s.cm.dims
  others : ∀ n, n ∉ names → q.cm.ents.get? n = s.cm.ents.get? n
  shape : q.cm.shape = q.data.shape

/-- The coordinates named are evenly sampled and in the order asked for. -/
def EvenAlready (m : CM) (names : List String) (reverse : Bool) : Prop :=
  ∀ n ∈ names, ∃ d k r, m.ents.get? n = some ([d], .one k (.range r)) ∧ (if reverse then r.step < 0 else 0 < r.step)

end Spec
