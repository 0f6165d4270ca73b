import Verif.Model.TauP
import Verif.Spec.CoordManager
import Mathlib.Algebra.BigOperators.Group.Finset.Basic
/-! # What a tau-p transform promises: a slant stack -/
namespace Spec
open Verif

/-- A second, in the units of the labels of a coordinate: datetimes are counted in nanoseconds. -/
def secondOf (k : Kind) : ℚ := if k = .time then 1000000000 else 1

/-- The trace number `i` of a patch of distance and time has the value `v` at time `t`: on the straight line between the samples around `t`. It
counts as zero at times not before the last sample. -/
def TraceAt (p : PatchM ℚ) (i : ℕ) (t v : ℚ) : Prop :=
  (∃ l a b, InRange p.data.shape [i, l + 1] ∧ label p "time" [i, l] = some (some a) ∧ label p "time" [i, l + 1] = some (some b) ∧
    a ≤ t ∧ t < b ∧ v = p.data.get [i, l] + (p.data.get [i, l + 1] - p.data.get [i, l]) * ((t - a) / (b - a))) ∨
  ((∀ l a, InRange p.data.shape [i, l] → label p "time" [i, l] = some (some a) → a ≤ t) ∧ v = 0)

/-- `out` is the sum of the traces at the times `tau + s (x - x₀)`, `x` being the distance of a trace and `x₀` the end from which a wave of
slowness `s` comes. -/
def SlantSum (p : PatchM ℚ) (second s tau out : ℚ) : Prop :=
  ∃ (n : ℕ) (x v : ℕ → ℚ) (e : ℕ), p.data.shape[0]? = some n ∧ e < n ∧
    (∀ i < n, label p "distance" [i, 0] = some (some (x i)) ∧ 0 ≤ s * (x i - x e) ∧ TraceAt p i (tau + s * (x i - x e) * second) (v i)) ∧
    out = ∑ i ∈ Finset.range n, v i

/-- The slownesses: those of waves towards smaller distances, then those towards larger ones. -/
def slownesses (vs : List ℚ) : List ℚ := (vs.reverse.map fun v => -(1 / v)) ++ vs.map fun v => 1 / v

end Spec
