import Verif.Spec.Instruments
import Verif.Model.XmlBinary
/-! # How directories of raw files are laid out -/
namespace Spec
open Verif

/-- A raw file with `n` frames of `m` channels, frame after frame. -/
structure RawLayout {α} (x : XmlInfo) (f : RawFile α) (n m : ℕ) : Prop where
  frames : x.frames = n
  channels : x.last = x.first - 1 + m
  some_sample : 1 ≤ n ∧ 1 ≤ m
  upright : x.transposed = false
  rate : 0 < x.rate ∧ x.rate < 2000000000
  spacing : 0 < x.interval
  size : f.size = n * m

/-- Frame `i` of the file has its `m` values one after the other. -/
def framesOf {α} (f : RawFile α) (n m : ℕ) : Nd α := ⟨[n, m], fun i => f.value (i.getD 0 0 * m + i.getD 1 0)⟩

/-- `q` is what selecting within the limits leaves of the whole file: times from the instant in the name of the file on, `dt` apart; channel `c` at the distance `(c - 1) * dx`. -/
def RawWithin {α} (x : XmlInfo) (dt : ℚ) (n m : ℕ) (time distance : Option ℚ × Option ℚ) (f : RawFile α) (q : PatchM α) : Prop :=
  ∃ w gs, HoldsArray (framesOf f n m) ["time", "distance"] (evenly f.start dt ((x.first - 1) * x.interval) x.interval) w ∧
    gs.flatten.Perm (bothLimits time distance) ∧ SelectedBy w gs q

/-- Within limits, which may be open. -/
def Bounded (limits : Option ℚ × Option ℚ) (v : ℚ) : Prop := (∀ a, limits.1 = some a → a ≤ v) ∧ ∀ b, limits.2 = some b → v ≤ b

end Spec
