import Verif.Model.Time
import Mathlib.Algebra.Order.Group.Unbundled.Abs
import Mathlib.Algebra.Order.Field.Rat
/-! What converting times should do. -/
namespace Spec
open Verif

/-- A number with a significand of 53 bits. -/
def Representable (q : ℚ) : Prop := ∃ m k : ℤ, |m| < 2 ^ 53 ∧ q = m * (2 : ℚ) ^ k

/-- The integer `n` is nearest to `q`. -/
def NearestInt (n : ℤ) (q : ℚ) : Prop := |(n : ℚ) - q| ≤ 1 / 2

/-- How numpy prints the unit of a duration. -/
def unitName : TUnit → String
  | .day => "days"
  | .hour => "hours"
  | .minute => "minutes"
  | .second => "seconds"
  | .millisecond => "milliseconds"
  | .microsecond => "microseconds"
  | .nanosecond => "nanoseconds"

/-- The length of a unit in seconds. -/
def unitSeconds : TUnit → ℚ
  | .day => 24 * 60 * 60
  | .hour => 60 * 60
  | .minute => 60
  | .second => 1
  | .millisecond => 1 / 1000
  | .microsecond => 1 / 1000000
  | .nanosecond => 1 / 1000000000

end Spec
