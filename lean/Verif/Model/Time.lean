import Verif.Model.Num
/-!
# Time conversions (dascore/utils/time.py)

Times and durations are numbers of nanoseconds (`none` for NaT). Numbers of seconds are Python integers or float64 values;
float64 arithmetic is exact arithmetic followed by rounding to 53 significant bits (exponents are unbounded, so overflow,
subnormal numbers, and values outside int64 are not modelled). Parsing of ISO dates is numpy's and not
modelled.
-/
namespace Verif

/-- `⌊log2 |q|⌋` (for `q ≠ 0`). -/
def log2Q (q : ℚ) : ℤ :=
  let e : ℤ := (Nat.log2 q.num.natAbs : ℤ) - (Nat.log2 q.den : ℤ)
  if (2 : ℚ) ^ e ≤ absQ q then e else e - 1

/-- The distance of neighbouring float64 values at `q`. -/
def ulp (q : ℚ) : ℚ := (2 : ℚ) ^ (log2Q q - 52)

/-- Rounding to float64: to nearest, ties to even. -/
def float64 (q : ℚ) : ℚ := if q = 0 then 0 else (rint (q / ulp q) : ℚ) * ulp q

/-- A number of seconds as it is passed: an integer, a float, or NaN/infinity/`None`. -/
inductive Secs where
  | int (n : ℤ)
  | flt (x : ℚ)
  | null
  deriving DecidableEq, Repr

/-- time.py 24-26, `_float_array_to_ns` of a float. -/
def floatToNs (x : ℚ) : ℤ := rint (float64 (x * 1000000000))

/-- time.py 75-112, `to_datetime64` of a number: integers become floats first (line 106). -/
def toDatetime64 : Secs → Option ℤ
  | .int n => some (floatToNs (float64 n))
  | .flt x => some (floatToNs x)
  | .null => none

/-- time.py 186-231, `to_timedelta64` of a number: integers are multiplied as integers, `np.rint` makes them floats. -/
def toTimedelta64 : Secs → Option ℤ
  | .int n => some (rint (float64 ((n * 1000000000 : ℤ) : ℚ)))
  | .flt x => some (floatToNs x)
  | .null => none

/-- time.py 350-363 and 373-394, `to_float` of a datetime or timedelta: both operands of the division become floats. -/
def timeToFloat : Option ℤ → Secs
  | some t => .flt (float64 (float64 t / 1000000000))
  | none => .null

/-- The units of numpy times, in nanoseconds (those shorter than a nanosecond, months and years are not modelled). -/
inductive TUnit where
  | day | hour | minute | second | millisecond | microsecond | nanosecond
  deriving DecidableEq, Repr

/-- The length of a unit. -/
def TUnit.ns : TUnit → ℤ
  | .day => 86400000000000
  | .hour => 3600000000000
  | .minute => 60000000000
  | .second => 1000000000
  | .millisecond => 1000000
  | .microsecond => 1000
  | .nanosecond => 1

/-- time.py 98-102 and 129-132, `to_datetime64` of a datetime in some unit. -/
def datetimeToNs (u : TUnit) (ticks : ℤ) : ℤ := ticks * u.ns

/-- time.py 215-218, `to_timedelta64` of an array of datetimes: the ticks are taken as nanoseconds whatever their unit. -/
def datetimesToDeltas (_u : TUnit) (ticks : List ℤ) : List ℤ := ticks

/-- constants.py 128-142, `NUMPY_TIME_UNIT_MAPPING[name]`. -/
def unitNamed (name : String) : Option TUnit :=
  if name = "day" then some .day else if name = "hour" then some .hour else if name = "minute" then some .minute
  else if name = "second" then some .second else if name = "millisecond" then some .millisecond
  else if name = "microsecond" then some .microsecond else if name = "nanosecond" then some .nanosecond else none

/-- time.py 260-269, a string of a value and a unit: one final `s` is taken off the unit. The value is given as `int(val)`. -/
def deltaFromWords (val : Option ℤ) (unit : String) : Except Err ℤ :=
  let name := if unit.toList.getLast? = some 's' then String.ofList unit.toList.dropLast else unit
  match unitNamed name with
  | none => .error .keyError
  | some u =>
    match val with
    | none => .error .valueError
    | some n => .ok (n * u.ns)

end Verif
