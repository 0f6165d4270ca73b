import Verif.Spec.Instruments
import Verif.Model.Sentek
/-! # What a Sentek file holds -/
namespace Spec
open Verif

/-- The character of a digit. -/
def digit (d : Fin 10) : Char := ['0', '1', '2', '3', '4', '5', '6', '7', '8', '9'].getD d '0'

/-- An instant as digits: year, month, day, hour, minute, second and thousandths. -/
structure Stamp where
  year : Fin 4 → Fin 10
  month : Fin 2 → Fin 10
  day : Fin 2 → Fin 10
  hour : Fin 2 → Fin 10
  minute : Fin 2 → Fin 10
  second : Fin 2 → Fin 10
  milli : Fin 3 → Fin 10

/-- A field of digits. -/
def field {n} (f : Fin n → Fin 10) : List Char := (List.ofFn f).map digit

/-- The instant as Sentek puts it into names. -/
def Stamp.inName (s : Stamp) : List Char := field s.year ++ field s.month ++ field s.day ++ field s.hour ++ field s.minute ++ field s.second ++ field s.milli

/-- Texts of the form YYYY-MM-DDThh:mm:ss.ffffff, which numpy reads: every field has all its digits. -/
def IsoForm (year month day hour minute second fraction : List Char) : List Char :=
  year ++ '-' :: month ++ '-' :: day ++ 'T' :: hour ++ ':' :: minute ++ ':' :: second ++ '.' :: fraction

/-- The text is the instant. -/
def Stamp.IsIso (s : Stamp) (text : List Char) : Prop :=
  text = IsoForm (field s.year) (field s.month) (field s.day) (field s.hour) (field s.minute) (field s.second) (field s.milli ++ ['0', '0', '0'])

/-- The text is a date and time of the standard form. -/
def Standard (text : List Char) : Prop := ∃ y mo d h mi s f : List Char, y.length = 4 ∧ mo.length = 2 ∧ d.length = 2 ∧ h.length = 2 ∧ mi.length = 2 ∧ s.length = 2 ∧
  f.length = 6 ∧ text = IsoForm y mo d h mi s f

/-- The numbers of a file with `n` channels and `k` measurements, at the positions where the reader looks for them: all there, the first and last distance different, and
the time between the first and last measurement, in nanoseconds, a multiple `k * s` of their number. -/
structure SentekLayout (w : List ℚ) (n k : ℕ) (d0 d1 t0 t1 : ℚ) (s : ℤ) : Prop where
  some : 1 ≤ n ∧ 1 ≤ k
  size : k + k * n ≤ w.length
  channels : w[0]? = Option.some (n : ℚ)
  count : w[1]? = Option.some (k : ℚ)
  first : w[6]? = Option.some d0
  last : w[n - 1]? = Option.some d1
  begins : w[n]? = Option.some t0
  ends : w[k - 1]? = Option.some t1
  spread : d0 ≠ d1
  lasts : nanos t1 - nanos t0 = k * s
  forward : s ≠ 0

end Spec
