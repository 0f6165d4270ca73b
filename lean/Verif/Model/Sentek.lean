import Verif.Model.XmlBinary
/-!
# The Sentek reader (`/repo/dascore/io/sentek`)

A file is the list of its numbers (float32, here without rounding) and its name. Attributes, and the selection which `SentekV5.read` leaves to the spool, are left out.
-/
namespace Verif

/-! ### The instant in the name -/

/-- What `float` makes of a text of digits. Other numbers Python accepts (signs, exponents, spaces) are refused here. -/
def readDigits : List Char → Option ℕ
  | [] => none
  | l => if l.all Char.isDigit then some (l.foldl (fun n c => 10 * n + (c.toNat - 48)) 0) else none

/-- The thousandths, in three digits. -/
def threeDigits (n : ℕ) : List Char := [Nat.digitChar (n / 100), Nat.digitChar (n / 10 % 10), Nat.digitChar (n % 10)]

/-- utils.py 52-53, `f"{second:02f}"` of thousandths of a second: six digits after the point, and at least two characters altogether, the point and the six digits among them. -/
def secondText (n : ℕ) : List Char := Nat.toDigits 10 (n / 1000) ++ '.' :: threeDigits (n % 1000) ++ ['0', '0', '0']

/-- utils.py 46, `name.split("_")[1].split(".")[0]`. -/
def stampPart (name : List Char) : Except Err (List Char) :=
  match name.dropWhile (· ≠ '_') with
  | [] => .error .indexError
  | _ :: rest => .ok ((rest.takeWhile (· ≠ '_')).takeWhile (· ≠ '.'))

/-- utils.py 41-54, `_get_time_from_file_name`: the text given to `np.datetime64`. -/
def sentekIso (name : List Char) : Except Err (List Char) :=
  (stampPart name).bind fun s =>
    match readDigits (s.drop 12) with
    | none => .error .valueError
    | some n => .ok (s.take 4 ++ '-' :: (s.drop 4).take 2 ++ '-' :: (s.drop 6).take 2 ++ 'T' :: (s.drop 8).take 2 ++ ':' :: (s.drop 10).take 2 ++ ':' :: secondText n)

/-! ### Numbers of the file -/

/-- `np.fromfile(fid, dtype=np.float32, count=1)[0]` at this number. -/
def wordAt (w : List ℚ) (i : ℤ) : Except Err ℚ :=
  match w[i.toNat]? with
  | some x => if i < 0 then .error .valueError else .ok x
  | none => .error .indexError

/-- utils.py 80-81: the distances. -/
def sentekDistance (start stop channels : ℚ) : Except Err Coord :=
  if channels = 0 then .error .zeroDivision else (mkRange start stop ((stop - start) / channels)).map .range

/-- utils.py 87-90: the times, with the instant of the file. The quotient of a duration is truncated to nanoseconds. -/
def sentekTime (stamp start stop count : ℚ) : Except Err Coord :=
  if count = 0 then .error .zeroDivision
  else (mkRange (stamp + nanos start) (stamp + nanos stop) (truncZ (((stamp + nanos stop) - (stamp + nanos start)) / count))).map .range

/-- core.py 31-32: the values from number `at'` on, in rows of all channels, transposed. -/
def sentekData (w : List ℚ) (at' count channels : ℕ) : Except Err (Nd ℚ) :=
  if ((w.drop at').take (count * channels)).length = count * channels then
    .ok ⟨[channels, count], fun i => w.getD (at' + (i.getD 1 0 * channels + i.getD 0 0)) 0⟩
  else .error .valueError

/-- utils.py 57-99 and core.py 21-37, `_get_patch_attrs` and `SentekV5.read`. All positions are counted from the start of the file; `stamp` is the instant in the name. -/
def sentekRead (w : List ℚ) (stamp : ℚ) : Except Err (PatchM ℚ) := do
  let channels ← wordAt w 0
  let count ← wordAt w 1
  let d0 ← wordAt w 6
  let d1 ← wordAt w (truncZ (channels - 1))
  let d ← sentekDistance d0 d1 channels
  let t0 ← wordAt w (truncZ (channels - 1) + 1)
  let t1 ← wordAt w (truncZ (count - 1))
  let t ← sentekTime stamp t0 t1 count
  let cm ← wholeCM (timeDistance t d) ["distance", "time"]
  let a ← sentekData w (truncZ (count - 1) + 1).toNat (truncZ count).toNat (truncZ channels).toNat
  PatchM.new cm a

end Verif
