import Mathlib.Data.Rat.Floor
/-!
# Numbers, errors and Python slices

Primitives of Python/numpy which the modelled code calls. Nothing here comes from /repo itself; these
definitions are the documented meaning of the library calls (trusted base).
-/
namespace Verif

/-- Exception classes raised by the modelled code (`dascore/exceptions.py` and Python builtins). -/
inductive Err where
  | coordError | parameterError | valueError | typeError | indexError | zeroDivision
  | patchCoordinateError | patchAttributeError | patchDimError | unknownFiberFormat
  | coordMergeError | attributeMergeError | chunkError | missingPatch | assertionError | keyError
  | incompatiblePatch | invalidSpool | patchBroadcastError | unitError | filterValueError
  | coordSortError | diverges | notImplemented | invalidFileFormat | dependencyError | attributeError
  deriving DecidableEq, Repr

/-- `np.rint`: round to the nearest integer, ties to even. -/
def rint (q : ℚ) : ℤ :=
  let f := ⌊q⌋
  if q - f < 1 / 2 then f
  else if 1 / 2 < q - f then f + 1
  else if f % 2 = 0 then f else f + 1

/-- `np.round(q, decimals=k)`: scale, `rint`, unscale. Exact arithmetic (float error not modelled). -/
def roundDec (k : ℕ) (q : ℚ) : ℚ := (rint (q * 10 ^ k) : ℚ) / 10 ^ k

/-- Python `int(x)`: truncate towards zero. -/
def truncZ (q : ℚ) : ℤ := if 0 ≤ q then ⌊q⌋ else ⌈q⌉

/-- `np.sign`. -/
def sgn (q : ℚ) : ℤ := if 0 < q then 1 else if q < 0 then -1 else 0

/-- Absolute value, as computed by `np.abs`. -/
def absQ (q : ℚ) : ℚ := if q < 0 then -q else q

/-- `np.isclose(a, b, rtol, atol)`: `|a - b| <= atol + rtol * |b|`. -/
def isClose (a b : ℚ) (rtol : ℚ := 1 / 100000) (atol : ℚ := 1 / 100000000) : Bool :=
  decide (absQ (a - b) ≤ atol + rtol * absQ b)

/-- A Python `slice` object (components may be `None`). -/
structure PySlice where
  start : Option ℤ := none
  stop : Option ℤ := none
  step : Option ℤ := none
  deriving DecidableEq, Repr

/-- A Python `range` object given by its first element, its step and its number of elements. -/
structure PyRange where
  start : ℤ
  step : ℤ
  len : ℕ
  deriving DecidableEq, Repr

/-- Elements of the range. -/
def PyRange.toList (r : PyRange) : List ℤ := (List.range r.len).map fun i : ℕ => r.start + (i : ℤ) * r.step

/-- Clip one slice bound into `[lo, hi]` after wrapping negatives (CPython `PySlice_AdjustIndices`). -/
def clipBound (n : ℕ) (lo hi : ℤ) (x : ℤ) : ℤ :=
  if x < 0 then max (x + n) lo else min x hi

/-- `range(n)[s]`, following CPython `slice.indices`. A zero step is `ValueError`. -/
def PySlice.indices (s : PySlice) (n : ℕ) : Except Err PyRange :=
  let step := s.step.getD 1
  if step = 0 then .error .valueError
  else if 0 < step then
    let a := (s.start.map (clipBound n 0 n)).getD 0
    let b := (s.stop.map (clipBound n 0 n)).getD n
    .ok ⟨a, step, if a < b then ((b - a - 1) / step + 1).toNat else 0⟩
  else
    let a := (s.start.map (clipBound n (-1) (n - 1))).getD (n - 1)
    let b := (s.stop.map (clipBound n (-1) (n - 1))).getD (-1)
    .ok ⟨a, step, if b < a then ((a - b - 1) / (-step) + 1).toNat else 0⟩

/-- Integer-array (fancy) indexing of a list with *valid non-negative* positions. -/
def takeIdx {α} (l : List α) (ix : List ℕ) : List α := ix.filterMap fun i => l[i]?

/-- Basic slicing `l[s]` of a list / numpy array axis. -/
def pySlice {α} (l : List α) (s : PySlice) : Except Err (List α) := do
  let r ← s.indices l.length
  return takeIdx l (r.toList.map Int.toNat)

/-- Boolean-mask indexing. -/
def maskIdx {α} (l : List α) (m : List Bool) : List α :=
  (l.zip m).filterMap fun p => if p.2 then some p.1 else none

end Verif
