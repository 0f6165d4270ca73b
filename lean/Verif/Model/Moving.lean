import Verif.Model.Calculus
import Verif.Model.Gaps
import Verif.Model.Window
/-!
# Moving windows and despiking (dascore/utils/moving.py, dascore/proc/hampel.py)

Data are rational numbers and arithmetic is exact; NaN is not modelled (so every window has `min_count=1` observations). The standard deviation
is a parameter. Integer data of the Hampel filter pass through 32 bit floats: this rounding is modelled.
-/
namespace Verif

/-! ### Moving windows -/

/-- moving.py 28-53, the operations (`min` and `max` are `least` and `greatest`). -/
inductive MoveOp where
  | median
  | mean
  | std
  | sum
  | least
  | greatest
  deriving DecidableEq, Repr

/-- moving.py 240, `engine`. -/
inductive MoveEngine where
  | auto
  | scipy
  | bottleneck
  deriving DecidableEq, Repr

/-- The boundary modes of `scipy.ndimage`, with the fill value of `constant`. -/
inductive BoundaryMode where
  | reflect
  | constant (cval : ℚ)
  | nearest
  | mirror
  | wrap
  deriving DecidableEq, Repr

/-- The sample `j` of a line as `scipy.ndimage` extends it beyond its ends. -/
def extendAt (mode : BoundaryMode) (l : List ℚ) (j : ℤ) : ℚ :=
  let n : ℤ := l.length
  match mode with
  | .reflect => l.getD (if j % (2 * n) < n then j % (2 * n) else 2 * n - 1 - j % (2 * n)).toNat 0
  | .constant c => if 0 ≤ j ∧ j < n then l.getD j.toNat 0 else c
  | .nearest => l.getD (min (max j 0) (n - 1)).toNat 0
  | .mirror => l.getD (if j % (2 * n - 2) < n then j % (2 * n - 2) else 2 * n - 2 - j % (2 * n - 2)).toNat 0
  | .wrap => l.getD (j % n).toNat 0

/-- The window of `scipy.ndimage` filters at sample `i`: `w` samples from `i - w // 2 - origin` on. -/
def scipyWindow (mode : BoundaryMode) (origin : ℤ) (w : ℕ) (l : List ℚ) (i : ℕ) : List ℚ :=
  (List.range w).map fun t : ℕ => extendAt mode l (i - (w / 2 : ℕ) - origin + t)

/-- The value of scipy's filters for a window; of an even number of samples the median is the greater one in the middle. -/
def MoveOp.ofScipy (op : MoveOp) (ws : List ℚ) : ℚ :=
  match op with
  | .median => (ws.insertionSort (· ≤ ·)).getD (ws.length / 2) 0
  | .mean => ws.sum / ws.length
  | .sum => ws.sum / ws.length * ws.length
  | .least => ws.foldl min (ws.getD 0 0)
  | .greatest => ws.foldl max (ws.getD 0 0)
  | .std => 0

/-- moving.py 56-89, `_apply_scipy_operation` along one line. An origin outside of the window is a ValueError. -/
def scipyLine (op : MoveOp) (mode : BoundaryMode) (origin : ℤ) (w : ℕ) (l : List ℚ) : Except Err (List ℚ) :=
  if 0 ≤ (w / 2 : ℕ) + origin ∧ (w / 2 : ℕ) + origin < w then
    .ok ((List.range l.length).map fun i => op.ofScipy (scipyWindow mode origin w l i))
  else .error .valueError

/-- bottleneck's windows: the last `w` samples up to `i`, fewer at the start. -/
def trailingWindow (w : ℕ) (l : List ℚ) (i : ℕ) : List ℚ := (l.take (i + 1)).drop (i + 1 - w)

/-- The value of bottleneck's functions for a window. -/
def MoveOp.ofBottleneck (sd : List ℚ → ℚ) (op : MoveOp) (ws : List ℚ) : ℚ :=
  match op with
  | .median => npMedian false ws
  | .mean => ws.sum / ws.length
  | .sum => ws.sum
  | .least => ws.foldl min (ws.getD 0 0)
  | .greatest => ws.foldl max (ws.getD 0 0)
  | .std => sd ws

/-- moving.py 124-133, `_shift_bottleneck_result`: the last `w // 2` values stay. -/
def shiftResult (w : ℕ) (r : List ℚ) : List ℚ :=
  if w / 2 = 0 then r else r.drop (w / 2) ++ r.drop (r.length - w / 2)

/-- A bottleneck function and the shift, along one line. -/
def bottleneckLine (sd : List ℚ → ℚ) (op : MoveOp) (w : ℕ) (l : List ℚ) : List ℚ :=
  shiftResult w ((List.range l.length).map fun i => op.ofBottleneck sd (trailingWindow w l i))

/-- moving.py 92-94, `_requires_scipy_boundary`. -/
def needsScipy (mode : BoundaryMode) (origin : ℤ) : Bool := mode != .reflect || origin != 0

/-- moving.py 97-181, the function along one line for a selected engine. -/
def engineLine (sd : List ℚ → ℚ) (bottleneck : Bool) (op : MoveOp) (mode : BoundaryMode) (origin : ℤ) (w : ℕ) (l : List ℚ) : Except Err (List ℚ) :=
  if !bottleneck then scipyLine op mode origin w l
  else if op = .median then
    (if w % 2 = 0 || needsScipy mode origin then scipyLine op mode origin w l else .ok (bottleneckLine sd op w l))
  else if needsScipy mode origin then
    (if op = .std then .error .parameterError else scipyLine op mode origin w l)
  else .ok (bottleneckLine sd op w l)

/-- moving.py 211-232, `_select_engine`: whether bottleneck is used, given whether it is installed. -/
def selectEngine (installed : Bool) (engine : MoveEngine) (op : MoveOp) : Except Err Bool :=
  let bn := installed && (engine != .scipy)
  if !bn && op = .std then .error .parameterError else .ok bn

/-- A function along one line, for all lines. An empty array has no lines. -/
def Nd.mapLines (f : List ℚ → Except Err (List ℚ)) (a : Nd ℚ) (axis : ℕ) : Except Err (Nd ℚ) :=
  match f (List.replicate (a.shape.getD axis 0) 0) with
  | .error e => .error e
  | .ok _ => .ok ⟨a.shape, fun i => match f (a.lineThrough axis i) with
    | .ok r => r.getD (i.getD axis 0) 0
    | .error _ => 0⟩

/-- moving.py 235-310, `moving_window`. Whether the function raises does not depend on the data, only on the length of the lines. -/
def movingWindow (sd : List ℚ → ℚ) (installed : Bool) (engine : MoveEngine) (a : Nd ℚ) (w : ℤ) (op : MoveOp) (axis : ℕ)
    (mode : BoundaryMode := .reflect) (origin : ℤ := 0) : Except Err (Nd ℚ) :=
  if w ≤ 0 then .error .parameterError
  else if (a.shape.getD axis 0 : ℤ) < w then .error .parameterError
  else do
    let bn ← selectEngine installed engine op
    a.mapLines (engineLine sd bn op mode origin w.toNat) axis

/-! ### The Hampel filter -/

/-- hampel.py 16-33, `_separable_median`: one dimension after the other. -/
def separableMedian (installed : Bool) (a : Nd ℚ) (size : List ℕ) : Except Err (Nd ℚ) :=
  size.zipIdx.foldlM (fun a s => if 1 < s.1 then movingWindow (fun _ => 0) installed .auto a s.1 .median s.2 else .ok a) a

/-- All choices of one element from each list. -/
def choices {α : Type} : List (List α) → List (List α)
  | [] => [[]]
  | l :: r => l.flatMap fun x => (choices r).map (x :: ·)

/-- The position that position `j` beyond the ends of `n` samples is a reflection of. -/
def reflectPos (n : ℕ) (j : ℤ) : ℕ := (if j % (2 * n) < n then j % (2 * n) else 2 * n - 1 - j % (2 * n)).toNat

/-- The samples in the block of the given size around `i`, reflected at the ends. -/
def blockAround (a : Nd ℚ) (size i : List ℕ) : List ℚ :=
  (choices ((List.range a.shape.length).map fun k : ℕ =>
    (List.range (size.getD k 1)).map fun t : ℕ => reflectPos (a.shape.getD k 0) ((i.getD k 0 : ℤ) - (size.getD k 1 / 2 : ℕ) + t))).map a.get

/-- hampel.py 36-41, `median_filter(data, size, mode="reflect")`. -/
def blockMedian (a : Nd ℚ) (size : List ℕ) : Nd ℚ := ⟨a.shape, fun i => MoveOp.ofScipy .median (blockAround a size i)⟩

/-- The median of the neighbourhood, either way. -/
def neighbourMedian (installed approximate : Bool) (size : List ℕ) (a : Nd ℚ) : Except Err (Nd ℚ) :=
  if approximate then separableMedian installed a size else .ok (blockMedian a size)

/-- hampel.py 44-93, `_hampel_separable` and `_hampel_non_separable`. -/
def hampelData (installed approximate : Bool) (eps threshold : ℚ) (size : List ℕ) (a : Nd ℚ) : Except Err (Nd ℚ) := do
  let med ← neighbourMedian installed approximate size a
  let mad ← neighbourMedian installed approximate size ⟨a.shape, fun i => absQ (a.get i - med.get i)⟩
  return ⟨a.shape, fun i =>
    if threshold < absQ (a.get i - med.get i) / (if mad.get i = 0 then eps else mad.get i) then med.get i else a.get i⟩

/-- The nearest number with 24 significant bits to an integer (ties to even): `astype(np.float32)` of integers below `2^128`. -/
def toFloat32 (x : ℚ) : ℚ :=
  let m := absQ x
  let e := Nat.log2 ⌊m⌋.toNat
  if e < 24 then x else (rint (x / 2 ^ (e - 23)) : ℚ) * 2 ^ (e - 23)

/-- hampel.py 181-205, the data: integers become 32 bit floats (198) and are rounded at the end (204). The `eps` is that of the type of the floats. -/
def hampelTyped (installed approximate isInt : Bool) (eps threshold : ℚ) (size : List ℕ) (a : Nd ℚ) : Except Err (Nd ℚ) :=
  if isInt then do
    let r ← hampelData installed approximate eps threshold size ⟨a.shape, fun i => toFloat32 (a.get i)⟩
    return ⟨r.shape, fun i => (rint (r.get i) : ℚ)⟩
  else hampelData installed approximate eps threshold size a

/-- hampel.py 99-206, `Patch.hampel_filter`. -/
def PatchM.hampel (installed approximate isInt : Bool) (eps threshold : ℚ) (p : PatchM ℚ) (kw : Dict WinReq) (samples : Bool) : Except Err (PatchM ℚ) :=
  if threshold ≤ 0 then .error .parameterError
  else do
    let size ← patchWindowSize p.cm kw samples true 3 false
    let data ← hampelTyped installed approximate isInt eps threshold (size.map Int.toNat) p.data
    return ⟨p.cm, data⟩

end Verif
