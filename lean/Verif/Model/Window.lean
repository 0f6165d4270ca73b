import Verif.Model.PatchOps
/-!
# Dimension arguments, window sizes and rolling (dascore/utils/patch.py 594-882, proc/rolling.py)

Amounts are numbers in the coordinate's own unit; converting a quantity or a duration to it is not modelled. The snapping
of float ratios to integers (coords.py 856-863), which compensates float errors, has no place in exact arithmetic.
-/
namespace Verif

/-! ### Dimension arguments -/

/-- An argument of a patch function: a name, or anything else. -/
inductive ArgVal (β : Type) where
  | name (s : String)
  | val (v : β)
  deriving DecidableEq, Repr

/-- patch.py 599, `arg_keys`. -/
def argKeys : List String := ["dim", "coord", "dims", "coords"]

/-- patch.py 647 and 673: the arguments, the values of the keywords that stand for arguments, the other keywords. -/
def askedFor {β} (args : List (ArgVal β)) (kw : Dict (ArgVal β)) : List (ArgVal β) :=
  args ++ (argKeys.filterMap fun k => kw.get? k) ++ (kw.filter fun q => !argKeys.contains q.1).map fun q => .name q.1

/-- Is this the name of one of the dimensions? -/
def ArgVal.isDim {β} (dims : List String) : ArgVal β → Bool
  | .name n => dims.contains n
  | .val _ => false

/-- patch.py 673-676 for one argument. -/
def ArgVal.resolve {β} (dims : List String) (kw : Dict (ArgVal β)) : ArgVal β → Option (String × ℕ × Option (ArgVal β))
  | .name n => if dims.contains n then some (n, dims.idxOf n, kw.get? n) else none
  | .val _ => none

/-- Is this the name given? -/
def ArgVal.isName {β} (d : String) : ArgVal β → Bool
  | .name n => n == d
  | .val _ => false

/-- patch.py 594-677, `get_dim_axis_value`. Unhashable arguments (TypeError) are not modelled. -/
def getDimAxisValue {β} (dims : List String) (args : List (ArgVal β)) (kw : Dict (ArgVal β)) (multiple extra : Bool) :
    Except Err (List (String × ℕ × Option (ArgVal β))) :=
  let asked := askedFor args kw
  let overlap := (dims.filter fun d => asked.any fun a => a.isName d).dedup
  if overlap.isEmpty || (decide (1 < overlap.length) && !multiple) then .error .parameterError
  else if (asked.any fun a => !a.isDim dims) && !extra then .error .patchCoordinateError
  else .ok (asked.filterMap (ArgVal.resolve dims (kw.filter fun q => !argKeys.contains q.1)))

/-! ### Window sizes -/

/-- A window, step or overlap: a number which is not an integer type, an integer, a percentage, or a quantity with
units (converted). -/
inductive WinReq where
  | value (v : ℚ)
  | count (n : ℤ)
  | percent (m : ℚ)
  | quantity (v : ℚ)
  deriving DecidableEq, Repr

/-- coords.py 682-690: the amount in the unit of the coordinate; percentages refer to `max - min`. -/
def WinReq.amount (c : RangeCoord) : WinReq → ℚ
  | .value v => v
  | .count n => n
  | .percent m => m / 100 * (c.cmax - c.cmin)
  | .quantity v => v

/-- coords.py 740-747, `_get_relative_values` of a number. -/
def RangeCoord.relative (c : RangeCoord) (v : ℚ) : ℚ := if 0 ≤ v then c.cmin + v else c.cmax + v

/-- coords.py 846-864: the number of samples before the check against the length. -/
def RangeCoord.rawCount (c : RangeCoord) (samples : Bool) (r : WinReq) : Except Err ℤ :=
  if samples then
    match r with
    | .count n => .ok n
    | _ => .error .parameterError
  else if c.step = 0 then .error .zeroDivision
  else .ok ⌈(c.relative (r.amount c) - c.cmin) / c.step⌉

/-- coords.py 823-870, `get_sample_count`. -/
def RangeCoord.sampleCount (c : RangeCoord) (samples enforce : Bool) (r : WinReq) : Except Err ℤ := do
  let n ← c.rawCount samples r
  if enforce && decide ((c.len : ℤ) < n) then .error .parameterError else .ok n

/-- coords.py 839-845: only evenly sampled coordinates have sample counts. -/
def Coord.sampleCount (c : Coord) (samples enforce : Bool) (r : WinReq) : Except Err ℤ :=
  match c with
  | .range c => c.sampleCount samples enforce r
  | _ => .error .coordError

/-- patch.py 833-841, `_percent_to_window_samps`. -/
def percentToSamps (w : ℤ) : Option WinReq → Except Err (Option WinReq × Bool)
  | some (.percent m) =>
    if m < 0 ∨ 100 < m then .error .parameterError else .ok (some (.count (rint (m / 100 * w))), true)
  | r => .ok (r, false)

/-- The number in a request. -/
def WinReq.magnitude : WinReq → ℚ
  | .value v => v
  | .count n => n
  | .percent m => m
  | .quantity v => v

/-- patch.py 843-848, `_check_not_negative`. -/
def checkNotNegative (r : Option WinReq) : Except Err Unit :=
  if r.any fun r => decide (r.magnitude < 0) then .error .parameterError else .ok ()

/-- patch.py 850-858, `quantity_to_samps`. -/
def quantityToSamps (c : RangeCoord) (samples : Bool) : Option WinReq → Except Err (Option ℤ)
  | none => .ok none
  | some (.quantity v) => (c.sampleCount false true (.quantity v)).map some
  | some r => (c.sampleCount samples true r).map some

/-- patch.py 875-877: an overlap becomes a step. -/
def overlapToStep (w : ℤ) (step overlap : Option ℤ) : Option ℤ :=
  match step, overlap with
  | none, some o => some (w - o)
  | s, _ => s

/-- patch.py 878-882. -/
def checkStep (w : ℤ) (step : Option ℤ) : Except Err (ℤ × Option ℤ) :=
  if step.any fun s => decide (s ≤ 0) then .error .parameterError else .ok (w, step)

/-- patch.py 862-882, `get_window_axis_step` once the coordinate is known: the window and the step. -/
def windowStep (c : RangeCoord) (overlap step : Option WinReq) (samples : Bool) (win : WinReq) :
    Except Err (ℤ × Option ℤ) :=
  if overlap.isSome && step.isSome then .error .parameterError
  else do
    let w ← c.sampleCount samples true win
    let s ← percentToSamps w step
    let o ← percentToSamps w overlap
    checkNotNegative s.1
    checkNotNegative o.1
    let s' ← quantityToSamps c (samples || s.2) s.1
    let o' ← quantityToSamps c (samples || o.2) o.1
    checkStep w (overlapToStep w s' o')

/-- patch.py 768-783 for one dimension: the checks on the number of samples. -/
def adjustCount (samples odd : Bool) (minSamples n : ℤ) : Except Err ℤ :=
  if n < minSamples then .error .parameterError
  else if odd && decide (n % 2 ≠ 1) then (if samples then .error .parameterError else .ok (n + 1))
  else .ok n

/-- patch.py 761-797 for one dimension. -/
def windowSizeStep (m : CM) (samples odd enforce : Bool) (minSamples : ℤ) (size : List ℤ) (q : String × WinReq) :
    Except Err (List ℤ) :=
  match m.ents.get? q.1 with
  | some (_, .one _ c) => do
    let n ← c.sampleCount samples enforce q.2
    let n ← adjustCount samples odd minSamples n
    return size.set (m.dims.idxOf q.1) n
  | _ => .error .coordError

/-- patch.py 712-797, `get_patch_window_size`, the keywords being dimensions and their windows. The warning about large
windows is not modelled. -/
def patchWindowSize (m : CM) (kw : Dict WinReq) (samples odd : Bool) (minSamples : ℤ) (enforce : Bool) : Except Err (List ℤ) :=
  if kw.isEmpty then .ok (m.dims.map fun _ => 1)
  else if kw.any fun q => !m.dims.contains q.1 then
    (if kw.any fun q => m.dims.contains q.1 then .error .patchCoordinateError else .error .parameterError)
  else kw.foldlM (windowSizeStep m samples odd enforce minSamples) (m.dims.map fun _ => 1)

/-! ### Rolling -/

namespace Nd
variable {α β : Type}

/-- The list of the `w` elements along `axis` from position `s` on, the other positions being those of `i`. -/
def windowAt (a : Nd α) (axis : ℕ) (w : ℕ) (s : ℕ) (i : List ℕ) : List α :=
  (List.range w).map fun k => a.get (i.set axis (s + k))

/-- rolling.py 144-159: `sliding_window_view`, its slice `[start::step]` and the function along the windows. -/
def slideReduce (f : List α → β) (a : Nd α) (axis w start step : ℕ) : Nd β where
  shape := a.shape.set axis (((a.shape.getD axis 0 + 1 - w - start) + step - 1) / step)
  get := fun i => f (a.windowAt axis w (start + i.getD axis 0 * step) i)

/-- rolling.py 119-131: an array of nulls with `a` at positions `first, …` of the axis. -/
def padAxis (a : Nd β) (axis nans first : ℕ) (nan : β) : Nd β where
  shape := a.shape.set axis (a.shape.getD axis 0 + nans)
  get := fun i => if first ≤ i.getD axis 0 ∧ i.getD axis 0 < first + a.shape.getD axis 0 then
    a.get (i.set axis (i.getD axis 0 - first)) else nan

end Nd

/-- rolling.py 119, the number of nulls (floor division, so zero for a window of one sample). -/
def numNans (w s : ℕ) : ℕ := (1 + ((w : ℤ) - 2) / (s : ℤ)).toNat

/-- rolling.py 101-109, `get_start_index`. -/
def startIndex (w s : ℕ) : ℕ := (⌈(((w : ℤ) - 1 : ℤ) : ℚ) / (s : ℚ)⌉ * (s : ℤ) - ((w : ℤ) - 1)).toNat

/-- rolling.py 125. -/
def firstWindow (w s : ℕ) (center : Bool) : ℕ := if center then numNans w s - numNans w s / 2 else numNans w s

/-- rolling.py 58-69, `get_coords`. -/
def CM.rollCoords (m : CM) (dim : String) (s : ℕ) : Except Err CM :=
  if s = 1 then .ok m
  else match m.ents.get? dim with
    | some (_, .one k c) => do
      let d ← c.getSlice ⟨none, none, some s⟩
      m.update [(dim, .simple (.one k d))]
    | _ => .error .keyError

namespace PatchM
variable {α β : Type}

/-- rolling.py 133-159 with 85-97, `_NumpyPatchRoller.apply`: `f` is the function applied to each window, `nan` the null.
numpy refuses negative windows and windows longer than the axis. -/
def rollApply (f : List α → β) (nan : β) (p : PatchM α) (dim : String) (w : ℤ) (s : ℕ) (center : Bool) : Except Err (PatchM β) :=
  let axis := p.cm.dims.idxOf dim
  if w < 0 ∨ (p.data.shape.getD axis 0 : ℤ) < w then .error .valueError
  else do
    let n := w.toNat
    let raw := p.data.slideReduce f axis n (startIndex n s) s
    let out := if numNans n s = 0 then raw else raw.padAxis axis (numNans n s) (firstWindow n s center) nan
    let cm ← p.cm.rollCoords dim s
    new cm out

/-- rolling.py 400-422, `Patch.rolling(dim=win, step=, overlap=, samples=, center=)` with the numpy engine, followed by the
application of `f` to each window. -/
def rolling (f : List α → β) (nan : β) (p : PatchM α) (dim : String) (win : WinReq) (step overlap : Option WinReq)
    (samples center : Bool) : Except Err (PatchM β) :=
  if dim ∉ p.cm.dims then .error .parameterError
  else match p.cm.ents.get? dim with
    | some (_, .one _ (.range c)) => do
      let r ← windowStep c overlap step samples win
      let s := r.2.getD 1
      if r.1 = 0 ∨ s = 0 then .error .parameterError
      else p.rollApply f nan dim r.1 s.toNat center
    | _ => .error .coordError

end PatchM

end Verif
