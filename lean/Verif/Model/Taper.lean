import Verif.Model.Align
/-!
# Tapers

Models `dascore/proc/taper.py` for dimensions with an evenly sampled coordinate. The window function (`scipy.signal.windows`,
utils/signal.py) is a parameter: `w n` are its `n` values. Data are of any type with a multiplication by a number.
-/
namespace Verif

/-- One end of a taper request (taper.py 34-36): a number, which is a fraction of the coordinate's range, or a quantity or timedelta,
which is an amount in the coordinate's units. The product of a fraction and a timedelta is not rounded here. -/
inductive TaperAmt where
  | frac (f : ℚ)
  | amount (v : ℚ)
  deriving DecidableEq

/-- taper.py 32-36, with coords.py 588, `coord_range(extend=False)`. -/
def TaperAmt.value (c : RangeCoord) : TaperAmt → ℚ
  | .frac f => f * (c.cmax - c.cmin)
  | .amount v => v

/-- taper.py 37-39: the slices at the start and at the end. -/
def taperSlices (c : RangeCoord) (start stop : Option TaperAmt) : Except Err (PySlice × PySlice) := do
  let s1 ← c.select (none, start.map fun a => c.relative (a.value c))
  let s2 ← c.select (stop.map fun a => c.relative (-(a.value c)), none)
  return (s1.2, s2.2)

/-- taper.py 43-60, `_validate_windows`. -/
def taperValid (hasStart hasStop : Bool) (s1 s2 : PySlice) (n : ℕ) : Bool :=
  let badStart := hasStart && s1.stop.all (fun a => decide (a < 0))
  let badEnd := hasStop && s2.start.all (fun b => decide ((n : ℤ) < b))
  let overlap := match s1.stop, s2.start with
    | some a, some b => decide (b < a)
    | _, _ => false
  !(badStart || badEnd) && !overlap

/-- taper.py 119-124 and 127-130: the samples of a slice along an axis are multiplied with a window of the same length (or of length
one, which is broadcast). -/
def Nd.mulWindow {α} (mul : α → ℚ → α) (a : Nd α) (axis : ℕ) (s : PySlice) (ws : List ℚ) : Except Err (Nd α) := do
  let ps ← Indexer.positions (.slice s) (a.shape.getD axis 0)
  if ws.length ≠ ps.length ∧ ws.length ≠ 1 then .error .valueError
  else .ok ⟨a.shape, fun i =>
    if i.getD axis 0 ∈ ps then mul (a.get i) (ws.getD (if ws.length = 1 then 0 else ps.idxOf (i.getD axis 0)) 0) else a.get i⟩

/-- taper.py 116-124: the taper at the start. -/
def taperStart {α} (mul : α → ℚ → α) (w : ℕ → List ℚ) (a : Nd α) (axis : ℕ) (s : PySlice) : Except Err (Nd α) :=
  match s.stop with
  | some v => a.mulWindow mul axis s ((w (2 * v.toNat)).take v.toNat)
  | none => .error .typeError

/-- taper.py 125-130: the taper at the end. -/
def taperEnd {α} (mul : α → ℚ → α) (w : ℕ → List ℚ) (a : Nd α) (axis : ℕ) (s : PySlice) : Except Err (Nd α) :=
  match s.start with
  | some v =>
    let k := ((a.shape.getD axis 0 : ℤ) - v).toNat
    a.mulWindow mul axis s ((w (2 * k)).drop k)
  | none => .error .typeError

/-- taper.py 63-132, `taper`. -/
def PatchM.taper {α} (mul : α → ℚ → α) (w : ℕ → List ℚ) (p : PatchM α) (dim : String) (start stop : Option TaperAmt) :
    Except Err (PatchM α) :=
  if dim ∉ p.cm.dims then .error .parameterError
  else
    match p.cm.ents.get? dim with
    | some (_, .one _ (.range c)) => do
      let axis := p.cm.dims.idxOf dim
      let s ← taperSlices c start stop
      if !taperValid start.isSome stop.isSome s.1 s.2 (p.data.shape.getD axis 0) then .error .parameterError
      else do
        let a ← if start.isSome then taperStart mul w p.data axis s.1 else .ok p.data
        let b ← if stop.isSome then taperEnd mul w a axis s.2 else .ok a
        PatchM.new p.cm b
    | _ => .error .notImplemented

/-! ### Ranges -/

/-- taper.py 156-158 with coords.py 872-950, `get_next_index` of a number. -/
def nextIndexOf (c : RangeCoord) (relative samples : Bool) (v : ℚ) : Except Err ℤ := do
  let r ← if samples then (Coord.range c).getNextIndexSamples [truncZ v] false
    else (Coord.range c).getNextIndex [if relative then c.relative v else v] false
  return r.headD 0

/-- taper.py 148-158: one value of the request; `none` is `None` or `...`. -/
def taperIndex (c : RangeCoord) (relative samples : Bool) (num len : ℕ) : Option ℚ → Except Err ℤ
  | none => if len = 2 then .error .parameterError else .ok (if 2 * num < len then 0 else (c.len : ℤ) - 1)
  | some v => nextIndexOf c relative samples v

/-- taper.py 137-162, `_get_taper_coord_inds`, for one sequence. -/
def taperInds (c : RangeCoord) (relative samples : Bool) (vs : List (Option ℚ)) : Except Err (ℤ × ℤ × ℤ × ℤ) :=
  match vs with
  | [v1, v2] => do
    let i ← taperIndex c relative samples 0 2 v1
    let j ← taperIndex c relative samples 1 2 v2
    return (0, i, j, (c.len : ℤ))
  | [v1, v2, v3, v4] => do
    let i ← taperIndex c relative samples 0 4 v1
    let j ← taperIndex c relative samples 1 4 v2
    let k ← taperIndex c relative samples 2 4 v3
    let l ← taperIndex c relative samples 3 4 v4
    return (i, j, k, l)
  | _ => .error .parameterError

/-- taper.py 165-180, `_get_taper_curve` (`reverse` false). scipy's windows raise a ValueError for a negative length. -/
def taperCurve (w : ℕ → List ℚ) (i j : ℤ) : Except Err (List ℚ) :=
  let s := j - i
  if 2 * s + 1 < 0 then .error .valueError else .ok ((w (2 * s + 1).toNat).take s.toNat)

/-- taper.py 183-197, `_get_range_envelope`: one set of indices added to the envelope. Indices are not negative. -/
def addRange (w : ℕ → List ℚ) (env : ℕ → ℚ) (t : ℤ × ℤ × ℤ × ℤ) : Except Err (ℕ → ℚ) := do
  let (i1, i2, i3, i4) := t
  let left ← taperCurve w i1 i2
  let right ← taperCurve w i3 i4
  return fun x : ℕ =>
    env x + (if i1 ≤ (x : ℤ) ∧ (x : ℤ) < i2 then left.getD ((x : ℤ) - i1).toNat 0 else 0) +
      (if i3 ≤ (x : ℤ) ∧ (x : ℤ) < i4 then right.reverse.getD ((x : ℤ) - i3).toNat 0 else 0) +
      (if i2 ≤ (x : ℤ) ∧ (x : ℤ) < i3 then 1 else 0)

/-- taper.py 195-196: inverting the envelope of a coordinate with `n` samples. -/
def invertEnv (n : ℕ) (env : ℕ → ℚ) : ℕ → ℚ :=
  let top := ((List.range n).map env).foldl max (env 0)
  fun x => absQ (env x - top)

/-- taper.py 183-197, `_get_range_envelope`. -/
def rangeEnvelope (w : ℕ → List ℚ) (n : ℕ) (invert : Bool) (ts : List (ℤ × ℤ × ℤ × ℤ)) : Except Err (ℕ → ℚ) := do
  let env ← ts.foldlM (addRange w) (fun _ => 0)
  return if invert then invertEnv n env else env

/-- taper.py 200-290, `taper_range`, for a sequence of ranges. -/
def PatchM.taperRange {α} (mul : α → ℚ → α) (w : ℕ → List ℚ) (p : PatchM α) (dim : String) (vss : List (List (Option ℚ)))
    (invert relative samples : Bool) : Except Err (PatchM α) :=
  if dim ∉ p.cm.dims then .error .parameterError
  else if vss.isEmpty then .error .parameterError
  else
    match p.cm.ents.get? dim with
    | some (_, .one _ (.range c)) => do
      let ts ← vss.mapM (taperInds c relative samples)
      let env ← rangeEnvelope w c.len invert ts
      PatchM.new p.cm ⟨p.data.shape, fun i => mul (p.data.get i) (env (i.getD (p.cm.dims.idxOf dim) 0))⟩
    | _ => .error .notImplemented

end Verif
