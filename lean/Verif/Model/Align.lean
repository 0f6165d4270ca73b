import Verif.Model.Window
/-!
# Aligning traces (dascore/proc/align.py)

`np.full(shape, fill_value)` has the data type of the fill value, and assigning converts to it: `cast` is that conversion.
The type checks of `_get_coord_values` (221-249) are reduced to one: with `samples=True` the coordinate must have an integer
type (`isInt`). Null shifts are outside the model (an error value).
-/
namespace Verif

/-- align.py 256. -/
inductive AlignMode where
  | full | same | valid
  deriving DecidableEq, Repr

/-- align.py 79-91: how far the start and the end of the output are from those of the input. -/
def AlignMode.limits (mode : AlignMode) (lo hi : ℤ) : ℤ × ℤ :=
  match mode with
  | .full => (lo, hi)
  | .same => (0, 0)
  | .valid => (if 0 < hi then hi else 0, if lo < 0 then lo else 0)

/-- align.py 34-40, `_get_source_indices` of one trace. -/
def sourceInds (n s first last : ℤ) : ℤ × ℤ :=
  (if -s + first < 0 then 0 else -s + first, if n < n - s + last then n else n - s + last)

/-- `np.clip`. -/
def clipZ (x lo hi : ℤ) : ℤ := min (max x lo) hi

/-- align.py 43-55, `_get_dest_indices` of one trace. -/
def destInds (n size s first last : ℤ) : ℤ × ℤ :=
  let start := max 0 (s - first)
  let len := max (clipZ (n - s + last) 0 n - clipZ (-s + first) 0 n) 0
  (start, clipZ (start + len) 0 size)

/-- The positions `a, …, b - 1` of an axis of length `n`, as `slice(a, b)` selects them. -/
def sliceOf (p : ℤ × ℤ) (n : ℕ) : Except Err (List ℕ) := (Indexer.slice ⟨some p.1, some p.2, none⟩).positions n

/-- align.py 132-139, one round of the loop: `out[dest] = data[source]`, both restricted to one trace. numpy copies a
source of length one to every position and refuses any other difference of lengths. -/
def Nd.setTrace {α β} (cast : α → β) (data : Nd α) (axis : ℕ) (axes : List ℕ) (out : Nd β) (idx : List ℕ) (dest source : ℤ × ℤ) :
    Except Err (Nd β) := do
  let pd ← sliceOf dest (out.shape.getD axis 0)
  let ps ← sliceOf source (data.shape.getD axis 0)
  if ps.length ≠ pd.length ∧ ps.length ≠ 1 then .error .valueError
  else .ok ⟨out.shape, fun i =>
    if axes.map (fun a => i.getD a 0) = idx ∧ i.getD axis 0 ∈ pd then
      cast (data.get (i.set axis (ps.getD (if ps.length = 1 then 0 else pd.idxOf (i.getD axis 0)) 0)))
    else out.get i⟩

/-- The value, if it is not null. -/
def needValue : Option ℚ → Except Err ℚ
  | some v => .ok v
  | none => .error .notImplemented

/-- Errors as `_get_shift_indices` reports them (align.py 210-215). -/
def shiftError {α} : Except Err α → Except Err α
  | .error .valueError => .error .parameterError
  | r => r

/-- align.py 192-218, `_get_shift_indices`. -/
def alignShifts (c : RangeCoord) (mode : AlignMode) (samples reverse : Bool) (vs : List ℚ) : Except Err (List ℤ) := do
  let ix ← shiftError (if samples then (Coord.range c).getNextIndexSamples (vs.map fun v => ⌊absQ v⌋) (mode = .full)
    else (Coord.range c).getNextIndex (vs.map fun v => c.relative (absQ v)) (mode = .full))
  return List.zipWith (fun i v => i * (sgn v * (if reverse then -1 else 1))) ix vs

/-- align.py 179-189, `_get_aligned_coords`: the new coordinate of the dimension. -/
def alignCoord (k : Kind) (c : RangeCoord) (first last : ℤ) : Except Err Coord := do
  let d ← c.updateLimits (some (c.cmin + c.step * first)) none none
  match d with
  | .range d => d.changeLength (k = .time) (some (c.len - first + last))
  | _ => .error .notImplemented

/-- align.py 93-98 and 124-140: the shifted data; `shifts` belongs to the indices `idxs` of the shift coordinate. -/
def Nd.alignData {α β} (cast : α → β) (fill : β) (data : Nd α) (axis : ℕ) (axes : List ℕ) (lims : ℤ × ℤ) (traces : List (List ℕ × ℤ)) :
    Except Err (Nd β) :=
  let n : ℤ := data.shape.getD axis 0
  let size := n + lims.2 - lims.1
  if size < 0 then .error .valueError
  else traces.foldlM (fun out t => data.setTrace cast axis axes out t.1 (destInds n size t.2 lims.1 lims.2) (sourceInds n t.2 lims.1 lims.2))
    ⟨data.shape.set axis size.toNat, fun _ => fill⟩

/-- align.py 252-391, `align_to_coord`. -/
def PatchM.alignToCoord {α β} (cast : α → β) (fill : β) (p : PatchM α) (dim name : String) (mode : AlignMode) (samples isInt reverse : Bool) :
    Except Err (PatchM β) :=
  if dim ∉ p.cm.dims then .error .parameterError
  else
    match p.cm.ents.get? name, p.cm.ents.get? dim with
    | some (ds, mc), some (_, .one k (.range c)) =>
      if name ∈ p.cm.dims then .error .parameterError
      else if dim ∈ ds then .error .parameterError
      else if samples && !isInt then .error .parameterError
      else do
        let vs ← (Nd.indices mc.arr.shape).mapM fun i => needValue (mc.arr.get i)
        let shifts ← alignShifts c mode samples reverse vs
        if shifts.isEmpty then .error .valueError
        else if mc.arr.shape.length ≠ ds.length then .error .valueError
        else
          let lims := mode.limits (shifts.foldl min (shifts.headD 0)) (shifts.foldl max (shifts.headD 0))
          let a ← p.data.alignData cast fill (p.cm.dims.idxOf dim) (ds.map fun d => p.cm.dims.idxOf d) lims ((Nd.indices mc.arr.shape).zip shifts)
          let c' ← alignCoord k c lims.1 lims.2
          let cm ← p.cm.update [(dim, .simple (.one k c'))]
          PatchM.new cm a
    | none, _ => .error .parameterError
    | _, _ => .error .coordError

/-- Converting to the data type of an integer fill value: numpy drops the fraction (NaN becomes some integer, here 0). -/
def castToInt (x : Option ℚ) : Option ℚ := some ((x.map fun v => (truncZ v : ℚ)).getD 0)

end Verif
