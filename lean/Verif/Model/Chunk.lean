import Verif.Model.Num
import Mathlib.Data.List.Sort
/-!
# Chunking: intervals, continuity groups, overlap removal and chunk instructions

Models `dascore/utils/chunk.py` and `_remove_overlaps` of `dascore/utils/pd.py` along one dimension. Values
are exact rationals (datetimes are nanosecond counts); null starts and stops are filtered out before
(chunk.py 532) and are not modelled; a null step is `none` where the code treats it.
-/
namespace Verif

/-- `np.arange(start, stop, step)` for a positive step: `ceil((stop - start) / step)` elements. -/
def arangeQ (start stop step : ℚ) : List ℚ :=
  (List.range ⌈(stop - start) / step⌉.toNat).map fun i : ℕ => start + (i : ℚ) * step

/-- chunk.py 36-118, `get_intervals`. `length = none` is the merge case. A zero increment makes `np.arange`
raise (ValueError/ZeroDivisionError). -/
def getIntervals (start stop : ℚ) (length overlap step : Option ℚ) (keepPartials : Bool) :
    Except Err (List (ℚ × ℚ)) :=
  match length with
  | none => .ok [(start, stop)]
  | some length =>
    let overlap := overlap.getD 0
    let step := step.getD 0
    if length < overlap then .error .parameterError
    else
      let duration := stop - start + step
      if duration < length && !keepPartials then .error .chunkError
      else
        let newStep := length - overlap
        if newStep = 0 then .error .zeroDivision
        else
          let reference := (arangeQ start (stop + newStep) newStep).filter fun x => decide (x + step ≤ stop)
          let segs := reference.map fun x => (x, x + length - step)
          if keepPartials then .ok (segs.map fun p => (p.1, if stop < p.2 then stop else p.2))
          else .ok (segs.filter fun p => decide (p.2 ≤ stop))

/-- One row of the contents table along the chunked dimension (`{dim}_min`, `{dim}_max`, `{dim}_step`). -/
structure Row where
  lo : ℚ
  hi : ℚ
  step : ℚ
  deriving DecidableEq, Repr

/-- chunk.py 222-226 on rows sorted by start: `mx` is the running maximum of the stops so far, `g` the current
group number. -/
def contFrom (tol : ℚ) (mx : ℚ) (g : ℕ) : List Row → List ℕ
  | [] => []
  | r :: rs =>
    let g' := if mx + r.step * tol < r.lo then g + 1 else g
    g' :: contFrom tol (max mx r.hi) g' rs

/-- chunk.py 222-226: the first row never has a gap (`shift` gives a null). -/
def contSorted (tol : ℚ) : List Row → List ℕ
  | [] => []
  | r :: rs => 0 :: contFrom tol r.hi 0 rs

/-- chunk.py 209-227, `_get_continuity_group_number`: group number of each row, in the order of the table.
`argsort` is numpy's argsort of the starts. The last line looks each row up by its index label, which is the
position of the row among the sorted ones. -/
def continuityGroups (argsort : List ℚ → List ℕ) (tol : ℚ) (rows : List Row) : List ℕ :=
  let args := argsort (rows.map Row.lo)
  let gs := contSorted tol (takeIdx rows args)
  (List.range rows.length).map fun i : ℕ => gs.getD (args.idxOf i) 0

/-- pd.py 488-506, corrected starts for the rows after the first; `prev` is the preceding (uncorrected) row. -/
def removeOverlapsFrom (prev : Row) : List Row → List Row
  | [] => []
  | r :: rs =>
    { r with lo := if r.lo ≤ prev.hi then prev.hi + prev.step else r.lo } :: removeOverlapsFrom r rs

/-- pd.py 475-506, `_remove_overlaps` of rows sorted by start (the assertion that they are sorted is kept). -/
def removeOverlaps (rows : List Row) : Except Err (List Row) :=
  if (rows.zip rows.tail).all (fun p => decide (p.1.lo ≤ p.2.lo)) then
    match rows with
    | [] => .ok []
    | r :: rs => .ok (r :: removeOverlapsFrom r rs)
  else .error .assertionError

/-- chunk.py 319-326, `_get_chunk_overlap_inds` of one chunk: first source and (inclusive) last source.
`np.searchsorted` is modelled by counting, its meaning on ascending arrays. -/
def chunkInds (src : List Row) (c1 c2 : ℚ) : Except Err (ℤ × ℤ) :=
  let s : ℤ := (src.countP fun r => decide (r.lo ≤ c1)) - 1
  let e : ℤ := src.countP fun r => decide (r.hi < c2)
  if e < src.length then .ok (s, e) else .error .assertionError

/-- An instruction row: source position and the interval to take from it. -/
structure Instr where
  src : ℕ
  lo : ℚ
  hi : ℚ
  deriving DecidableEq, Repr

/-- chunk.py 328-395 for one chunk: `np.arange(s, e + 1)` indexes the source arrays (a `-1` wraps to the last
source), and the interval is clipped to both source and chunk. -/
def chunkInstr (src : List Row) (c1 c2 : ℚ) : Except Err (List Instr) := do
  let (s, e) ← chunkInds src c1 c2
  let ix := (List.range (e + 1 - s).toNat).map fun k : ℕ => s + (k : ℤ)
  return ix.filterMap fun i : ℤ =>
    let j : ℤ := if i < 0 then i + (src.length : ℤ) else i
    (src[j.toNat]?).map fun r => ⟨j.toNat, max r.lo c1, min r.hi c2⟩

/-- chunk.py 351-395, `_get_instructions` up to sorting, for all chunks of a group. -/
def instructions (src : List Row) (chunks : List (ℚ × ℚ)) : Except Err (List (List Instr)) := do
  let src ← removeOverlaps src
  chunks.mapM fun c => chunkInstr src c.1 c.2

/-- chunk.py 229-246, `_get_sampling_group_num` on steps sorted ascending (positive steps): the first is compared
with the last one by `np.roll`, which is not above it. -/
def sampFrom (tol prev : ℚ) (g : ℕ) : List ℚ → List ℕ
  | [] => []
  | x :: xs =>
    let g' := if tol < (x - prev) / x then g + 1 else g
    g' :: sampFrom tol x g' xs

/-- chunk.py 229-246. -/
def sampSorted (tol : ℚ) (l : List ℚ) : List ℕ :=
  match l with
  | [] => []
  | l => sampFrom tol (l.getLastD 0) 0 l

/-- spool.py 794-807, `split` of a spool of `n` patches: the slices `[start, start + step)` taken, with at most
`fuel` iterations. `count = 0` is falsy, so `np.ceil(None)` is a TypeError; a step that is not positive
loops forever. -/
def splitLoop (n : ℕ) (step : ℤ) : ℕ → ℤ → List (ℤ × ℤ) → Except Err (List (ℤ × ℤ))
  | 0, _, _ => .error .diverges
  | fuel + 1, start, acc =>
    if start < n then splitLoop n step fuel (start + step) (acc ++ [(start, start + step)])
    else .ok acc

/-- spool.py 794-807. `size` may be a non-integer number (it is, when called from `_spool_map`). -/
def split (n : ℕ) (size : Option ℚ) (count : Option ℤ) : Except Err (List (ℤ × ℤ)) :=
  match size, count with
  | some s, none =>
    let step := ⌈s⌉
    splitLoop n step (n + 1) 0 []
  | none, some c =>
    if c = 0 then .error .typeError
    else
      let step := ⌈(n : ℚ) / c⌉
      splitLoop n step (n + 1) 0 []
  | _, _ => .error .parameterError

/-- spool.py 591-626, one step of `_merge_patches_streaming` along the merge axis: `buf` is the pre-allocated
array (`none` = uninitialised cell of `np.empty`), `data` the next patch; the buffer grows when the estimate
was too small. Returns the new buffer and offset. dtype promotion and the other axes are not modelled. -/
def mergeStep {α} (st : List (Option α) × ℕ) (data : List α) : List (Option α) × ℕ :=
  let (buf, offset) := st
  let stop := offset + data.length
  let buf :=
    if buf.length < stop then buf.take offset ++ List.replicate (stop - offset) none
    else buf
  (buf.take offset ++ data.map some ++ buf.drop stop, stop)

/-- spool.py 573-628: allocate `samples` cells, copy every patch, trim the excess. -/
def mergeStreaming {α} (samples : ℕ) (patches : List (List α)) : List (Option α) :=
  let (buf, offset) := patches.foldl mergeStep (List.replicate samples none, 0)
  if offset ≠ buf.length then buf.take offset else buf

/-- The client's `map` (misc.py 547): an executor runs the tasks in any order and hands back the results by
position, as `concurrent.futures` executors do. Task `i` finishes. -/
def runTask {α β} (g : α → β) (tasks : List α) (slots : List (Option β)) (i : ℕ) : List (Option β) :=
  match tasks[i]? with
  | some t => slots.set i (some (g t))
  | none => slots

/-- misc.py 547, `client.map`: all tasks, in the order in which they finish. -/
def runTasks {α β} (g : α → β) (tasks : List α) (order : List ℕ) : List (Option β) :=
  order.foldl (runTask g tasks) (List.replicate tasks.length none)

/-- misc.py 514-547, `_spool_map`, with a client: split, run `_MapFuncWrapper` (lines 505-511) on each part,
flatten. `size = none` is replaced by `len(spool) / os.cpu_count()`. Progress bars are not modelled, and a
spool is the list of its patches, so that slicing it is list slicing (see `C55`). `none` marks a result
that never arrived. -/
def spoolMap {α β} (f : α → β) (patches : List α) (size : Option ℚ) (cpus : ℕ)
    (order : List ℕ) : Except Err (List (Option β)) := do
  let size := size.getD ((patches.length : ℚ) / cpus)
  let parts ← split patches.length (some size) none
  let subs ← parts.mapM fun p => pySlice patches ⟨some p.1, some p.2, none⟩
  return (runTasks (fun sub : List α => sub.map f) subs order).flatMap fun r =>
    match r with
    | some l => l.map some
    | none => [none]

end Verif
