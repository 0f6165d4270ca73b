import Verif.Model.Reader
/-!
# Febus A1 files (dascore/io/febus/a1utils.py)

The samples of a zone are stored in a three-dimensional array: blocks, rows (times) and channels. Blocks may overlap, in which case
the first and the last rows of each are left out.
-/
namespace Verif

/-- What the reader uses of a zone: the array (with `shape[1]` and `shape[2]`), the attributes `Extent`, `Spacing`, `Origin`,
`Overlap` (or `BlockOverlap`), `SamplingRate`, whether it has `Version` and `GaugeLength`, the first element of the `time` array of
the source and the time between blocks `_get_block_time` finds (119-145; taken as given, in seconds). -/
structure Zone (α : Type) where
  blocks : List (List (List α))
  nrow : ℕ
  nchan : ℕ
  extent : ℤ × ℤ × ℤ × ℤ
  spacing : ℚ × ℚ
  origin : ℚ × ℚ
  overlap : ℚ
  samplingRate : ℚ
  hasVersion : Bool
  hasGauge : Bool
  time0 : ℚ
  blockTime : ℚ

namespace Zone
variable {α : Type} (z : Zone α)

/-- a1utils.py 74 and 91, `block_pad`. -/
def blockPad : ℤ := if z.hasVersion then 1 + z.extent.2.2.2 - z.extent.2.2.1 else z.nrow

/-- a1utils.py 75 and 85-90, `dt`. A zero sampling rate is refused. -/
def sampleStep : Except Err ℚ :=
  if z.hasVersion then .ok (if z.blockPad ≠ 0 then z.spacing.2 / 1000 else z.blockTime)
  else if z.samplingRate = 0 then .error .zeroDivision
  else .ok (if z.samplingRate < 100000000 then 1 / z.samplingRate else z.spacing.2 / 1000)

/-- a1utils.py 96-100, `block_no_pad`: the number of rows of a block which are kept. -/
def keptRows (dt : ℚ) : Except Err ℤ :=
  if z.extent.2.2.1 ≠ 0 then (if dt = 0 then .error .zeroDivision else .ok (rint (z.blockTime / dt)))
  else if 1 + z.overlap / 100 = 0 then .error .zeroDivision
  else .ok (rint ((z.blockPad : ℚ) / (1 + z.overlap / 100)))

/-- a1utils.py 35-115, `_get_zone_time`: the sampling step in seconds, and the first and the last row of a block which is kept (45-59).
The check that the array has three dimensions is left out. -/
def zoneTime : Except Err (ℚ × ℤ × ℤ) := do
  let dt ← z.sampleStep
  if ¬ 1 < z.blockPad then .error .assertionError
  else do
    let kept ← z.keptRows dt
    if !z.hasGauge then .error .assertionError
    else if z.blockPad - kept < 0 then .error .assertionError
    else .ok (dt, (z.blockPad - kept) / 2, z.blockPad - 1 - ((z.blockPad - kept) % 2 + (z.blockPad - kept) / 2))

/-- a1utils.py 223-254, `_get_time_coord`, from what `_get_zone_time` returns. -/
def timeCoordOf (t : ℚ × ℤ × ℤ) : Except Err Coord :=
  let rows := t.2.2 - t.2.1 + 1
  let offset := z.origin.2 / 1000
  if ¬ offset ≤ 0 then .error .assertionError
  else do
    let start := z.time0 + offset + t.2.1 * t.1
    let stop := start + (rows * t.1) * z.blocks.length
    let c ← mkRange (nanos start) (nanos stop) (nanos t.1)
    c.changeLength true (some (rows * z.blocks.length))

/-- a1utils.py 257-278, `_get_distance_coord`. -/
def distanceCoord : Except Err Coord := do
  let start := z.extent.1 * z.spacing.1 + z.origin.1
  let c ← mkRange start (start + z.nchan * z.spacing.1) z.spacing.1
  c.changeLength false (some z.nchan)

/-- a1utils.py 281-297 and febus/core.py 103-112, `scan` of the zone: its coordinates. -/
def scan : Except Err (Coord × Coord) := do
  let t ← z.zoneTime
  let time ← z.timeCoordOf t
  let dist ← z.distanceCoord
  return (time, dist)

end Zone

/-- a1utils.py 308-316: the times at which blocks start and end. -/
def blockTimes (c : RangeCoord) (rows : ℤ) (count : ℕ) : List (ℚ × ℚ) :=
  (List.range count).map fun k : ℕ => let s := (k * (rows * c.step) + c.step) + c.cmin; (s, s + rows * c.step)

/-- a1utils.py 323-327: whether a block is needed for the limits. -/
def blockNeeded (lims : Option ℚ × Option ℚ) (b : ℚ × ℚ) : Bool :=
  (match lims.1 with
    | some t1 => !decide (b.2 < t1)
    | none => true) &&
  (match lims.2 with
    | some t2 => !decide (t2 < b.1)
    | none => true)

/-- a1utils.py 330, `np.argmax` of booleans: the first `True`, or 0. -/
def firstTrue (m : List Bool) : ℕ := if true ∈ m then m.idxOf true else 0

/-- a1utils.py 331, `np.argmax(np.cumsum(in_time))`: the first place at which the number of `True` so far is the total number. -/
def lastTrue (m : List Bool) : ℕ :=
  let sums := (List.range m.length).map fun k : ℕ => (m.take (k + 1)).count true
  if m.count true ∈ sums then sums.idxOf (m.count true) else 0

/-- Least and greatest element (`min()`, `max()` of an array which is not empty). -/
def earliestOf (l : List ℚ) : ℚ := l.foldl min (l.headD 0)
@[inherit_doc earliestOf] def latestOf (l : List ℚ) : ℚ := l.foldl max (l.headD 0)

namespace Zone
variable {α : Type} (z : Zone α)

/-- The rows of some blocks that lie in a slice of rows, each cut to a slice of channels (`data[tuple(total_slice)]`, all rows in one
list). -/
def cube (blocks : List (List (List α))) (rows chans : PySlice) : List (List α) :=
  blocks.flatMap fun b => (cutList rows b).map (cutList chans)

/-- a1utils.py 318-346, `_get_time_filtered_data`. -/
def timeFiltered (c : RangeCoord) (rows : ℤ) (rowSlice chanSlice : PySlice) (lims : Option ℚ × Option ℚ) : Except Err (Sheet α × Coord) :=
  let bt := blockTimes c rows z.blocks.length
  let mask := bt.map (blockNeeded lims)
  let times := bt.filter (blockNeeded lims)
  let start := firstTrue mask
  let stop := lastTrue mask + if times.isEmpty then 0 else 1
  do
    let t ← reshapeRows z.nchan (cube ((z.blocks.drop start).take (stop - start)) rowSlice chanSlice).flatten
    if t.size = 0 then return (t, .part 0)
    else do
      let r ← mkRange (earliestOf (times.map (·.1))) (latestOf (times.map (·.2))) c.step
      match ← r.changeLength true (some t.rows.length) with
      | .range r' => do
        let (new, s) ← r'.select lims
        return (⟨t.width, cutList s t.rows⟩, new)
      | _ => .error .attributeError

/-- a1utils.py 348-372, the end of `_get_data_new_cm`: the array and the coordinate of time. `chans` is the slice of channels and `n`
how many it keeps. -/
def dataAndTime (c : Coord) (rows : ℤ) (rowSlice chanSlice : PySlice) (n : ℕ) : Option (Option ℚ × Option ℚ) → Except Err (Sheet α × Coord)
  | some lims =>
    match c with
    | .range r => z.timeFiltered r rows rowSlice chanSlice lims
    | _ => .error .attributeError
  | none => .ok (if n = 0 then ⟨0, List.replicate c.length []⟩ else ⟨n, cube z.blocks rowSlice chanSlice⟩, c)

/-- a1utils.py 355-356: the channels within the limits and their slice. -/
def channelsIn (dist : Coord) : Option (Option ℚ × Option ℚ) → Except Err (Coord × PySlice)
  | none => .ok (dist, {})
  | some lims =>
    match dist with
    | .range r => r.select lims
    | _ => .error .attributeError

/-- a1utils.py 300-372 and 375-384, reading one zone with limits of time and distance (in nanoseconds and in metres); a patch without
samples is left out. -/
def read (time distance : Option (Option ℚ × Option ℚ)) : Except Err (Option (Recording α)) := do
  let t ← z.zoneTime
  let tc ← z.timeCoordOf t
  let dc ← z.distanceCoord
  let (dist, chanSlice) ← channelsIn dc distance
  let (table, tnew) ← z.dataAndTime tc (t.2.2 - t.2.1 + 1) ⟨some t.2.1, some (t.2.2 + 1), none⟩ chanSlice
    (cutLength chanSlice z.nchan) time
  if table.size = 0 then return none
  else do
    let r ← Recording.new tnew dist table
    return some r

end Zone

/-- a1utils.py 375-384, `_read_febus`: the zones of a file one after another. -/
def readFebus {α} (zones : List (Zone α)) (time distance : Option (Option ℚ × Option ℚ)) : Except Err (List (Recording α)) := do
  let out ← zones.mapM fun z => z.read time distance
  return out.filterMap id

end Verif
