import Verif.Model.Labelled
import Verif.Model.Merge
import Verif.Model.Reader
/-!
# Files of several instruments (dascore/io/ap_sensing, silixah5, neubrex, gdr, optodas, dasvader)

Each reader makes coordinates from the attributes and arrays of the file and selects from its array of data (Model/Labelled). Time strings are the
instants which they name. Attributes other than those needed for coordinates are left out. A rate of zero (a division by zero) is an error.
-/
namespace Verif

/-- `get_coord(start=a, stop=b, step=s).change_length(n)`. -/
def spanned (tl : Bool) (a b s : ℚ) (n : ℕ) : Except Err Coord := (mkRange a b s).bind fun c => c.changeLength tl (some (n : ℤ))

/-- The coordinates of time and distance. -/
def timeDistance (t x : Coord) : Dict MCoord := [("time", .one .time t), ("distance", .one .float x)]

/-- An AP Sensing file: `DataRate`, `Timestamp`, whether `Timezone` is UTC, `TraceCount`, `PositionStart`, `PositionEnd` and the data. -/
structure ApFile (α : Type) where
  rate : ℚ
  start : ℚ
  utc : Bool
  traces : ℕ
  first : ℚ
  last : ℚ
  data : Nd α

/-- ap_sensing/utils.py 23-38, `_get_time_coord`. -/
def ApFile.timeCoord {α} (f : ApFile α) : Except Err Coord :=
  if f.utc = false then .error .assertionError
  else if f.traces ≠ f.data.shape.getD 0 0 then .error .assertionError
  else if f.rate = 0 then .error .valueError
  else (mkRange f.start (f.start + f.traces * nanos (1 / f.rate)) (nanos (1 / f.rate))).map .range

/-- ap_sensing/utils.py 41-62, `_get_distance_coord`. -/
def ApFile.distanceCoord {α} (f : ApFile α) : Except Err Coord :=
  if f.data.shape.getD 1 0 = 0 then .error .zeroDivision
  else spanned false f.first f.last ((f.last - f.first) / (f.data.shape.getD 1 0 : ℕ)) (f.data.shape.getD 1 0)

/-- ap_sensing/utils.py 65-75 and 92-101. The emptiness of the data is only checked with limits; without them no file is empty (`timeCoord` and `distanceCoord` fail). -/
def ApFile.read {α} (f : ApFile α) (argsort : List ℚ → List ℕ) (time distance : Option (Option ℚ × Option ℚ)) : Except Err (Option (PatchM α)) := do
  let t ← f.timeCoord
  let x ← f.distanceCoord
  readLabelled argsort (timeDistance t x) ["time", "distance"] f.data (bothOf time distance)

/-- A Silixa file: `GPSTimeStamp` (if there is one), `CPUTimeStamp`, `SamplingFrequency[Hz]`, `Fibre Length Multiplier`, `MeasureLength[m]`, `StartPosition[m]`,
`SpatialResolution[m]` and the data. -/
structure SilixaFile (α : Type) where
  gps : Option ℚ
  cpu : ℚ
  rate : ℚ
  factor : ℚ
  measured : ℚ
  start : ℚ
  resolution : ℚ
  data : Nd α

/-- silixah5/utils.py 47-56, `_get_time_coord`. -/
def SilixaFile.timeCoord {α} (f : SilixaFile α) : Except Err Coord :=
  if f.rate = 0 then .error .zeroDivision
  else getCoordParts false (some (f.gps.getD f.cpu)) none (some (nanos (1 / f.rate))) (some (f.data.shape.getD 0 0 : ℕ))

/-- silixah5/utils.py 59-70, `_get_distance_coord`. -/
def SilixaFile.distanceCoord {α} (f : SilixaFile α) : Except Err Coord :=
  spanned false (f.start + f.measured * f.factor) (f.start + f.measured * f.factor + (f.data.shape.getD 1 0 : ℕ) * (f.resolution * f.factor)) (f.resolution * f.factor)
    (f.data.shape.getD 1 0)

/-- silixah5/utils.py 73-82 and 102-117. -/
def SilixaFile.read {α} (f : SilixaFile α) (argsort : List ℚ → List ℕ) (time distance : Option (Option ℚ × Option ℚ)) : Except Err (Option (PatchM α)) := do
  let t ← f.timeCoord
  let x ← f.distanceCoord
  readLabelled argsort (timeDistance t x) ["time", "distance"] f.data (bothOf time distance)

/-- A Neubrex DAS file: `GPSTimeStamp(UTC)` (empty or not), `CPUTimeStamp(UTC)`, `TimeSamplingInterval(seconds)`, `TimeDecimationFilter`, `SpatialSamplingInterval`,
`StartPosition`, `DistanceDecimationFilter` and the data. -/
structure NeubrexFile (α : Type) where
  gps : Option ℚ
  cpu : ℚ
  interval : ℚ
  everyTime : ℤ
  spacing : ℚ
  start : ℚ
  everyDistance : ℤ
  data : Nd α

/-- neubrex/utils_das.py 28-42. -/
def NeubrexFile.timeCoord {α} (f : NeubrexFile α) : Except Err Coord :=
  if f.everyTime = 0 ∨ f.everyTime = 1 then
    (mkRange (f.gps.getD f.cpu) (f.gps.getD f.cpu + nanos f.interval * (f.data.shape.getD 0 0 : ℕ)) (nanos f.interval)).map .range
  else .error .assertionError

/-- neubrex/utils_das.py 44-56. -/
def NeubrexFile.distanceCoord {α} (f : NeubrexFile α) : Except Err Coord :=
  if f.everyDistance = 0 ∨ f.everyDistance = 1 then (mkRange f.start ((f.data.shape.getD 1 0 : ℕ) * f.spacing + f.start) f.spacing).map .range
  else .error .assertionError

/-- neubrex/utils_das.py 58-63 and 86-99, core.py 103-123. -/
def NeubrexFile.read {α} (f : NeubrexFile α) (argsort : List ℚ → List ℕ) (time distance : Option (Option ℚ × Option ℚ)) : Except Err (Option (PatchM α)) := do
  let t ← f.timeCoord
  let x ← f.distanceCoord
  if f.data.shape.length ≠ 2 then .error .assertionError
  else readLabelled argsort (timeDistance t x) ["time", "distance"] f.data (bothOf time distance)

/-- A Neubrex file of frequency shifts: `stamps_unix` in microseconds, `depth` and the data. -/
structure ShiftFile (α : Type) where
  stamps : List ℚ
  depth : List ℚ
  data : Nd α

/-- neubrex/utils_rfs.py 25-32. -/
def ShiftFile.timeCoord {α} (f : ShiftFile α) (snap : Bool) : Except Err MCoord :=
  ((getCoordData .time (f.stamps.map fun x => nanos (x / 1000000))).map (.one .time)).bind fun c => if snap then snapCoord c else .ok c

/-- neubrex/utils_rfs.py 34-43 and 63-77, core.py 58-79. -/
def ShiftFile.read {α} (f : ShiftFile α) (argsort : List ℚ → List ℕ) (snap : Bool) (time distance : Option (Option ℚ × Option ℚ)) : Except Err (Option (PatchM α)) := do
  let t ← f.timeCoord snap
  let x ← getCoordData .float f.depth
  readLabelled argsort [("time", t), ("distance", .one .float x)] ["time", "distance"] f.data (bothOf time distance)

/-- A GDR file: `DasTimeArray` in nanoseconds, `SpatialSamplingInterval`, `DasDimensions` and the data. -/
structure GdrFile (α : Type) where
  times : List ℚ
  interval : ℚ
  words : List String
  data : Nd α

/-- gdr/utils_das.py 60-69. A duration divided by an integer is cut to nanoseconds; with one time it is not a time, which no coordinate accepts. -/
def GdrFile.timeCoord {α} (f : GdrFile α) (snap : Bool) : Except Err Coord :=
  if snap = false then getCoordData .time f.times
  else if f.times.length = 0 then .error .indexError
  else if f.times.length = 1 then .error .valueError
  else spanned true (f.times.headD 0) (f.times.getLastD 0) (truncZ ((f.times.getLastD 0 - f.times.headD 0) / ((f.times.length : ℚ) - 1))) f.times.length

/-- gdr/utils_das.py 71-85. -/
def GdrFile.distanceCoord {α} (f : GdrFile α) (n : ℕ) : Except Err Coord := spanned false 0 (n * f.interval) f.interval n

/-- gdr/utils_das.py 91-96: the name of a dimension. -/
def gdrDim (w : String) : Except Err String :=
  if w.startsWith "time" then .ok "time" else if w = "locus" then .ok "distance" else .error .assertionError

/-- gdr/utils_das.py 87-112, core.py 43-64. Files have two dimensions. -/
def GdrFile.read {α} (f : GdrFile α) (argsort : List ℚ → List ℕ) (snap : Bool) (time distance : Option (Option ℚ × Option ℚ)) : Except Err (Option (PatchM α)) := do
  let t ← f.timeCoord snap
  let ds ← f.words.mapM gdrDim
  let x ← f.distanceCoord (f.data.shape.getD (ds.idxOf "distance") 0)
  readLabelled argsort (timeDistance t x) ds f.data (bothOf time distance)

/-- A Julia range (`StepRangeLen`), as stored: the reference value at the index `offset` (from one), the step and the length. -/
structure JuliaRange where
  ref : ℚ
  step : ℚ
  len : ℕ
  offset : ℤ

/-- dasvader/utils.py 44-51: the first value. -/
def JuliaRange.first (r : JuliaRange) : ℚ := r.ref + (1 - r.offset) * r.step

/-- A DASVader file: the first of `htime` (milliseconds since the Julia epoch), the ranges `time` (seconds) and `offset`, whether the array is called `data`, and the data. -/
structure VaderFile (α : Type) where
  htime : ℤ
  time : JuliaRange
  offset : JuliaRange
  isData : Bool
  data : Nd α

/-- dasvader/utils.py 19, 54-62 and 125-139. -/
def VaderFile.timeCoord {α} (f : VaderFile α) : Except Err Coord :=
  (mkRange (nanos ((f.htime - 62135683200000 : ℤ) / 1000) + nanos f.time.first)
    (nanos ((f.htime - 62135683200000 : ℤ) / 1000) + nanos (f.time.first + f.time.len * f.time.step)) (nanos f.time.step)).map .range

/-- dasvader/utils.py 142-146. -/
def VaderFile.distanceCoord {α} (f : VaderFile α) : Except Err Coord := getCoordParts false (some f.offset.first) none (some f.offset.step) (some f.offset.len)

/-- dasvader/utils.py 149-160 and 189-209. -/
def VaderFile.read {α} (f : VaderFile α) (argsort : List ℚ → List ℕ) (time distance : Option (Option ℚ × Option ℚ)) : Except Err (Option (PatchM α)) := do
  let t ← f.timeCoord
  let x ← f.distanceCoord
  readLabelled argsort (timeDistance t x) (if f.isData then ["distance", "time"] else ["time", "distance"]) f.data (bothOf time distance)

/-- An OptoDAS file: the time of the header, the `dimensionRanges` of time (`unitScale`, `min`, `max`), the `unitScale` of distance, the channels and the data. Which dimension
comes first is `timeFirst`. -/
structure OptoFile (α : Type) where
  start : ℚ
  interval : ℚ
  lo : ℤ
  hi : ℤ
  spacing : ℚ
  channels : List ℤ
  timeFirst : Bool
  data : Nd α

/-- optodas/utils.py 42-47 (`min` and `max` of `get_coord` are other names of `start` and `stop`). -/
def OptoFile.timeCoord {α} (f : OptoFile α) : Except Err Coord :=
  (mkRange (nanos f.start + f.lo * nanos f.interval) (nanos f.start + (f.hi + 1) * nanos f.interval) (nanos f.interval)).map .range

/-- optodas/utils.py 31-54 and 79-91: files with the dimensions time and distance. `select` is always called. -/
def OptoFile.read {α} (f : OptoFile α) (argsort : List ℚ → List ℕ) (time distance : Option (Option ℚ × Option ℚ)) : Except Err (Option (PatchM α)) := do
  let t ← f.timeCoord
  let x ← getCoordData .float (f.channels.map fun c : ℤ => (c : ℚ) * f.spacing)
  readLabelled argsort (timeDistance t x) (if f.timeFirst then ["time", "distance"] else ["distance", "time"]) f.data
    (some [("distance", .between (distance.getD (none, none)).1 (distance.getD (none, none)).2), ("time", .between (time.getD (none, none)).1 (time.getD (none, none)).2)])

end Verif
