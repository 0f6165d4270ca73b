import Verif.Model.Instruments
import Verif.Model.Filter
/-!
# Directories of raw files with an XML header (`/repo/dascore/io/xml_binary`)

The header and the instants named by the names of the files are taken as read. Attributes, and `adjust_segments` (utils.py 188, whose table is only asked for paths), are left out.
-/
namespace Verif
variable {α : Type}

/-- utils.py 36-64, `XMLLaserZones` and `XMLBinaryInfo`, with its one zone: `start_channel`, `end_channel`, `stride`, `original_spatial_sampling_interval`, `output_temporal_sampling_rate`,
`number_of_frames` and `transposed_data`. -/
structure XmlInfo where
  first : ℤ
  last : ℤ
  stride : ℤ
  interval : ℚ
  rate : ℚ
  frames : ℕ
  transposed : Bool

/-- A raw file: the instant in its name, the number of its values, and the values. -/
structure RawFile (α : Type) where
  start : ℚ
  size : ℕ
  value : ℕ → α

/-- utils.py 74-87, `_make_distance_coord`. -/
def XmlInfo.distanceCoord (x : XmlInfo) : Except Err Coord := (mkRange (((x.first - 1 : ℤ) : ℚ) * x.interval) (x.last * x.interval) x.interval).map .range

/-- utils.py 90-95, `_make_time_coord`. -/
def XmlInfo.timeCoord (x : XmlInfo) (start : ℚ) : Except Err Coord :=
  if x.rate = 0 then .error .zeroDivision else (mkRange start (start + nanos (1 / x.rate) * x.frames) (nanos (1 / x.rate))).map .range

/-- utils.py 163-166: the values of the file as an array of this shape. -/
def RawFile.rows (f : RawFile α) (shape : List ℕ) : Nd α := ⟨shape, fun i => f.value (i.getD 0 0 * shape.getD 1 0 + i.getD 1 0)⟩

/-- utils.py 164-174: the array must fill the file; then the patch is made, and selected from. -/
def RawFile.fill (f : RawFile α) (argsort : List ℚ → List ℕ) (cm : CM) (kw : Dict CQuery) : Except Err (PatchM α) :=
  if f.size ≠ cm.shape.prod then .error .assertionError
  else (PatchM.new cm (f.rows cm.shape)).bind fun p => p.select argsort kw

/-- utils.py 154-174, `_read_single_file`. -/
def XmlInfo.readFile (x : XmlInfo) (argsort : List ℚ → List ℕ) (f : RawFile α) (time distance : Option ℚ × Option ℚ) : Except Err (PatchM α) :=
  if x.transposed then .error .assertionError
  else do
    let t ← x.timeCoord f.start
    let d ← x.distanceCoord
    let cm ← wholeCM (timeDistance t d) ["time", "distance"]
    f.fill argsort cm [("time", .between time.1 time.2), ("distance", .between distance.1 distance.2)]

/-- The least and the greatest label. -/
def Coord.ends : Coord → ℚ × ℚ
  | .range r => (min r.start (r.start + r.step * ((r.len : ℚ) - 1)), max r.start (r.start + r.step * ((r.len : ℚ) - 1)))
  | _ => (0, 0)

/-- dascore/utils/pd.py 182-197 (`_filter_multicolumn_range`) with `order_range_tuple`: a row of the table is kept if its extent meets the limits, whose order does not matter. -/
def meets (limits extent : Option ℚ × Option ℚ) : Bool :=
  ((orderRangeTuple limits).1.all fun a => extent.2.all fun e => decide (a ≤ e)) && (orderRangeTuple limits).2.all fun b => extent.1.all fun e => decide (e ≤ b)

/-- utils.py 185-190 for one file: is it read? -/
def XmlInfo.wanted (x : XmlInfo) (time distance : Option ℚ × Option ℚ) (f : RawFile α) : Except Err (RawFile α × Bool) := do
  let t ← x.timeCoord f.start
  let d ← x.distanceCoord
  .ok (f, meets time (some t.ends.1, some t.ends.2) && meets distance (some d.ends.1, some d.ends.2))

/-- utils.py 177-201, `_load_patches` of a directory. -/
def XmlInfo.readDir (x : XmlInfo) (argsort : List ℚ → List ℕ) (files : List (RawFile α)) (time distance : Option ℚ × Option ℚ) : Except Err (List (PatchM α)) := do
  let ws ← files.mapM (x.wanted time distance)
  ((ws.filter fun w => w.2).map fun w => w.1).mapM fun f => x.readFile argsort f time distance

/-- utils.py 67-71, `_read_xml_metadata` with `lru_cache`: what was read once under a path is not read again (up to 128 paths, which is not modelled). `disk` is what the files
contain now. -/
def readInfo (cache disk : Dict XmlInfo) (path : String) : Except Err (XmlInfo × Dict XmlInfo) :=
  match cache.get? path with
  | some x => .ok (x, cache)
  | none =>
    match disk.get? path with
    | some x => .ok (x, Dict.set cache path x)
    | none => .error .keyError

end Verif
