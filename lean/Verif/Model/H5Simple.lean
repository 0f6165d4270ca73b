import Verif.Model.CoordManager
import Verif.Model.Reader
/-!
# Simple HDF5 files (dascore/io/h5simple)

A file has one array of data, one of times and any number of other arrays, each of which becomes a coordinate. Arrays other than the data are
one-dimensional here. That there is exactly one array of data and of times is taken for granted (utils.py 98-105), as are attributes.
-/
namespace Verif

/-- utils.py 95-112: what is found in a file. -/
structure SimpleFile (α : Type) where
  data : Nd α
  /-- The array of times, in seconds. -/
  time : List ℚ
  /-- All other arrays, with the types of their elements, in the order in which the set of names is iterated. -/
  others : Dict (Kind × List ℚ)
  /-- The attribute "dims". -/
  dims : Option (List String)

namespace SimpleFile
variable {α : Type} (f : SimpleFile α)

/-- utils.py 41-47: `assert len(coord) == len(v)`. -/
def ofLength (n : ℕ) (c : RangeCoord) : Except Err Coord := if c.len = n then .ok (.range c) else .error .assertionError

/-- utils.py 44: the step; a duration divided by an integer is cut to nanoseconds. -/
def snapStep (kind : Kind) (l : List ℚ) : ℚ :=
  if kind = .time then (truncZ ((l.getLastD 0 - l.headD 0) / ((l.length : ℚ) - 1)) : ℚ) else (l.getLastD 0 - l.headD 0) / ((l.length : ℚ) - 1)

/-- utils.py 39-47, `_get_coord` with `snap=True`. With one element the step is not a number, which no coordinate accepts. -/
def snapped (kind : Kind) (l : List ℚ) : Except Err Coord :=
  if l.length = 0 then .error .indexError
  else if l.length = 1 then .error .valueError
  else (mkRange (l.headD 0) (l.getLastD 0 + snapStep kind l) (snapStep kind l)).bind (ofLength l.length)

/-- utils.py 37-51, `_get_coord`. Times are given in nanoseconds here. -/
def coordOf (snap : Bool) (kind : Kind) (l : List ℚ) : Except Err MCoord :=
  if snap then (snapped kind l).map (.one (if kind = .time then .time else .float)) else (getCoordData kind l).map (.one kind)

/-- `d[n] = name`, of a dictionary with lengths as keys. -/
def setLen (d : List (ℕ × String)) (e : ℕ × String) : List (ℕ × String) := e :: d.filter fun x => x.1 ≠ e.1

/-- utils.py 77-80: the name of the array of each length. -/
def byLength : List (ℕ × String) :=
  setLen ((f.others.map fun e => (e.2.2.length, e.1)).foldl setLen []) (f.time.length, "time")

/-- utils.py 54-66, `_fill_coords`: the length which is missing. -/
def missing (d : List (ℕ × String)) : Except Err ℕ :=
  match f.data.shape.dedup.filter fun n => !(d.map Prod.fst).contains n with
  | [n] => .ok n
  | _ => .error .assertionError

/-- utils.py 81-88: other arrays and names by length, after filling. -/
def filled : Except Err (Dict (Kind × List ℚ) × List (ℕ × String)) :=
  if f.byLength.length ≠ f.data.shape.length then
    (f.missing f.byLength).map fun n =>
      (f.others.set "channel" (.int, (List.range n).map fun i : ℕ => (i : ℚ)), setLen f.byLength (n, "channel"))
  else .ok (f.others, f.byLength)

/-- utils.py 90: `coord_shape_dict[x]`. -/
def nameOf (d : List (ℕ × String)) (n : ℕ) : Except Err String :=
  match d.find? fun e => e.1 == n with
  | some e => .ok e.2
  | none => .error .keyError

/-- utils.py 73-90: dimensions from the lengths of arrays. -/
def guess : Except Err (Dict (Kind × List ℚ) × List String) :=
  if f.data.shape.Nodup then
    f.filled.bind fun r => (f.data.shape.mapM (nameOf r.2)).map fun ds => (r.1, ds)
  else .error .assertionError

/-- utils.py 69-90: the other arrays and the dimensions. -/
def dimsOf : Except Err (Dict (Kind × List ℚ) × List String) :=
  match f.dims with
  | some (d :: ds) => .ok (f.others, d :: ds)
  | _ => f.guess

/-- utils.py 91-92 and 111-112: the coordinates. -/
def manager (snap : Bool) : Except Err CM := do
  let r ← f.dimsOf
  let coords ← (r.1.set "time" (.time, f.time.map nanos)).mapM fun e => (coordOf snap e.2.1 e.2.2).map fun c => (e.1, CArg.simple c)
  getCoordManager coords r.2

/-- core.py 29-46 with utils.py 21-24: `read`. Names which are not coordinates are ignored. -/
def read (argsort : List ℚ → List ℕ) (snap : Bool) (kw : Dict CQuery) : Except Err (Option (PatchM α)) := do
  let cm ← f.manager snap
  let r ← cm.select argsort f.data kw
  if r.1.shape.prod = 0 then return none
  else (PatchM.new r.1 r.2).map some

end SimpleFile
end Verif
