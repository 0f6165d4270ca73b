import Verif.Model.Labelled
/-!
# DAS-HDF5 files (`/repo/dascore/io/dashdf5`)

The instants are taken as nanoseconds. Attributes and units are left out.
-/
namespace Verif
variable {α : Type}

/-- The arrays of a file. `timeFirst` is what the file says of its array (in `DIMENSION_LIST`); the reader does not look at it. -/
structure CfFile (α : Type) where
  channel : List ℚ
  trace : List ℚ
  t : List ℚ
  x : List ℚ
  y : List ℚ
  z : List ℚ
  das : Nd α
  timeFirst : Bool

/-- dashdf5/utils.py 50-65: the coordinates and their dimensions. -/
def cfEnts (channel trace time x y z : Coord) : Ents :=
  [("channel", ["channel"], .one .int channel), ("trace", ["time"], .one .int trace), ("time", ["time"], .one .time time),
   ("x", ["channel"], .one .float x), ("y", ["channel"], .one .float y), ("z", ["channel"], .one .float z)]

/-- dashdf5/utils.py 72-74: the dimensions are turned round if the shape is another. -/
def aligned (shape : List ℕ) (cm : CM) : Except Err CM := if cm.shape ≠ shape then cm.transpose [] else .ok cm

/-- dashdf5/utils.py 32-75, `_get_cf_coords`. -/
def CfFile.coords (f : CfFile α) : Except Err CM := do
  let channel ← getCoordData .int f.channel
  let trace ← getCoordData .int f.trace
  let time ← getCoordData .time f.t
  let x ← getCoordData .float f.x
  let y ← getCoordData .float f.y
  let z ← getCoordData .float f.z
  let cm ← CM.mk? ["channel", "time"] (cfEnts channel trace time x y z)
  aligned f.das.shape cm

/-- dashdf5/core.py 57-77, `read`. -/
def CfFile.read (f : CfFile α) (argsort : List ℚ → List ℕ) (time channel : Option ℚ × Option ℚ) : Except Err (Option (PatchM α)) := do
  let cm ← f.coords
  let r ← cm.select argsort f.das [("time", .between time.1 time.2), ("channel", .between channel.1 channel.2)]
  nonEmpty r

end Verif
