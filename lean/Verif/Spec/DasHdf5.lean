import Verif.Spec.Labelled
import Verif.Spec.Coord
import Verif.Model.DasHdf5
/-! # How DAS-HDF5 files are laid out -/
namespace Spec
open Verif

/-- The dimensions as the file says they are stored. -/
def cfDims {α} (f : CfFile α) : List String := if f.timeFirst then ["time", "channel"] else ["channel", "time"]

/-- The dimension along which a coordinate of the file runs, and its labels. -/
def cfLabels {α} (f : CfFile α) : Dict (String × List ℚ) :=
  [("channel", "channel", f.channel), ("trace", "time", f.trace), ("time", "time", f.t), ("x", "channel", f.x), ("y", "channel", f.y), ("z", "channel", f.z)]

/-- A file whose arrays fit together. Each array can be stored as it is. -/
structure CfLayout {α} (f : CfFile α) : Prop where
  some_sample : 1 ≤ f.channel.length ∧ 1 ≤ f.t.length
  traces : f.trace.length = f.t.length
  places : f.x.length = f.channel.length ∧ f.y.length = f.channel.length ∧ f.z.length = f.channel.length
  shape : f.das.shape = (cfDims f).map fun d => if d = "time" then f.t.length else f.channel.length
  storable : ∀ n d l, Dict.get? (cfLabels f) n = some (d, l) → Storable l

/-- The patch has the samples and the coordinates of the file along the dimensions `ds`. -/
structure HoldsCf {α} (f : CfFile α) (ds : List String) (w : PatchM α) : Prop where
  dims : w.cm.dims = ds
  shape : w.data.shape = f.das.shape
  data : ∀ i, InRange f.das.shape i → w.data.get i = f.das.get i
  labels : ∀ n d l, Dict.get? (cfLabels f) n = some (d, l) → ∀ i, InRange f.das.shape i → label w n i = some (l[posAlong w d i]?)
  only : ∀ n, Dict.get? (cfLabels f) n = none → w.cm.ents.get? n = none

end Spec
