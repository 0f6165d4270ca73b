import Verif.Spec.CoordManager
import Verif.Spec.PatchOps
import Verif.Spec.Coord
/-! # Arrays with labels -/
namespace Spec
open Verif

/-- The patch has the samples of `stored` along the dimensions `ds`, under the labels `L`, and no other coordinates. -/
structure HoldsArray {α} (stored : Nd α) (ds : List String) (L : String → ℕ → ℚ) (q : PatchM α) : Prop where
  dims : q.cm.dims = ds
  shape : q.data.shape = stored.shape
  data : ∀ i, InRange stored.shape i → q.data.get i = stored.get i
  labels : ∀ d ∈ ds, ∀ i, InRange stored.shape i → label q d i = some (some (L d (posAlong q d i)))
  only : ∀ n, n ∉ ds → q.cm.ents.get? n = none

end Spec
