import Verif.Model.CoordManager
/-!
# Reading an array with coordinates

Many readers of dascore/io make the coordinates of the whole file, select from them and from the stored array, and make a patch:
prodml/utils.py 304-321, ap_sensing/utils.py 89-101, silixah5/utils.py 102-117, gdr/core.py 56-66, neubrex/core.py 55-66 and 112-123, optodas/utils.py 79-91,
dasvader/utils.py 181-209.
-/
namespace Verif

/-- The arguments `time` and `distance` of `read`: the keyword arguments of `select`, if it is called. -/
def bothOf (time distance : Option (Option ℚ × Option ℚ)) : Option (Dict CQuery) :=
  if time.isSome || distance.isSome then
    some [("time", .between (time.getD (none, none)).1 (time.getD (none, none)).2), ("distance", .between (distance.getD (none, none)).1 (distance.getD (none, none)).2)]
  else none

/-- `coords.select(array=data, **limits)`, if there are limits. -/
def trimmed {α : Type} (argsort : List ℚ → List ℕ) (cm : CM) (data : Nd α) : Option (Dict CQuery) → Except Err (CM × Nd α)
  | none => .ok (cm, data)
  | some kw => cm.select argsort data kw

/-- The patch, unless there is no sample. -/
def nonEmpty {α : Type} (r : CM × Nd α) : Except Err (Option (PatchM α)) :=
  if r.2.shape.prod = 0 then .ok none else (PatchM.new r.1 r.2).map some

/-- The coordinates of the whole file, each labelling the dimension of its name. -/
def wholeCM (coords : Dict MCoord) (dims : List String) : Except Err CM := getCoordManager (coords.map fun e : String × MCoord => (e.1, CArg.simple e.2)) dims

/-- prodml/utils.py 312-320 (and the other places named above). -/
def readLabelled {α : Type} (argsort : List ℚ → List ℕ) (coords : Dict MCoord) (dims : List String) (data : Nd α) (kw : Option (Dict CQuery)) :
    Except Err (Option (PatchM α)) := do
  let cm ← wholeCM coords dims
  let r ← trimmed argsort cm data kw
  nonEmpty r

end Verif
