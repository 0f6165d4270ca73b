import Verif.Model.Merge
/-!
# Snapping the coordinates of a patch (dascore/proc/coords.py 24-61, dascore/core/coordmanager.py 437-470)

The identity of objects is not modelled: where the code returns the patch it was given because nothing changed, the model builds an equal one.
-/
namespace Verif

namespace CM

/-- coordmanager.py 463-465: does snapping leave the coordinate as it is? True of those evenly sampled and of those without labels (coords.py 600-607). -/
def snapKeeps : MCoord → Bool
  | .one _ (.mono _) => false
  | .one _ (.arr _) => false
  | _ => true

/-- coordmanager.py 462: `cm.coord_map[coord_name]`, asked whether it stays as it is. -/
def snapKept (e : Ents) (n : String) : Bool :=
  match e.get? n with
  | some (_, c) => snapKeeps c
  | none => true

/-- coordmanager.py 461-465 for one name. The updates are put in their place at once: each name is asked for once, as `sort` has checked. -/
def snapEntry (e : Ents) (n : String) : Except Err Ents :=
  match e.get? n with
  | none => .error .keyError
  | some (ds, c) => (snapCoord c).map fun c' => e.set n (ds, c')

/-- coordmanager.py 466-470. -/
def snapNamed (m cm : CM) (names : List String) : Except Err CM :=
  if names.all (snapKept cm.ents) then .ok cm
  else do
    let e ← names.foldlM snapEntry cm.ents
    let out ← CM.mk? cm.dims e
    if out.shape = m.shape then .ok out else .error .assertionError

/-- coordmanager.py 437-470, `snap` with the data array. -/
def snapAll {α} (argsort : List ℚ → List ℕ) (m : CM) (a : Nd α) (names : List String) (reverse : Bool) : Except Err (CM × Nd α) := do
  let r ← m.sort argsort a (if names.isEmpty then m.dims else names) reverse
  let cm ← m.snapNamed r.1 (if names.isEmpty then m.dims else names)
  return (cm, r.2)

end CM

/-- proc/coords.py 57-61, `Patch.snap_coords`. -/
def PatchM.snapCoords {α} (argsort : List ℚ → List ℕ) (p : PatchM α) (names : List String) (reverse : Bool) : Except Err (PatchM α) := do
  let r ← p.cm.snapAll argsort p.data names reverse
  PatchM.new r.1 r.2

end Verif
