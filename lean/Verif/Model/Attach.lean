import Verif.Model.PatchOps
import Verif.Model.Resample
/-!
# Coordinates computed from tables and places (dascore/proc/coords.py 348-432 and 737-804)

Values are exact rational numbers. The `units` argument of `coords_from_df` is not modelled. Columns are distinct and hold numbers. `PatchError` is written `incompatiblePatch`. Sets of columns are taken in the order of
the table, which decides only the order in which coordinates are listed.
-/
namespace Verif

/-- A table of numbers: the columns by name. -/
abbrev Frame := Dict (List ℚ)

/-- `np.interp(x, xp, fp, left=nan, right=nan)` for one number. The two tests before the search are those of numpy's `binary_search_with_guess`; the search itself is that for
ascending `xp`. -/
def interpInside (pts : List (ℚ × ℚ)) (x : ℚ) : Option ℚ :=
  let j := searchRight (pts.map Prod.fst) x - 1
  let a := pts.getD j (0, 0)
  let b := pts.getD (j + 1) (0, 0)
  if (pts.getD (pts.length - 1) (0, 0)).1 < x then none
  else if x < (pts.getD 0 (0, 0)).1 then none
  else if j + 1 = pts.length then some a.2
  else if a.1 = x then some a.2
  else some ((b.2 - a.2) / (b.1 - a.1) * (x - a.1) + a.2)

/-- coords.py 1791-1832, `get_coord(data=array)` of an array of floats some of which may be NaN: without NaN the array, with nothing else a partial coordinate, otherwise an
array which stays as it is (here one with nulls). -/
def floatCoord (xs : List (Option ℚ)) : MCoord :=
  if xs.all Option.isNone then .one .float (.part xs.length)
  else if xs.all Option.isSome then .one .float (.arr (xs.map fun x => x.getD 0))
  else .nd ⟨[xs.length], fun i => xs.getD (i.getD 0 0) none⟩

/-- proc/coords.py 408-429 for one column: its values at labels of the dimension. `np.interp` does not take times; neither takes an empty table. -/
def columnAt (extrapolate : Bool) (k : Kind) (labels : List (Option ℚ)) (anchor col : List ℚ) : Except Err (List (Option ℚ)) :=
  if anchor.isEmpty then .error .valueError
  else if extrapolate then .ok (labels.map fun x => x.map (interpLinear (sortedPoints anchor col)))
  else if k = .time then .error .typeError
  else .ok (labels.map fun x => x.bind (interpInside (anchor.zip col)))

/-- proc/coords.py 394-397: the columns named as dimensions. -/
def anchorsOf (m : CM) (t : Frame) : List String := t.keys.filter fun n => m.dims.contains n

/-- proc/coords.py 409-429: the coordinate of one column. -/
def tableCoord (extrapolate : Bool) (t : Frame) (d : String) (k : Kind) (c : Coord) (col : List ℚ) : Except Err CArg :=
  (columnAt extrapolate k c.labels ((t.get? d).getD []) col).map fun xs => CArg.nested [d] (floatCoord xs)

/-- proc/coords.py 406-429. -/
def tableCoords (extrapolate : Bool) (t : Frame) (d : String) (k : Kind) (c : Coord) : Except Err (Dict CArg) :=
  (t.filter fun e => e.1 != d).mapM fun e => (tableCoord extrapolate t d k c e.2).map fun x => (e.1, x)

/-- proc/coords.py 348-432, `patch.coords_from_df(table, extrapolate=...)`. -/
def PatchM.coordsFromFrame {α : Type} (p : PatchM α) (t : Frame) (extrapolate : Bool) : Except Err (PatchM α) :=
  match anchorsOf p.cm t with
  | [d] =>
    match p.cm.ents.get? d with
    | some (_, .one k c) => do
      let kw ← tableCoords extrapolate t d k c
      p.updateCoords kw
    | _ => .error .coordError
  | _ => .error .parameterError

/-- proc/coords.py 792-794 for one coordinate along dimension `d`. Coordinates of several dimensions, or none, are not modelled. Numbers can not be subtracted from times. -/
def originLabels (m : CM) (d : List String) (name : String) : Except Err (List (Option ℚ)) :=
  match m.ents.get? name with
  | some (ds, .one k c) => if ds = d ∧ d.length = 1 then if k = .time then .error .typeError else .ok c.labels else .error .notImplemented
  | _ => .error .notImplemented

/-- proc/coords.py 791-796: the distances, `norm` being that of numpy for the order asked for. -/
def distances (norm : List ℚ → ℚ) (origin : List ℚ) (arrays : List (List (Option ℚ))) : List (Option ℚ) :=
  (List.range (arrays.headD []).length).map fun i =>
    (arrays.mapM fun a : List (Option ℚ) => a.getD i none).map fun xs => norm (List.zipWith (fun o x => o - x) origin xs)

/-- proc/coords.py 798-801. A coordinate called "distance" of the origin is overwritten by the distances. -/
def originCoords (pre : String) (origin : Dict ℚ) (d : List String) (xs : List (Option ℚ)) : Dict CArg :=
  Dict.set (origin.map fun e => (pre ++ "_" ++ e.1, CArg.nested [] (.one .float (.arr [e.2])))) (pre ++ "_distance") (.nested d (floatCoord xs))

/-- proc/coords.py 737-804, `patch.add_distance_to(origin, ord, prefix)`. -/
def PatchM.addDistanceTo {α : Type} (norm : List ℚ → ℚ) (p : PatchM α) (origin : Dict ℚ) (pre : String) : Except Err (PatchM α) :=
  if origin.keys.any fun n => (p.cm.ents.get? n).isNone then .error .incompatiblePatch
  else
    match (origin.keys.filterMap fun n => (p.cm.ents.get? n).map Prod.fst).dedup with
    | [d] => do
      let arrays ← origin.keys.mapM (originLabels p.cm d)
      p.updateCoords (originCoords pre origin d (distances norm (origin.map Prod.snd) arrays))
    | [] => .error .valueError
    | _ => .error .incompatiblePatch

end Verif
