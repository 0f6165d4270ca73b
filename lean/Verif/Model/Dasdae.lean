import Verif.Model.Merge
/-!
# The DASDAE format (dascore/io/dasdae/core.py 58-136, dascore/io/dasdae/utils.py 24-198)

An HDF5 file is a dictionary of groups (`/waveforms/<name>`), each with attributes and arrays. PyTables gives back attributes and arrays
as they were set; datetimes are written as their whole number of nanoseconds (utils/time.py 297-311), so an array comes with the family of its dtype. Attributes of a patch other than its
dimensions and coordinate summaries are values of any type, as are units. `PatchAttrs(**dump)` gives back what was dumped. Not modelled: the optional index of the file,
arrays PyTables cannot write (text, objects), a failure in the middle of writing. The order in which coordinates are listed has no meaning.
-/
namespace Verif

variable {α ν : Type}

/-! ### Text -/

/-- `",".join(l)`. -/
def joinComma (l : List String) : String := String.ofList ([','].intercalate (l.map String.toList))

/-- `s.split(",")`. -/
def splitComma (s : String) : List String := (s.toList.splitOn ',').map String.ofList

/-- `s.startswith(pre)`. -/
def hasPrefix (pre s : String) : Bool := pre.toList.isPrefixOf s.toList

/-- `s.replace(sub, "")` from here on, the next `skip` characters belonging to what is being removed. -/
def removeGo (sub : List Char) : ℕ → List Char → List Char
  | _, [] => []
  | skip + 1, _ :: l => removeGo sub skip l
  | 0, c :: l => if sub.isPrefixOf (c :: l) then removeGo sub (sub.length - 1) l else c :: removeGo sub 0 l

/-- `s.replace(sub, "")`. -/
def removeAll (sub s : String) : String := String.ofList (removeGo sub.toList 0 s.toList)

/-! ### Names of patches (dascore/utils/patch.py 478-592) -/

/-- One row of the table of patches: texts as pandas prints them; `name` and `path` where the table has such a column. -/
structure NameRow where
  name : Option String := none
  path : Option String := none
  network : String := ""
  station : String := ""
  tag : String := ""
  timeMin : String
  timeMax : String

/-- utils/patch.py 536-543, `_format_time_column`: what follows the first point is dropped. -/
def formatTime (s : String) : String :=
  String.ofList ((s.toList.takeWhile (· ≠ '.')).map fun c => if c = ':' ∨ c = '-' then '_' else if c = ' ' then 'T' else c)

/-- utils/patch.py 553-561, `_get_filename`. -/
def fileStem (path : String) : String :=
  String.ofList ((((path.toList.splitOn '/').getLast?).getD []).takeWhile (· ≠ '.'))

/-- utils/patch.py 576-591 for one row, with the default arguments. -/
def patchName (r : NameRow) : String :=
  match r.name, r.path with
  | some n, _ => n
  | none, some p => fileStem p
  | none, none => "DAS_" ++ "__" ++ "__".intercalate [r.network, r.station, r.tag, formatTime r.timeMin, formatTime r.timeMax]

/-! ### Files -/

/-- A patch: coordinates, data, the attributes which are set (other than dimensions and coordinate summaries), and the units of its coordinates. -/
structure DPatch (α ν : Type) where
  cm : CM
  data : Nd α
  attrs : Dict ν
  units : Dict ν

/-- What is used of a `CoordSummary` (core/coords.py 152-190). -/
structure H5Summary (ν : Type) where
  step : Option ℚ
  units : Option ν

/-- The value of an attribute of a group. -/
inductive H5Val (ν : Type) where
  | text (s : String)
  | coords (d : Dict (H5Summary ν))
  | val (v : ν)

/-- An array of a group. The dtype family is kept for one dimensional coordinates. -/
inductive H5Node (α : Type) where
  | coord (kind : Option Kind) (a : Nd (Option ℚ))
  | data (a : Nd α)

/-- A group. -/
structure H5Group (α ν : Type) where
  attrs : Dict (H5Val ν) := []
  nodes : Dict (H5Node α) := []

/-- The groups in `/waveforms`. -/
abbrev H5File (α ν : Type) := Dict (H5Group α ν)

/-! ### Writing -/

/-- `coord.to_summary()` (core/coords.py 970-990 and 1130-1139) for all coordinates: a partial one tells neither its step nor its units. -/
def DPatch.summaries (p : DPatch α ν) : Dict (H5Summary ν) :=
  p.cm.ents.map fun e => (e.1, match e.2.2 with
    | .one _ (.part _) => ⟨none, none⟩
    | c => ⟨c.stepOf, p.units.get? e.1⟩)

/-- `patch.attrs.model_dump(exclude_unset=True)`. -/
def DPatch.dump (p : DPatch α ν) : Dict (H5Val ν) :=
  (p.attrs.map fun e => (e.1, .val e.2)) ++ [("coords", .coords p.summaries), ("dims", .text (joinComma p.cm.dims))]

/-- utils.py 52-59 and 84-85: the attributes set, in this order. -/
def DPatch.savedAttrs (p : DPatch α ν) : Dict (H5Val ν) :=
  (p.dump.map fun e => ("_attrs_" ++ e.1, e.2)) ++ [("_dims", .text (joinComma p.cm.dims))] ++
    p.cm.ents.map fun e => ("_cdims_" ++ e.1, .text (joinComma e.2.1))

/-- The dtype family of a one dimensional coordinate. -/
def MCoord.kind? : MCoord → Option Kind
  | .one k _ => some k
  | .nd _ => none

/-- utils.py 62-83 and 93-95: the arrays written, in this order. -/
def DPatch.savedNodes (p : DPatch α ν) : Dict (H5Node α) :=
  (p.cm.ents.map fun e => ("_coord_" ++ e.1, .coord e.2.2.kind? e.2.2.arr)) ++ if p.data.shape = [] then [] else [("data", .data p.data)]

/-- PyTables: the name of a group or an array must not be empty, a point, or contain a slash. -/
def legalNode (s : String) : Bool := s ≠ "" && s ≠ "." && !s.toList.contains '/'

/-- utils.py 88-95, `_save_patch`, into a group that may have contents. -/
def savePatch (g : H5Group α ν) (name : String) (p : DPatch α ν) : Except Err (H5Group α ν) :=
  if legalNode name && p.savedNodes.all fun e => legalNode e.1 then
    .ok ⟨g.attrs.update p.savedAttrs, g.nodes.update p.savedNodes⟩
  else .error .valueError

/-- core.py 89-92: write one patch after the other. -/
def writeFile (f : H5File α ν) (ps : List (String × DPatch α ν)) : Except Err (H5File α ν) :=
  ps.foldlM (fun f np => (savePatch ((f.get? np.1).getD {}) np.1 np.2).map fun g => f.set np.1 g) f

/-! ### Reading -/

/-- utils.py 101-111: names and values of the attributes of the patch. -/
def readAttrs (g : H5Group α ν) : Dict (H5Val ν) :=
  Dict.update [] ((g.attrs.filter fun e => hasPrefix "_attrs_" e.1).map fun e => (removeAll "_attrs_" e.1, e.2))

/-- The attributes other than dimensions and coordinate summaries. -/
def plainAttrs (d : Dict (H5Val ν)) : Dict ν :=
  d.filterMap fun e => match e.2 with
    | .val v => some (e.1, v)
    | _ => none

/-- The coordinate summaries among the attributes. -/
def readSummaries (d : Dict (H5Val ν)) : Dict (H5Summary ν) :=
  match d.get? "coords" with
  | some (.coords s) => s
  | _ => []

/-- core/attrs.py 158-172, `PatchAttrs.__getattr__`: which summary and which of its fields is meant. -/
def dynAttr (s : Dict (H5Summary ν)) (item : String) : Option (H5Summary ν × String) :=
  match (item.toList.splitOn '_').map String.ofList with
  | [first, second] =>
    let key := if first = "d" then (second, "step") else (first, second)
    (s.get? key.1).map fun x => (x, key.2)
  | _ => none

/-- utils.py 135: `getattr(attrs2, f"{name}_units", None)`; ordinary attributes come first, and `data_units` is one, if only by its default. -/
def coordUnits (attrs : Dict ν) (s : Dict (H5Summary ν)) (name : String) : Option ν :=
  match attrs.get? (name ++ "_units") with
  | some v => some v
  | none =>
    if name = "data" then none
    else
      match dynAttr s (name ++ "_units") with
      | some (x, "units") => x.units
      | _ => none

/-- utils.py 136: `getattr(attrs2, f"{name}_step", None)`. That no ordinary attribute has such a name is the work of `separate_coord_info`. -/
def coordStep (s : Dict (H5Summary ν)) (name : String) : Option ℚ :=
  match dynAttr s (name ++ "_step") with
  | some (x, "step") => x.step
  | _ => none

/-- utils.py 133-137, `get_coord(data=array, step=step)`. A single null becomes an array coordinate the model does not have. -/
def readCoord (kind : Option Kind) (a : Nd (Option ℚ)) (step : Option ℚ) : Except Err MCoord :=
  match kind with
  | none => .ok (.nd a)
  | some k =>
    let vs := (List.range (a.shape.getD 0 0)).map fun i : ℕ => a.get [i]
    if vs.all Option.isSome then (getCoordData k (vs.filterMap id) step).map (.one k)
    else if vs.any Option.isSome || vs.length = 1 then .error .notImplemented
    else .ok (.one k (.part vs.length))

/-- utils.py 128-138: the coordinates by name. -/
def readArrays (g : H5Group α ν) (s : Dict (H5Summary ν)) : Except Err (Dict MCoord) := do
  let l ← (g.nodes.filter fun e => hasPrefix "_coord_" e.1).mapM fun e => match e.2 with
    | .coord k a => (readCoord k a (coordStep s (removeAll "_coord_" e.1))).map fun c => (removeAll "_coord_" e.1, c)
    | .data _ => .error .notImplemented
  return Dict.update [] l

/-- utils.py 140-145 and core/coordmanager.py 1320: the coordinates with their dimensions, of which empty ones are dropped. -/
def readArgs (g : H5Group α ν) (cs : Dict MCoord) : Except Err (Dict CArg) := do
  let l ← (g.attrs.filter fun e => hasPrefix "_cdims" e.1).mapM fun e => match e.2, cs.get? (removeAll "_cdims_" e.1) with
    | .text t, some c => .ok (removeAll "_cdims_" e.1, CArg.nested ((splitComma t).filter (· ≠ "")) c)
    | _, _ => .error .assertionError
  return Dict.update [] l

/-- utils.py 151-158, `_get_dims`. -/
def readDims (g : H5Group α ν) : Except Err (List String) :=
  match g.attrs.get? "_dims" with
  | some (.text t) => .ok (if t = "" then [] else splitComma t)
  | _ => .error .keyError

/-- utils.py 196-197: the data. -/
def readData (g : H5Group α ν) : Except Err (Nd α) :=
  match g.nodes.get? "data" with
  | some (.data a) => .ok a
  | _ => .error .indexError

/-- utils.py 180-198, `_read_patch` without keywords, with the checks of `Patch(...)` (core/patch.py 108-120). If the coordinates have other dimensions than the patch they
would be renamed: not modelled. -/
def readPatch (g : H5Group α ν) : Except Err (DPatch α ν) := do
  let d := readAttrs g
  let s := readSummaries d
  let dims ← readDims g
  let cs ← readArrays g s
  let args ← readArgs g cs
  let cm ← getCoordManager args dims
  let data ← readData g
  if cm.dims ≠ dims then .error .notImplemented
  else
    match d.get? "dims" with
    | some (.text t) =>
      if t ≠ joinComma cm.dims then .error .patchCoordinateError
      else if cm.shape ≠ data.shape then .error .coordError
      else .ok ⟨cm, data, plainAttrs d, cs.filterMap fun e => (coordUnits (plainAttrs d) s e.1).map fun u => (e.1, u)⟩
    | _ => .error .patchCoordinateError

/-- core.py 121-136, `read` without keywords: the groups in the order of their names. -/
def readFile (f : H5File α ν) : Except Err (List (DPatch α ν)) :=
  (f.insertionSort fun a b => a.1 ≤ b.1).mapM fun e => readPatch e.2

/-- utils.py 188-195: the keywords `dc.read` passes on (io/core.py 656-662: `time=None`, `distance=None` and names that are no coordinates) select nothing away; those of coordinates
that are not attached to one dimension are left out. -/
def openQuery (m : CM) : Dict CQuery :=
  (["distance", "time"].filter fun n => match m.ents.get? n with
    | some ([_], _) => true
    | _ => false).map fun n => (n, .between none none)

/-- utils.py 188-198: `_read_patch` as `dc.read` calls it. -/
def readThrough (argsort : List ℚ → List ℕ) (g : H5Group α ν) : Except Err (DPatch α ν) := do
  let p ← readPatch g
  let r ← p.cm.select argsort p.data (openQuery p.cm)
  if r.1.shape ≠ r.2.shape then .error .coordError
  else .ok { p with cm := r.1, data := r.2 }

end Verif
