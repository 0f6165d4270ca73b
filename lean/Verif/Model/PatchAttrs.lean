import Verif.Model.Merge
import Verif.Model.Dasdae
/-!
# Attributes and coordinates of a patch (dascore/core/attrs.py, dascore/utils/attrs.py 192-314, dascore/core/coordmanager.py 322-356, dascore/core/patch.py 86-126, dascore/proc/basic.py 96-133 and 212-264)

A patch keeps a summary of its coordinates among its attributes, and attributes such as `time_min` change the coordinates. Numbers are taken as compatible with the labels.
Changes of units by attributes are not modelled, nor are attributes called `coords` and `dims`, coordinates or dimensions with these names, defaults of attributes which are not set,
and names of dimensions which mean something in regular expressions, nor coordinates called `coord_map` and `dim_map`, `min` and `max`.
-/
namespace Verif

/-- The value of an attribute: a number, nothing, a dtype, or anything else. -/
inductive AttrVal (ν : Type) where
  | num (x : ℚ)
  | null
  | dtype (k : Option Kind)
  | val (v : ν)
  deriving DecidableEq, Repr

/-- What is known about a coordinate. -/
abbrev CoordInfo (ν : Type) := Dict (AttrVal ν)

/-- Attributes, as a `PatchAttrs` or as a dictionary that is going to be one. `dims` is empty if there is no such entry. -/
structure Attrs (ν : Type) where
  plain : Dict (AttrVal ν)
  dims : List String
  coords : Dict (CoordInfo ν)

/-- core/coords.py 160-164, the fields of a `CoordSummary`. -/
def summaryFields : List String := ["dtype", "min", "max", "step", "units"]

variable {ν α : Type}

/-- A number, if any. -/
def AttrVal.ofOption : Option ℚ → AttrVal ν
  | some x => .num x
  | none => .null

/-- core/coords.py 798-806 and 1131-1139, `coord.to_summary()`. The limits of coordinates with several dimensions are not modelled. -/
def summaryOf (units : Dict ν) (name : String) (c : MCoord) : CoordInfo ν :=
  [("dtype", .dtype c.kind?), ("min", .ofOption c.lowest), ("max", .ofOption c.highest), ("step", .ofOption c.stepOf),
    ("units", match c with
      | .one _ (.part _) => .null
      | _ => ((units.get? name).map AttrVal.val).getD .null)]

/-- core/coordmanager.py 1065-1071, `to_summary_dict`. -/
def CM.summaries (units : Dict ν) (m : CM) : Dict (CoordInfo ν) := m.ents.map fun e => (e.1, summaryOf units e.1 e.2.2)

/-! ### Coordinate information among attributes -/

/-- utils/misc.py 439-461, `is_valid_coord_str(s, d)`: does `d.*_(dtype|min|max|step|units)` match the beginning of the name? -/
def isCoordStr (d s : String) : Bool :=
  d.toList.isPrefixOf s.toList &&
    summaryFields.any fun f => (s.toList.drop d.toList.length).tails.any fun r => ("_" ++ f).toList.isPrefixOf r

/-- `s.split("_")[1]`. Only used for names with an underscore. -/
def secondPart (s : String) : String := String.ofList ((s.toList.splitOn '_').getD 1 [])

/-- `s.split("_")[0]`. -/
def firstPart (s : String) : String := String.ofList (s.toList.takeWhile (· ≠ '_'))

/-- utils/attrs.py 220-234, `_meets_required(keys, strict=False)`. -/
def meetsRequired (required : List String) (keys : List String) : Bool := !keys.isEmpty && required.all fun r => keys.contains r

/-- utils/attrs.py 220-234, `_meets_required(keys)`: units and dtypes do not make a coordinate. -/
def meetsStrictly (required : List String) (keys : List String) : Bool :=
  if required.isEmpty then keys.any fun k => !["units", "dtype"].contains k else meetsRequired required keys

/-- utils/attrs.py 236-251, `_get_dims`. -/
def dimsIn (required : List String) (obj : Attrs ν) : List String :=
  if obj.dims ≠ [] then obj.dims
  else
    let keys := obj.plain.keys.filter (isCoordStr "")
    (keys.map firstPart).dedup.filter fun d => meetsStrictly required ((keys.filter fun k => firstPart k == d).map secondPart)

/-- utils/attrs.py 256-263: what the attributes say about one dimension. -/
def topLevel (plain : Dict (AttrVal ν)) (d : String) : CoordInfo ν :=
  let found := Dict.update [] ((plain.filter fun e => isCoordStr d e.1).map fun e => (secondPart e.1, e.2))
  match plain.get? ("d_" ++ d) with
  | some v => found.set "step" v
  | none => found

/-- utils/attrs.py 253-266, for all dimensions. -/
def addTopLevel (required : List String) (plain : Dict (AttrVal ν)) (out : Dict (CoordInfo ν)) (d : String) : Dict (CoordInfo ν) :=
  if meetsRequired required (topLevel plain d).keys then out.set d (topLevel plain d) else out

/-- utils/attrs.py 281-290, `_pop_keys`: is the attribute to be removed? -/
def popped (out : Dict (CoordInfo ν)) (key : String) : Bool :=
  out.any fun e => (e.2.keys.any fun f => key == e.1 ++ "_" ++ f) || e.2.keys.contains "step" && key == "d_" ++ e.1

/-- utils/attrs.py 302-305: the dimensions which are looked for. -/
def usedDims (req : List String) (obj : Attrs ν) (dims : List String) : List String := if dimsIn req obj ≠ [] then dimsIn req obj else dims

/-- utils/attrs.py 192-314, `separate_coord_info`. `none` if the attributes themselves are taken for coordinate information (306-308). -/
def separateCoordInfo (obj : Attrs ν) (dims required : List String) : Option (Dict (CoordInfo ν) × Attrs ν) :=
  if usedDims required obj dims ≠ [] && (usedDims required obj dims).all fun d => obj.plain.keys.contains d then none
  else
    let out := (usedDims required obj dims).foldl (addTopLevel required obj.plain) (obj.coords.filter fun e => meetsRequired required e.2.keys)
    some (out, ⟨obj.plain.filter fun e => !popped out e.1, usedDims required obj dims, []⟩)

/-! ### Building attributes -/

/-- core/coords.py 166-178: a `CoordSummary` has these fields and no others. That the dtype is found from the limits if it is missing is not modelled. -/
def castSummary (info : CoordInfo ν) : CoordInfo ν := summaryFields.map fun f => (f, (info.get? f).getD .null)

/-- core/attrs.py 139-148, `PatchAttrs(**obj)`. -/
def Attrs.build (obj : Attrs ν) : Except Err (Attrs ν) :=
  match separateCoordInfo obj obj.dims ["min", "max"] with
  | none => .error .typeError
  | some (info, rest) => .ok ⟨rest.plain, if rest.dims ≠ [] then rest.dims else info.keys, info.map fun e => (e.1, castSummary e.2)⟩

/-- core/attrs.py 224-245, `attrs.update(coords=m)` with a coordinate manager. -/
def Attrs.withCoords (a : Attrs ν) (units : Dict ν) (m : CM) : Except Err (Attrs ν) := Attrs.build ⟨a.plain, m.dims, m.summaries units⟩

/-! ### Changing coordinates by attributes -/

/-- coordmanager.py 343-345: what differs. -/
def infoDiff [DecidableEq ν] (new old : CoordInfo ν) : CoordInfo ν := new.filter fun e => decide (e.2 ≠ (old.get? e.1).getD .null)

/-- A limit that is given. -/
def givenNum (d : CoordInfo ν) (f : String) : Option ℚ :=
  match d.get? f with
  | some (.num x) => some x
  | _ => none

/-- core/coords.py 1519-1535, `CoordArray.update_limits`. -/
def ArrCoord.updateLimits (k : Kind) (c : Coord) (mn mx step : Option ℚ) : Except Err Coord :=
  if 1 < ([mn, mx, step].filter Option.isSome).length then .error .valueError
  else
    match step, mn, mx with
    | some s, _, _ => do
      let r ← ArrCoord.snap k (match c with | .mono vs => decide (vs.Pairwise fun a b => b < a) | _ => false) c.vals
      match r with
      | .range r => r.updateLimits none none (some s)
      | _ => .error .notImplemented
    | none, some m, _ => ArrCoord.shift k c.vals (c.vals.foldl min (c.vals.getD 0 0)) m
    | none, none, some m => ArrCoord.shift k c.vals (c.vals.foldl max (c.vals.getD 0 0)) m
    | none, none, none => .ok c

/-- core/coords.py 1333-1335: a range with both limits given. -/
def MCoord.bothLimits (c : MCoord) (d : CoordInfo ν) : Bool :=
  match c with
  | .one _ (.range _) => (givenNum d "min").isSome && (givenNum d "max").isSome && (givenNum d "step").isNone
  | _ => false

/-- core/coords.py 808-821, `coord.update(**d)`: a step close to the old one, and the dtype, are ignored. Names which are no fields are arguments nothing knows,
except where 1335 returns before they are passed on. `start`, `stop`, `data`, `values` and `shape` are not modelled. -/
def MCoord.updateInfo (c : MCoord) (d : CoordInfo ν) : Except Err MCoord :=
  if (d.keys.any fun f => !summaryFields.contains f) && !c.bothLimits d then .error .typeError
  else
    match d.get? "units", [d.get? "min", d.get? "max", d.get? "step"] with
    | some (.val _), _ => .error .notImplemented
    | _, l =>
      if l.any fun | some (.val _) => true | some (.dtype _) => true | _ => false then .error .notImplemented
      else
        match c with
        | .one k (.range r) =>
          let step := (givenNum d "step").filter fun s => !(if k = .time then decide (s = r.step) else isClose s r.step)
          (r.updateLimits (givenNum d "min") (givenNum d "max") step).map (.one k)
        | .one k (.part n) => .ok (.one k (.part n))
        | .one k c => (ArrCoord.updateLimits k c (givenNum d "min") (givenNum d "max") (givenNum d "step")).map (.one k)
        | .nd a => if [givenNum d "min", givenNum d "max", givenNum d "step"].any Option.isSome then .error .notImplemented else .ok (.nd a)

/-- coordmanager.py 337-346 for one coordinate. -/
def updateEntry [DecidableEq ν] (units : Dict ν) (info : Dict (CoordInfo ν)) (e : String × List String × MCoord) : Except Err (String × List String × MCoord) :=
  match info.get? e.1 with
  | none => .ok e
  | some i =>
    let d := infoDiff i (summaryOf units e.1 e.2.2)
    if d.isEmpty then .ok e else (e.2.2.updateInfo d).map fun c => (e.1, e.2.1, c)

/-- coordmanager.py 350-352: information about coordinates which are no dimensions goes back to the attributes. -/
def putBack (dims : List String) (info : Dict (CoordInfo ν)) : Dict (AttrVal ν) :=
  (info.filter fun e => !dims.contains e.1).flatMap fun e => e.2.map fun f => (e.1 ++ "_" ++ f.1, f.2)

/-- coordmanager.py 322-356, `update_from_attrs`. -/
def CM.updateFromAttrs [DecidableEq ν] (units : Dict ν) (m : CM) (obj : Attrs ν) : Except Err (CM × Attrs ν) :=
  match separateCoordInfo obj m.dims [] with
  | none => .error .attributeError
  | some (info, rest) => do
    let ents ← m.ents.mapM (updateEntry units info)
    let cm ← CM.mk? m.dims ents
    let attrs ← Attrs.build ⟨rest.plain.update (putBack m.dims info), cm.dims, cm.summaries units⟩
    return (cm, attrs)

/-! ### Patches -/

/-- A patch with its attributes and the units of its coordinates. -/
structure LPatch (α ν : Type) where
  cm : CM
  data : Nd α
  attrs : Attrs ν
  units : Dict ν

/-- core/patch.py 181-186, `Patch.from_parts`. -/
def LPatch.fromParts (data : Nd α) (cm : CM) (attrs : Attrs ν) (units : Dict ν) : Except Err (LPatch α ν) :=
  if cm.dims ≠ attrs.dims then .error .patchCoordinateError
  else if cm.shape ≠ data.shape then .error .coordError
  else .ok ⟨cm, data, attrs, units⟩

/-- core/patch.py 86-126, `Patch(data, coords, dims, attrs)` with a coordinate manager and `PatchAttrs`. -/
def LPatch.make (data : Nd α) (cm : CM) (attrs : Attrs ν) (units : Dict ν) : Except Err (LPatch α ν) := do
  let a ← attrs.withCoords units cm
  fromParts data cm a units

/-- The same with a dictionary of attributes: they have priority over the coordinates (115-117). -/
def LPatch.makeFrom [DecidableEq ν] (data : Nd α) (cm : CM) (attrs : Attrs ν) (units : Dict ν) : Except Err (LPatch α ν) := do
  let r ← cm.updateFromAttrs units attrs
  fromParts data r.1 r.2 units

/-- proc/basic.py 96-133, `patch.update_attrs(**kw)`. -/
def LPatch.updateAttrs [DecidableEq ν] (p : LPatch α ν) (kw : Dict (AttrVal ν)) : Except Err (LPatch α ν) :=
  if kw.keys = ["history"] then (Attrs.build { p.attrs with plain := p.attrs.plain.update kw }).map fun a => { p with attrs := a }
  else do
    let r ← p.cm.updateFromAttrs p.units { p.attrs with plain := p.attrs.plain.update kw }
    make p.data r.1 r.2 p.units

/-- proc/basic.py 257-264, `patch.update(attrs=attrs)`. -/
def LPatch.updateWith [DecidableEq ν] (p : LPatch α ν) (attrs : Attrs ν) : Except Err (LPatch α ν) := do
  let r ← p.cm.updateFromAttrs p.units attrs
  fromParts p.data r.1 r.2 p.units

/-- proc/basic.py 252-264 with core/attrs.py 247-263, `patch.update(data=data, coords=cm)`: this is how most operations give their results. -/
def LPatch.recoord (p : LPatch α ν) (data : Nd α) (cm : CM) (units : Dict ν) : Except Err (LPatch α ν) :=
  fromParts data cm { p.attrs with coords := cm.summaries units, dims := cm.dims } units

/-- core/attrs.py 158-172, `patch.attrs.<name>_<field>`. -/
def Attrs.getDynamic (a : Attrs ν) (item : String) : Option (AttrVal ν) :=
  match (item.toList.splitOn '_').map String.ofList with
  | [first, second] =>
    let key := if first = "d" then (second, "step") else (first, second)
    (a.coords.get? key.1).bind fun i => i.get? key.2
  | _ => none

end Verif
