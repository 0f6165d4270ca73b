import Verif.Model.PatchOps
/-!
# Equality of patches and spools (dascore/proc/basic.py, dascore/utils/misc.py, dascore/core/coordmanager.py)

One dimensional time coordinates with NaT among their values are not representable (see `Coord`); attribute values are
atoms.
-/
namespace Verif

/-- An attribute value: `None`, NaN, or anything that equals itself (represented by a string). -/
inductive AVal where
  | none | nan | val (s : String)
  deriving DecidableEq, Repr

/-- Python `a == b`. -/
def AVal.pyEq : AVal → AVal → Bool
  | .none, .none => true
  | .val s, .val t => decide (s = t)
  | _, _ => false

/-- `pd.isnull`. -/
def AVal.isNull : AVal → Bool
  | .val _ => false
  | _ => true

/-- A patch with attributes (all but `dims` and `coords`, which follow from the coordinates) and the units of its
coordinates. A sample is `none` if it is NaN. -/
structure EPatch where
  cm : CM
  data : Nd (Option ℚ)
  attrs : Dict AVal
  units : String → Option String

/-- Whether the values have a time dtype (arrays of other ranks are numbers). -/
def MCoord.isTime : MCoord → Bool
  | .one .time _ => true
  | _ => false

/-- Whether the coordinate is a `CoordPartial`. -/
def MCoord.isPartial : MCoord → Bool
  | .one _ (.part _) => true
  | _ => false

/-- misc.py 128-145, `all_close`, for one pair of values. For two arrays of numbers: close or either null. For times
`np.isclose` raises TypeError and `==` decides; a time never equals a number. -/
def closeOrNull (t1 t2 : Bool) : Option ℚ → Option ℚ → Bool
  | some a, some b => if t1 || t2 then decide (t1 = t2) && decide (a = b) else isClose a b
  | _, _ => !(t1 || t2)

/-- misc.py 128-145, `all_close`. -/
def allClose (t1 t2 : Bool) (a b : Nd (Option ℚ)) : Bool :=
  decide (a.shape = b.shape) && (Nd.indices a.shape).all fun i => closeOrNull t1 t2 (a.get i) (b.get i)

/-- coords.py 952-968, `approx_equal`. Two partial coordinates are compared as models (utils/models.py 68-85): here they only
have shape and units. -/
def MCoord.approxEqual (c d : MCoord) (u v : Option String) : Bool :=
  if c.shape ≠ d.shape then false
  else if c.isPartial && d.isPartial then decide (u = v)
  else if c.isPartial || d.isPartial then false
  else allClose c.isTime d.isTime c.arr d.arr

/-- coordmanager.py 807-808: the coordinates which have to agree. -/
def CM.compared (m : CM) : List String :=
  m.ents.keys.filter fun x => m.dims.contains x || decide (x.toList.head? ≠ some '_')

/-- Same elements (Python `set(a) == set(b)`). -/
def sameSet (a b : List String) : Bool := a.all b.contains && b.all a.contains

/-- coordmanager.py 811-814, the comparison for one name. -/
def coordEqual (m n : CM) (u v : String → Option String) (x : String) : Bool :=
  match m.ents.get? x, n.ents.get? x with
  | some c, some d => c.2.approxEqual d.2 (u x) (v x)
  | _, _ => false

/-- coordmanager.py 800-815, `CoordManager.equals`. -/
def CM.equals (m n : CM) (u v : String → Option String) : Bool :=
  sameSet m.dims n.dims && sameSet m.compared n.compared && m.compared.all (coordEqual m n u v)

/-- `PatchAttrs.model_fields` without `history` and `coords` (core/attrs.py 92-138, proc/basic.py 176). -/
def requiredAttrs : List String :=
  ["data_type", "data_category", "data_units", "instrument_id", "acquisition_id", "tag", "station", "network", "dims"]

/-- `CommaSeparatedStr`: the names of the dimensions separated by commas. -/
def joinDims (dims : List String) : String := String.ofList ([','].intercalate (dims.map String.toList))

/-- proc/basic.py 175-181: the attributes to compare. -/
def EPatch.attrsToCompare (p : EPatch) (required : Bool) : Dict AVal :=
  (("dims", AVal.val (joinDims p.cm.dims)) :: p.attrs).filter fun a => !required || requiredAttrs.contains a.1

/-- proc/basic.py 182-193. -/
def attrsEqual (a b : Dict AVal) : Bool :=
  sameSet a.keys b.keys && a.keys.all fun k =>
    match a.get? k, b.get? k with
    | some x, some y => x.pyEq y || (x.isNull && y.isNull)
    | _, _ => false

/-- `np.equal` (`close = False`) or `np.isclose` of two samples. -/
def sampleEqual (close : Bool) : Option ℚ → Option ℚ → Bool
  | some a, some b => if close then isClose a b else decide (a = b)
  | _, _ => false

/-- proc/basic.py 136-198, `Patch.equals`, `other` being a patch. Data of different shapes would be broadcast or raise. -/
def EPatch.equals (p q : EPatch) (required : Bool := true) (close : Bool := false) : Except Err Bool :=
  if !p.cm.equals q.cm p.units q.units then .ok false
  else if !attrsEqual (p.attrsToCompare required) (q.attrsToCompare required) then .ok false
  else if p.data.shape ≠ q.data.shape then .error .valueError
  else .ok ((Nd.indices p.data.shape).all fun i => sampleEqual close (p.data.get i) (q.data.get i))

/-! ### Deep equality -/

/-- An object: a mapping, an object with a `__dict__` (the mapping `dict`), an object with an `equals` method, or anything
else. The keys of mappings are strings and the values identifiers of objects. -/
inductive ONode where
  | map (items : Dict ℕ)
  | obj (cls : String) (dict : ℕ)
  | frame (content : ℕ)
  | leaf (content : ℕ)

/-- The objects by identity, with the results of `x.equals(y)` and of `x == y` for the last two sorts. -/
structure Heap where
  node : ℕ → ONode
  frameEq : ℕ → ℕ → Bool
  leafEq : ℕ → ℕ → Bool

/-- misc.py 858-874, one turn of the loop; `rec` is the recursive call. Values of different sorts are never equal (a
DataFrame, which also has a `__dict__`, is not compared with a plain object by its attributes here). -/
def Heap.valueEq (h : Heap) (rec : ℕ → ℕ → Option Bool) (x y : ℕ) : Option Bool :=
  if x = y then some true
  else match h.node x, h.node y with
    | .map _, .map _ => rec x y
    | .frame a, .frame b => some (h.frameEq a b)
    | .obj _ d, .obj _ e => rec d e
    | .leaf a, .leaf b => some (h.leafEq a b)
    | _, _ => some false

/-- The loop of misc.py 856-875 (the keys of `obj2` are those of `obj1`; the order of a set does not matter). -/
def Heap.itemsEq (h : Heap) (rec : ℕ → ℕ → Option Bool) (j : Dict ℕ) : Dict ℕ → Option Bool
  | [] => some true
  | p :: l =>
    match j.get? p.1 with
    | none => some false
    | some z =>
      match h.valueEq rec p.2 z with
      | some true => h.itemsEq rec j l
      | r => r

/-- misc.py 836-877, `deep_equality_check`; `visited` are the pairs being compared. The number bounds the depth of the
recursion (`none`: not enough). -/
def Heap.deepEq (h : Heap) : ℕ → List (ℕ × ℕ) → ℕ → ℕ → Option Bool
  | 0, _, _, _ => none
  | n + 1, visited, x, y =>
    if visited.contains (x, y) || visited.contains (y, x) then some true
    else match h.node x, h.node y with
      | .map i, .map j => if sameSet i.keys j.keys then h.itemsEq (h.deepEq n ((x, y) :: visited)) j i else some false
      | .leaf a, .leaf b => some (h.leafEq a b)
      | .frame a, .frame b => some (h.leafEq a b)
      | _, _ => some false

end Verif
