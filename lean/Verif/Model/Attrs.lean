import Verif.Model.Equality
/-!
# Merging attributes (dascore/utils/attrs.py)

An attribute set is what `PatchAttrs.model_dump(exclude_defaults=True)` returns: the attributes that differ from their
defaults, and the summaries of the coordinates (no coordinates: no `coords` key). Attribute names never look like
`time_min` or a dimension (core/attrs.py 38-62 would read them as coordinates). Passing dictionaries instead of
`PatchAttrs` is not modelled: the function then also changes the coordinates in the caller's dictionaries.
-/
namespace Verif

/-- coords.py 152-166, `CoordSummary`. -/
structure CSummary where
  dtype : String
  min : ℚ
  max : ℚ
  step : Option ℚ := none
  units : Option String := none
  deriving DecidableEq, Repr

/-- core/attrs.py 65-138, `PatchAttrs` without the defaults. -/
structure AttrSet where
  plain : Dict AVal
  coords : Dict CSummary
  deriving DecidableEq, Repr

/-- attrs.py 30-35, the valid values of `conflicts`. -/
inductive Conflicts where
  | drop | raise | keepFirst
  deriving DecidableEq, Repr

/-- attrs.py 120-124: drop the named attributes. -/
def AttrSet.without (drop : List String) (a : AttrSet) : AttrSet :=
  ⟨a.plain.filter fun p => !drop.contains p.1, if drop.contains "coords" then [] else a.coords⟩

/-- misc.py 314-319, `get_middle_value`. -/
def middleValue (l : List ℚ) : ℚ := (sortQ l).getD ((l.length - 1) / 2) 0

/-- attrs.py 98-105: all values are equal. -/
def allSame {α : Type} [DecidableEq α] : List α → Bool
  | [] => true
  | a :: l => l.all fun x => decide (x = a)

/-- The steps that are known (others are excluded from the dumps as defaults). -/
def stepsOf (l : List CSummary) : List ℚ := l.filterMap CSummary.step

/-- The units that are known. -/
def unitsOf (l : List CSummary) : List String := l.filterMap CSummary.units

/-- attrs.py 90-112, `_get_new_coord` after the summaries have been collected. -/
def mergeSummaries : List CSummary → Except Err (Option CSummary)
  | [] => .ok none
  | s :: l =>
    if !allSame ((s :: l).map CSummary.dtype) || !allSame (unitsOf (s :: l)) then .error .attributeMergeError
    else .ok (some
      { dtype := s.dtype
        min := l.foldl (fun m t => if t.min < m then t.min else m) s.min
        max := l.foldl (fun m t => if m < t.max then t.max else m) s.max
        step := if allDiffsClose (stepsOf (s :: l)) then some (middleValue (stepsOf (s :: l))) else none
        units := (unitsOf (s :: l)).head? })

/-- attrs.py 114-138, `_get_model_dict_list`. The name is empty if none is given. -/
def attrDicts (models : List AttrSet) (name : String) (drop : List String) (coord : Option CSummary) :
    Except Err (List AttrSet) :=
  let ds := models.map (AttrSet.without drop)
  if name = "" then .ok ds
  else do
    let ds := ds.filter fun a => (Dict.keys a.coords).contains name
    let new ← match coord with
      | some s => .ok (some s)
      | none => mergeSummaries (ds.filterMap fun a => a.coords.get? name)
    match new with
    | none => .ok ds
    | some s => .ok (ds.map fun a => ⟨a.plain, a.coords.set name s⟩)

/-- Python `==` of two dictionaries of summaries. -/
def coordsEq (a b : Dict CSummary) : Bool :=
  sameSet a.keys b.keys && a.keys.all fun k => decide (a.get? k = b.get? k)

/-- attrs.py 140-150 and 165-166: equal once NaN is replaced. -/
def AttrSet.sameAs (a b : AttrSet) : Bool := attrsEqual a.plain b.plain && coordsEq a.coords b.coords

/-- attrs.py 152-159, `_keep_eq`. -/
def keepEq (a b : AttrSet) : AttrSet :=
  ⟨a.plain.filter fun p => match b.plain.get? p.1 with
      | some v => p.2.pyEq v
      | none => false,
    if coordsEq a.coords b.coords then a.coords else []⟩

/-- `dict(ChainMap(*dicts))`: the first dictionary having the key wins. -/
def chainMap : List AttrSet → AttrSet
  | [] => ⟨[], []⟩
  | a :: l =>
    let r := chainMap l
    ⟨a.plain ++ r.plain.filter (fun p => !(Dict.keys a.plain).contains p.1), if a.coords = [] then r.coords else a.coords⟩

/-- attrs.py 161-180, `_handle_other_attrs`: the first element of the list, if there is one. -/
def handleOthers (conflicts : Conflicts) (ds : List AttrSet) : Except Err (Option AttrSet) :=
  match conflicts, ds with
  | .keepFirst, ds => .ok (some (chainMap ds))
  | _, [] => .ok none
  | c, a :: l =>
    if l.all fun b => a.sameAs b then .ok (some a)
    else if c = .raise then .error .attributeMergeError
    else .ok (some (l.foldl keepEq a))

/-- core/attrs.py 138-147, `PatchAttrs(**d)`: without `dims` the names of the coordinates are the dimensions. -/
def AttrSet.finish (a : AttrSet) : AttrSet :=
  if (Dict.keys a.plain).contains "dims" || a.coords.isEmpty then a
  else ⟨a.plain ++ [("dims", .val (joinDims (Dict.keys a.coords)))], a.coords⟩

/-- attrs.py 39-189, `combine_patch_attrs`. -/
def combineAttrs (models : List AttrSet) (name : String) (conflicts : Conflicts) (drop : List String)
    (coord : Option CSummary := none) : Except Err AttrSet := do
  let ds ← attrDicts models name drop coord
  let first ← handleOthers conflicts ds
  if models = [] then .error .indexError
  else match first with
    | none => .error .attributeMergeError
    | some a => .ok a.finish

end Verif
