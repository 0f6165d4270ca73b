import Verif.Model.CoordArray
/-!
# Coordinate managers and patches (dascore/core/coordmanager.py, dascore/proc/coords.py)

A numpy array is its shape and the function from multi-indices to elements. Dictionaries are association lists
in insertion order. `coord_map` and `dim_map` of a manager always have the same keys (every constructor call in
the code builds them together), so they are kept as one dictionary `name ↦ (dims, coordinate)`. Units are not
modelled. All exceptions raised by the validators (185-214) are one error value.
-/
namespace Verif

/-- A numpy array. -/
structure Nd (α : Type) where
  shape : List ℕ
  get : List ℕ → α

/-- The positions an indexer picks from an axis of length `n`. -/
def Indexer.positions (x : Indexer) (n : ℕ) : Except Err (List ℕ) := x.apply (List.range n)

/-- misc.py `is_array` of an indexer. -/
def Indexer.isArray : Indexer → Bool
  | .slice _ => false
  | _ => true

namespace Nd
variable {α : Type}

/-- numpy: the sub-array at the positions `ps` of one axis, all other axes complete. -/
def takeAxis (a : Nd α) (axis : ℕ) (ps : List ℕ) : Nd α where
  shape := a.shape.set axis ps.length
  get := fun i => a.get (i.set axis (ps.getD (i.getD axis 0) 0))

/-- numpy `a[:, ..., x, ..., :]` with `x` at position `axis`. -/
def indexAxis (a : Nd α) (axis : ℕ) (x : Indexer) : Except Err (Nd α) :=
  match a.shape[axis]? with
  | none => .error .indexError
  | some n => (x.positions n).map (a.takeAxis axis)

/-- The sub-array with positions `rs[k]` along each axis `k` (the open mesh of the position lists). -/
def outer (a : Nd α) (rs : List (List ℕ)) : Nd α where
  shape := rs.map List.length
  get := fun i => a.get (List.zipWith (fun r j => r.getD j 0) rs i)

/-- numpy `a[tuple(indexers)]` when at most one of them is an array: axes are indexed independently. With two or
more arrays numpy pairs their elements up; that is outside the model (an error value). -/
def indexTuple (a : Nd α) (xs : List Indexer) : Except Err (Nd α) :=
  if 1 < (xs.filter Indexer.isArray).length then .error .notImplemented
  else do
    let rs ← (xs.zip a.shape).mapM fun p => p.1.positions p.2
    return a.outer rs

/-- `np.transpose(a, axes)`. -/
def transpose (a : Nd α) (axes : List ℕ) : Nd α where
  shape := axes.map fun k => a.shape.getD k 0
  get := fun i => a.get ((List.range a.shape.length).map fun k => i.getD (axes.idxOf k) 0)

end Nd

/-- misc.py 689-710, the loop `out = out[broadcast_for_index(ndim, axis, ind)]`. -/
def indexAxes {α} : ℕ → List Indexer → Nd α → Except Err (Nd α)
  | _, [], a => .ok a
  | axis, x :: xs, a => do
    let b ← a.indexAxis axis x
    indexAxes (axis + 1) xs b

/-- misc.py 689-710, `_apply_union_indexers`. -/
def applyUnion {α} (xs : List Indexer) (a : Nd α) : Except Err (Nd α) :=
  if 1 < (xs.filter Indexer.isArray).length then indexAxes 0 xs a else a.indexTuple xs

/-! ### Coordinates held by a manager -/

/-- A coordinate of a manager: one dimensional (with its dtype family), or an array of another rank. -/
inductive MCoord where
  | one (kind : Kind) (c : Coord)
  | nd (a : Nd (Option ℚ))

namespace MCoord

/-- The values as an array (`none` is null). -/
def arr : MCoord → Nd (Option ℚ)
  | .one _ c => ⟨[c.length], fun i => (c.labels.getD (i.getD 0 0) none)⟩
  | .nd a => a

/-- `coord.shape`. -/
def shape (c : MCoord) : List ℕ := c.arr.shape

/-- `len(coord)`. -/
def len (c : MCoord) : ℕ := c.shape.getD 0 0

/-- coordmanager.py 1278-1295, `_get_coord`: everything but an evenly sampled coordinate passes through `get_coord`
again. A partial coordinate (without limits) stays one. -/
def canon : MCoord → Except Err MCoord
  | .one k (.mono vs) => (getCoordData k vs).map (.one k)
  | .one k (.arr vs) => (getCoordData k vs).map (.one k)
  | c => .ok c

/-- coords.py 768-787, `index`. For an all null coordinate the number of samples is all there is (a single null is
kept as a null array by the code). -/
def index (c : MCoord) (x : Indexer) (axis : ℕ) : Except Err MCoord :=
  match c with
  | .one k c =>
    if axis ≠ 0 then .error .assertionError
    else match c with
      | .part n => (x.positions n).map fun ps => .one k (.part ps.length)
      | c => do
        let vs ← x.apply c.vals
        (getCoordData k vs).map (.one k)
  | .nd a => (a.indexAxis axis x).map .nd

/-- coords.py 1229-1249, 1537-1541, 1055-1059, `coord[(..., x, ...)]` (a tuple): an evenly sampled coordinate is
rebuilt by `get_coord`, the array classes keep their class. -/
def getTuple (c : MCoord) (x : Indexer) (axis : ℕ) : Except Err MCoord :=
  match c with
  | .one k (.range r) => do
    let vs ← x.apply r.values
    (getCoordData k vs).map (.one k)
  | .one k (.mono vs) => (x.apply vs).map fun l => .one k (.mono l)
  | .one k (.arr vs) => (x.apply vs).map fun l => .one k (.arr l)
  | .one k (.part n) => (x.positions n).map fun ps => .one k (.part ps.length)
  | .nd a => (a.indexAxis axis x).map .nd

/-- coords.py 808-821, 1327-1355, 1519-1535, 1089-1097: `coord.update(min=, max= or step=)` with a number. -/
def updateAttr (c : MCoord) (attr : String) (v : ℚ) : Except Err MCoord :=
  match c with
  | .one k (.range r) =>
    if attr = "min" then (r.updateLimits (some v) none none).map (.one k)
    else if attr = "max" then (r.updateLimits none (some v) none).map (.one k)
    else if attr = "step" then
      if (if k = .time then decide (v = r.step) else isClose v r.step) then .ok (.one k (.range r))
      else (r.updateLimits none none (some v)).map (.one k)
    else .error .typeError
  | .one k (.part n) => .ok (.one k (.part n))
  | .one k c =>
    if attr = "min" then (ArrCoord.shift k c.vals (c.vals.foldl min (c.vals.getD 0 0)) v).map (.one k)
    else if attr = "max" then (ArrCoord.shift k c.vals (c.vals.foldl max (c.vals.getD 0 0)) v).map (.one k)
    else .error .notImplemented
  | .nd _ => .error .notImplemented

end MCoord

/-! ### Dictionaries -/

/-- A Python dictionary. -/
abbrev Dict (α : Type) := List (String × α)

namespace Dict
variable {α β : Type}

/-- `d.get(k)`. -/
def get? (d : Dict α) (k : String) : Option α := (d.find? fun p => p.1 == k).map Prod.snd

/-- `d[k] = v`. -/
def set (d : Dict α) (k : String) (v : α) : Dict α :=
  if d.any fun p => p.1 == k then d.map fun p => if p.1 == k then (k, v) else p else d ++ [(k, v)]

/-- `d.update(e)`. -/
def update (d e : Dict α) : Dict α := e.foldl (fun d p => d.set p.1 p.2) d

/-- The keys. -/
def keys (d : Dict α) : List String := d.map Prod.fst

end Dict

/-! ### The manager -/

/-- The `coord_map`/`dim_map` dictionary. -/
abbrev Ents := Dict (List String × MCoord)

/-- coordmanager.py 159-183, `CoordManager`. -/
structure CM where
  dims : List String
  ents : Ents

/-- coordmanager.py 192 and 200, `dim_shapes[x][0]`. -/
def Ents.lenOf (e : Ents) (x : String) : ℕ :=
  match e.get? x with
  | some (_, c) => c.len
  | none => 0

/-- coordmanager.py 199-203 for one coordinate: its dimensions exist and its shape is theirs; a coordinate without
dimensions may have any shape. -/
def entryOk (dims : List String) (e : Ents) (ds : List String) (c : MCoord) : Bool :=
  ds.all (fun x => dims.contains x) && (ds == [] || ds.map e.lenOf == c.shape)

/-- coordmanager.py 211-212 for one dimension (and 191-196: it has a coordinate). -/
def dimOk (e : Ents) (d : String) : Bool :=
  match e.get? d with
  | some (ds, _) => ds == [d]
  | none => false

/-- coordmanager.py 185-214, `CoordManager(...)` with its validator. -/
def CM.mk? (dims : List String) (e : Ents) : Except Err CM :=
  if dims.all (dimOk e) && e.all (fun p => entryOk dims e p.2.1 p.2.2) then .ok ⟨dims, e⟩ else .error .coordError

/-- An argument of `update` / `get_coord_manager`: `None`, an array or coordinate, a tuple (dims, array or
coordinate), or a number (for names like `time_min`). An array is an array coordinate that has not been through
`get_coord` yet. -/
inductive CArg where
  | drop
  | simple (c : MCoord)
  | nested (ds : List String) (c : MCoord)
  | value (q : ℚ)

/-- coordmanager.py 1297-1339 for one argument: (dims, coordinate). -/
def parseArg (dims : List String) (name : String) : CArg → Except Err (List String × MCoord)
  | .simple c => if name ∈ dims then c.canon.map fun c => ([name], c) else .error .coordError
  | .nested ds c =>
    if ds.all (fun x => dims.contains x) || (!ds.isEmpty && ds.all fun x => x == name) then
      c.canon.map fun c => (ds, c)
    else .error .coordError
  | _ => .error .typeError

/-- coordmanager.py 1275-1356, `_get_coord_dim_map`. -/
def coordDimMap (coords : Dict CArg) (dims : List String) : Except Err (Ents × List String) := do
  let e ← coords.mapM fun p => (parseArg dims p.1 p.2).map fun x => (p.1, x)
  return (e, dims ++ (e.filter fun p => p.2.1 == [p.1] && !dims.contains p.1).map Prod.fst)

/-- coordmanager.py 1259 and 1271, `get_coord_manager(coords, dims)` of a dictionary. -/
def getCoordManager (coords : Dict CArg) (dims : List String) : Except Err CM := do
  let r ← coordDimMap coords dims
  CM.mk? r.2 r.1

/-- misc.py 439-455: the regular expression `(dim1|dim2|...).*_(step|min|max)` matches a prefix of the name. -/
def matchesPrefixSuffix (dims : List String) (s : String) : Bool :=
  let hasSuffix := fun l : List Char =>
    ["_step", "_min", "_max"].any fun t => l.tails.any fun r => t.toList.isPrefixOf r
  if dims.isEmpty then hasSuffix s.toList
  else dims.any fun d => d.toList.isPrefixOf s.toList && hasSuffix (s.toList.drop d.toList.length)

/-- `item.split("_")` when there is exactly one underscore. -/
def splitTwo (s : String) : Option (String × String) :=
  let l := s.toList
  if l.count '_' = 1 then some (String.ofList (l.takeWhile (· != '_')), String.ofList ((l.dropWhile (· != '_')).drop 1))
  else none

/-- coordmanager.py 310-314 for one keyword. A tuple or array as the new value of a limit is a TypeError. -/
def applyAttr (out : Dict CArg) (p : String × CArg) : Except Err (Dict CArg) :=
  match splitTwo p.1, p.2 with
  | none, _ => .error .valueError
  | some (name, attr), .value v =>
    match out.get? name with
    | none => .error .keyError
    | some (.nested ds c) => (c.updateAttr attr v).map fun c => out.set name (.nested ds c)
    | some _ => .error .typeError
  | some (name, _), _ => if (out.get? name).isNone then .error .keyError else .error .typeError

/-- `None` as a value. -/
def CArg.isDrop : CArg → Bool
  | .drop => true
  | _ => false

namespace CM

/-- coordmanager.py 850-863, `_get_dim_array_dict(keep_coord=True)`. -/
def nested (e : Ents) : Dict CArg := e.map fun p => (p.1, .nested p.2.1 p.2.2)

/-- coordmanager.py 269-284 for one given coordinate. -/
def dimChange (m : CM) (p : String × List String × MCoord) : Except Err (List String) :=
  if p.1 ∉ m.dims then .ok []
  else if p.2.1.length ≠ 1 then .error .assertionError
  else if p.2.2.len = m.ents.lenOf p.1 then .ok []
  else .ok ((m.ents.filter fun q => q.2.1.contains p.1).map Prod.fst)

/-- coordmanager.py 492-528, `drop_coords` (without array). -/
def dropCoords (m : CM) (names : List String) : Except Err CM :=
  if names.any fun n => m.ents.keys.contains n then
    let dimDrop := (m.ents.filter fun p => p.2.1.any fun d => names.contains d).map Prod.fst
    CM.mk? (m.dims.filter fun d => !dimDrop.contains d)
      (m.ents.filter fun p => !(dimDrop.contains p.1 || names.contains p.1))
  else .ok m

/-- coordmanager.py 249-317, `update`. -/
def update (m : CM) (kw : Dict CArg) : Except Err CM := do
  let attrs := kw.filter fun p => matchesPrefixSuffix m.dims p.1
  let kw := kw.filter fun p => !matchesPrefixSuffix m.dims p.1
  let toDrop := (kw.filter fun p => p.2.isDrop).map Prod.fst
  let toAdd := kw.filter fun p => !p.2.isDrop
  let r ← coordDimMap toAdd m.dims
  let indirect ← r.1.mapM m.dimChange
  let coords ← m.dropCoords (toDrop ++ indirect.flatten)
  let out ← attrs.foldlM applyAttr ((nested coords.ents).update toAdd)
  getCoordManager out (r.2.filter fun d => !toDrop.contains d)

/-- coordmanager.py 545, one item. -/
def disArg (e : Ents) (n : String) : Except Err CArg :=
  match e.get? n with
  | some (_, c) => .ok (.nested [] c)
  | none => .error .keyError

/-- coordmanager.py 530-546, `disassociate_coord`. -/
def disassociate (m : CM) (names : List String) : Except Err CM := do
  let new ← names.dedup.mapM fun n => (disArg m.ents n).map fun a => (n, a)
  let d ← m.dropCoords names
  d.update new

/-- coordmanager.py 571-591, the loop of `set_dims`. -/
def setDimsLoop (e : Ents) : List (String × String) → List String → Except Err (List String)
  | [], dims => .ok dims
  | (old, new) :: kw, dims =>
    match e.get? new, e.get? old with
    | some (_, c), some (_, o) =>
      if old ∉ dims then .error .coordError
      else if o.shape ≠ c.shape ∨ c.shape.length ≠ 1 then .error .coordError
      else setDimsLoop e kw (dims.set (dims.idxOf old) new)
    | none, _ => .error .coordError
    | _, none => .error .keyError

/-- coordmanager.py 593-595: a dimension is replaced by the name now at its place. -/
def swapDim (old new : List String) (d : String) : String := new.getD (old.idxOf d) d

/-- coordmanager.py 561-596, `set_dims`. -/
def setDims (m : CM) (kw : List (String × String)) : Except Err CM := do
  let dims ← setDimsLoop m.ents kw m.dims
  CM.mk? dims (m.ents.map fun p => (p.1, p.2.1.map (swapDim m.dims dims), p.2.2))

/-- An argument of `transpose`: a name or `...`. -/
inductive TDim where
  | dim (s : String)
  | dots
  deriving DecidableEq, Repr

/-- The name, if any. -/
def TDim.name? : TDim → Option String
  | .dim s => some s
  | .dots => none

/-- coordmanager.py 903-905: what one entry of the request stands for. -/
def expand (rest : List String) : TDim → List String
  | .dim s => [s]
  | .dots => rest

/-- coordmanager.py 892-913, `_get_transpose_dims`. `old_list.remove` of an unknown name is a ValueError. -/
def transposeDims (new : List TDim) (old : List String) : Except Err (List String) :=
  if ¬ new.Nodup then .error .parameterError
  else
    let names := new.filterMap TDim.name?
    if ¬ names.all (fun n => old.contains n) then .error .valueError
    else
      let rest := names.foldl List.erase old
      let full := new.flatMap (expand rest)
      if full.all (fun n => old.contains n) && old.all (fun n => full.contains n) then .ok full
      else .error .parameterError

/-- coordmanager.py 889-919, `transpose` (also proc/coords.py 613-622: unknown names raise). -/
def transpose (m : CM) (new : List TDim) : Except Err CM := do
  let new := if new.isEmpty then m.dims.reverse.map .dim else new
  let dims ← transposeDims new m.dims
  if dims = m.dims then return m else CM.mk? dims m.ents

/-- coordmanager.py 945-952, one step of `rename_coord`. `pop` of an unknown name is a KeyError. -/
def renameStep (m : CM) (p : String × String) : Except Err CM :=
  if p.1 = p.2 then .ok m
  else
    let ents : Ents := if p.1 ∈ m.dims then
        m.ents.map fun q => (q.1, q.2.1.map fun d => if d = p.1 then p.2 else d, q.2.2)
      else m.ents
    let dims := if p.1 ∈ m.dims then m.dims.set (m.dims.idxOf p.1) p.2 else m.dims
    match ents.get? p.1 with
    | none => .error .keyError
    | some v => .ok ⟨dims, Dict.set (ents.filter fun q => q.1 != p.1) p.2 v⟩

/-- coordmanager.py 921-955, `rename_coord`. -/
def rename (m : CM) (kw : List (String × String)) : Except Err CM := do
  let r ← kw.foldlM renameStep m
  CM.mk? r.dims r.ents

/-- coordmanager.py 972-973: the dimensions to squeeze. -/
def squeezeNames (m : CM) (dim : Option (List String)) : List String :=
  dim.getD (m.dims.filter fun d => decide (m.ents.lenOf d ≤ 1))

/-- coordmanager.py 957-990, `squeeze`. -/
def squeeze (m : CM) (dim : Option (List String)) : Except Err CM :=
  let dim := m.squeezeNames dim
  if dim.any fun d => !m.dims.contains d then .error .coordError
  else if dim.any fun d => decide (1 < m.ents.lenOf d) then .error .coordError
  else m.dropCoords dim

/-- The reversing slice. -/
def revSlice : Indexer := .slice ⟨none, none, some (-1)⟩

/-- coordmanager.py 1170-1179 for one coordinate depending on `name`; `e` is the manager's own dictionary, so
earlier flips of a coordinate with several dimensions are forgotten. -/
def flipOne (e : Ents) (name : String) (out : Dict CArg) (assoc : String) : Except Err (Dict CArg) :=
  match e.get? assoc with
  | some (ds, c) => (c.getTuple revSlice (if assoc = name then 0 else ds.idxOf name)).map
      fun c => out.set assoc (.nested ds c)
  | none => .error .coordError

/-- coordmanager.py 1160-1179 for one name. -/
def flipStep (e : Ents) (out : Dict CArg) (name : String) : Except Err (Dict CArg) :=
  match e.get? name with
  | none => .error .coordError
  | some (_, c) =>
    if c.shape.length ≠ 1 then .error .coordError
    else do
      let out ← flipOne e name out name
      ((e.filter fun p => p.2.1.contains name && p.1 != name).map Prod.fst).foldlM (flipOne e name) out

/-- coordmanager.py 1141-1181, `flip`. -/
def flip (m : CM) (names : List String) : Except Err CM := do
  let out ← names.foldlM (flipStep m.ents) []
  m.update out

/-! ### Selecting and ordering -/

end CM

/-- What `select` and `order` accept for one coordinate: limits; sample slices; arrays of values, booleans, or
sample numbers; and the two forms of `order`. Relative values are limits already converted. -/
inductive CQuery where
  | between (a b : Option ℚ)
  | slice (s : SampleArg)
  | values (vs : List ℚ)
  | mask (m : List Bool)
  | samples (ix : List ℤ)
  | order (vs : List ℚ)
  | orderSamples (ix : List ℤ)

/-- coords.py 1234-1249, 1537-1541, 1055-1059: `coord[slice]`. -/
def Coord.getSlice (c : Coord) (s : PySlice) : Except Err Coord :=
  match c with
  | .range r => r.getSlice s
  | .mono vs => (pySlice vs s).map .mono
  | .arr vs => (pySlice vs s).map .arr
  | .part n => ((Indexer.slice s).positions n).map fun ps => .part ps.length

/-- coords.py 1248-1249, 1537-1541, 1055-1059: `coord[boolean array]`. -/
def Coord.getMask (kind : Kind) (c : Coord) (m : List Bool) : Except Err Coord :=
  if m.length ≠ c.length then .error .indexError
  else match c with
    | .range r => getCoordData kind (maskIdx r.values m)
    | .mono vs => .ok (.mono (maskIdx vs m))
    | .arr vs => .ok (.arr (maskIdx vs m))
    | .part n => .ok (.part (maskIdx (List.range n) m).length)

/-- coords.py 337-347 with 411-417: `order(samples=True)`: out of range numbers are dropped, negative ones wrap in
the coordinate; the indexer for the data is `_maybe_array_to_slice` of the numbers. -/
def Coord.orderBySamples (kind : Kind) (c : Coord) (ix : List ℤ) : Except Err (Coord × Indexer) := do
  let ix := c.orderSampleInds ix
  let ps ← takeInts (List.range c.length) ix
  let d ← c.getInts kind ps
  return (d, maybeArrayToSlice ix c.length)

/-- coords.py 1099-1118 (`CoordPartial`), 1279-1292, 1450-1473, 1561-1584, 349-417: `coord.select` and
`coord.order` by argument. -/
def Coord.query (argsort : List ℚ → List ℕ) (kind : Kind) (c : Coord) : CQuery → Except Err (Coord × Indexer)
  | .between a b =>
    match c with
    | .range r => (r.select (a, b)).map fun p => (p.1, .slice p.2)
    | .mono vs => (MonoCoord.select kind vs (a, b)).map fun p => (p.1, .slice p.2)
    | .arr vs => ArrCoord.select kind vs (a, b)
    | .part n => if a = none ∧ b = none then .ok (.part n, .slice {}) else .error .coordError
  | .slice s => (c.getSlice (toSlice s)).map fun d => (d, .slice (toSlice s))
  | .values vs =>
    match c with
    | .part _ => .error .coordError
    | c => (c.getMask kind (c.vals.map fun v => decide (v ∈ vs))).map
        fun d => (d, .mask (c.vals.map fun v => decide (v ∈ vs)))
  | .mask m =>
    match c with
    | .part _ => .error .coordError
    | c => (c.getMask kind m).map fun d => (d, .mask m)
  | .samples ix =>
    let m := (List.range c.length).map fun j : ℕ => decide ((j : ℤ) ∈ ix)
    (c.getMask kind m).map fun d => (d, .mask m)
  | .order vs => c.order argsort kind vs
  | .orderSamples ix => c.orderBySamples kind ix

namespace CM

/-- coordmanager.py 992-1015, `decimate`: the coordinate and the slices for the data. -/
def decimate (m : CM) (dim : String) (n : ℤ) : Except Err (CM × List Indexer) :=
  if dim ∉ m.dims then .error .assertionError
  else
    match m.ents.get? dim with
    | some (_, .one k c) => do
      let sl : PySlice := ⟨none, none, some n⟩
      let d ← c.getSlice sl
      let new ← m.update [(dim, .simple (.one k d))]
      return (new, new.dims.map fun d => if d = dim then Indexer.slice sl else .slice {})
    | _ => .error .keyError

/-- coordmanager.py 104-116, one associated coordinate. -/
def indirectOne (m : CM) (dim : String) (x : Indexer) (new : Ents) (n : String) : Except Err Ents :=
  match new.get? n, m.ents.get? n with
  | some (ds, c), some (ds', _) => (c.index x (ds'.idxOf dim)).map fun c => new.set n (ds, c)
  | _, _ => .error .keyError

/-- coordmanager.py 104-116, `_indirect_coord_updates`. -/
def indirect (m : CM) (dim name : String) (x : Indexer) (new : Ents) : Except Err Ents :=
  ((m.ents.filter fun p => p.2.1.contains dim && p.1 != name).map Prod.fst).foldlM (m.indirectOne dim x) new

/-- coordmanager.py 129-154 for one keyword: the new coordinates and the indexers so far. -/
def selStep (argsort : List ℚ → List ℕ) (m : CM) (st : Ents × Dict Indexer) (p : String × CQuery) :
    Except Err (Ents × Dict Indexer) :=
  match m.ents.get? p.1 with
  | none => .error .assertionError
  | some (_, .nd _) => .error .coordError
  | some (ds, .one k c) => do
    let r ← c.query argsort k p.2
    match ds with
    | [] => return (st.1.set p.1 (ds, .one k r.1), st.2)
    | d :: _ =>
      let new ← m.indirect d p.1 r.2 (st.1.set p.1 (ds, .one k r.1))
      return (new, st.2.set d r.2)

/-- coordmanager.py 119-156, `_get_indexers_and_new_coords_dict`. -/
def indexersAndCoords (argsort : List ℚ → List ℕ) (m : CM) (kw : Dict CQuery) : Except Err (Ents × List Indexer) := do
  let st ← kw.foldlM (m.selStep argsort) (m.ents, m.dims.map fun d => (d, Indexer.slice {}))
  return (st.1, m.dims.map fun d => (st.2.get? d).getD (.slice {}))

/-- coordmanager.py 598-613, `_get_single_dim_kwarg_list`: at most one coordinate per dimension in each group. The
keywords are taken as already sorted by name; names that are not coordinates are dropped. The order of
the keywords inside a group has no effect. -/
def groups (m : CM) (kw : Dict CQuery) : List (Dict CQuery) :=
  let used := kw.filter fun p => m.ents.keys.contains p.1
  let dimsOf := fun n => ((m.ents.get? n).map Prod.fst).getD []
  if (used.map fun p => dimsOf p.1).Nodup then [used]
  else
    let cols := (used.map fun p => dimsOf p.1).dedup.map fun ds => used.filter fun p => dimsOf p.1 == ds
    (List.range ((cols.map List.length).foldl max 0)).map fun i : ℕ => cols.filterMap fun c => c[i]?

/-- coordmanager.py 653-656, one group, without the array: the new manager and the indexers. -/
def groupCM (argsort : List ℚ → List ℕ) (m : CM) (kw : Dict CQuery) : Except Err (CM × List Indexer) := do
  let r ← m.indexersAndCoords argsort kw
  let cm ← m.update (nested r.1)
  return (cm, r.2)

/-- coordmanager.py 653-657, one group. -/
def selectGroup {α} (argsort : List ℚ → List ℕ) (s : CM × Nd α) (kw : Dict CQuery) : Except Err (CM × Nd α) := do
  let r ← s.1.groupCM argsort kw
  let a ← applyUnion r.2 s.2
  return (r.1, a)

/-- coordmanager.py 616-695, `select` and `order` with an array. -/
def select {α} (argsort : List ℚ → List ℕ) (m : CM) (a : Nd α) (kw : Dict CQuery) : Except Err (CM × Nd α) :=
  (m.groups kw).foldlM (selectGroup argsort) (m, a)

/-- coordmanager.py 616-695, `select` and `order` without an array. -/
def selectCM (argsort : List ℚ → List ℕ) (m : CM) (kw : Dict CQuery) : Except Err CM :=
  (m.groups kw).foldlM (fun m kw => (m.groupCM argsort kw).map Prod.fst) m

/-! ### Sorting and snapping -/

/-- coords.py 1294-1307, 1475-1481, 1106: `coord.sort`. -/
def sortCoord (argsort : List ℚ → List ℕ) (kind : Kind) (c : Coord) (reverse : Bool) : Except Err (Coord × Indexer) :=
  match c with
  | .range r => (r.sort reverse).map fun p => (p.1, .slice p.2)
  | .mono vs => ArrCoord.sort argsort kind vs reverse
  | .arr vs => ArrCoord.sort argsort kind vs reverse
  | .part n => .ok (.part n, .slice {})

/-- coordmanager.py 409-417 for one related coordinate. -/
def sortRelated (m : CM) (dim : String) (x : Indexer) (new : Ents) (n : String) : Except Err Ents :=
  match new.get? n, m.ents.get? n with
  | some (ds, c), some (ds', _) => (c.getTuple x (ds'.idxOf dim)).map fun c => new.set n (ds, c)
  | _, _ => .error .keyError

/-- coordmanager.py 400-406 for one coordinate: the new dictionary and the indexers (axis, indexer) for the data. -/
def sortStep (argsort : List ℚ → List ℕ) (reverse : Bool) (m : CM) (st : Ents × List (ℕ × Indexer)) (name : String) :
    Except Err (Ents × List (ℕ × Indexer)) :=
  match m.ents.get? name with
  | some (d :: ds, .one k c) => do
    let r ← sortCoord argsort k c reverse
    let new ← ((m.ents.filter fun p => p.2.1.contains d && p.1 != name).map Prod.fst).foldlM (m.sortRelated d r.2)
      (st.1.set name (d :: ds, .one k r.1))
    return (new, st.2 ++ [(m.dims.idxOf d, r.2)])
  | some ([], _) => .error .indexError
  | _ => .error .coordSortError

/-- coordmanager.py 379-394, `_validate_coords`. -/
def sortValid (m : CM) (names : List String) : Except Err Unit :=
  let dims := names.map fun n => ((m.ents.get? n).map Prod.fst).getD []
  if names.any fun n => !m.ents.keys.contains n then .error .keyError
  else if dims.any fun ds => decide (1 < ds.length) then .error .coordSortError
  else if names.length ≠ 1 ∧ ¬ dims.flatten.Nodup then .error .coordSortError
  else .ok ()

/-- coordmanager.py 425: is the coordinate in the requested order already? A coordinate of rank two or more is
never sorted. -/
def isSortedAs (reverse : Bool) : MCoord → Bool
  | .one _ c => if reverse then c.isReverse else c.isSorted
  | .nd _ => false

/-- coordmanager.py 425 for one name. -/
def needsSort (m : CM) (reverse : Bool) (n : String) : Bool :=
  match m.ents.get? n with
  | some (_, c) => !isSortedAs reverse c
  | none => false

/-- coordmanager.py 419-433, `sort` up to the array: the new manager and the indexers for the data. -/
def sortCM (argsort : List ℚ → List ℕ) (m : CM) (names : List String) (reverse : Bool) :
    Except Err (CM × List (ℕ × Indexer)) := do
  let names := if names.isEmpty then m.dims else names
  sortValid m names
  let todo := names.filter (m.needsSort reverse)
  if todo.isEmpty then return (m, [])
  else
    let r ← todo.foldlM (sortStep argsort reverse m) (m.ents, [])
    let cm ← CM.mk? m.dims r.1
    return (cm, r.2)

/-- coordmanager.py 358-435, `sort` with the data array. -/
def sort {α} (argsort : List ℚ → List ℕ) (m : CM) (a : Nd α) (names : List String) (reverse : Bool) :
    Except Err (CM × Nd α) := do
  let r ← m.sortCM argsort names reverse
  let a ← r.2.foldlM (fun a x => a.indexAxis x.1 x.2) a
  return (r.1, a)

/-- coordmanager.py 819-826, `shape`. -/
def shape (m : CM) : List ℕ := if m.dims = [] then [0] else m.dims.map m.ents.lenOf

end CM

/-! ### Histories -/

/-- The operations on a coordinate manager. -/
inductive CMOp where
  | update (kw : Dict CArg)
  | drop (names : List String)
  | disassociate (names : List String)
  | setDims (kw : List (String × String))
  | rename (kw : List (String × String))
  | transpose (dims : List CM.TDim)
  | squeeze (dim : Option (List String))
  | decimate (dim : String) (n : ℤ)
  | flip (names : List String)
  | select (kw : Dict CQuery)
  | sort (names : List String) (reverse : Bool)

/-- One operation. -/
def CM.step (argsort : List ℚ → List ℕ) (m : CM) : CMOp → Except Err CM
  | .update kw => m.update kw
  | .drop names => m.dropCoords names
  | .disassociate names => m.disassociate names
  | .setDims kw => m.setDims kw
  | .rename kw => m.rename kw
  | .transpose dims => m.transpose dims
  | .squeeze dim => m.squeeze dim
  | .decimate dim n => (m.decimate dim n).map Prod.fst
  | .flip names => m.flip names
  | .select kw => m.selectCM argsort kw
  | .sort names reverse => (m.sortCM argsort names reverse).map Prod.fst

/-! ### Patches -/

/-- A patch without its attributes. -/
structure PatchM (α : Type) where
  cm : CM
  data : Nd α

namespace PatchM
variable {α : Type}

/-- core/patch.py 169-186 and coordmanager.py 838-848: a patch is only built when the shapes agree. -/
def new (m : CM) (a : Nd α) : Except Err (PatchM α) := if m.shape = a.shape then .ok ⟨m, a⟩ else .error .coordError

/-- proc/coords.py 511-531, `Patch.select`. The shortcut of line 527 (returning the original when neither shape nor
coordinates changed) is not modelled. -/
def select (argsort : List ℚ → List ℕ) (p : PatchM α) (kw : Dict CQuery) : Except Err (PatchM α) :=
  if kw.any fun q => !p.cm.ents.keys.contains q.1 then .error .patchCoordinateError
  else do
    let r ← p.cm.select argsort p.data kw
    new r.1 r.2

/-- proc/coords.py 577-585, `Patch.order`: unknown names are ignored. -/
def order (argsort : List ℚ → List ℕ) (p : PatchM α) (kw : Dict CQuery) : Except Err (PatchM α) := do
  let r ← p.cm.select argsort p.data kw
  new r.1 r.2

/-- proc/coords.py 93-99, `Patch.sort_coords`. -/
def sortCoords (argsort : List ℚ → List ℕ) (p : PatchM α) (names : List String) (reverse : Bool) :
    Except Err (PatchM α) := do
  let r ← p.cm.sort argsort p.data names reverse
  new r.1 r.2

/-- proc/coords.py 613-632, `Patch.transpose`. -/
def transpose (p : PatchM α) (dims : List CM.TDim) : Except Err (PatchM α) := do
  let cm ← p.cm.transpose dims
  new cm (p.data.transpose (cm.dims.map fun d => p.cm.dims.idxOf d))

/-- proc/coords.py 209-230, `Patch.rename_coords`. -/
def rename (p : PatchM α) (kw : List (String × String)) : Except Err (PatchM α) := do
  let cm ← p.cm.rename kw
  new cm p.data

end PatchM

end Verif
