import Verif.Model.PatchOps
/-!
# Patches as data frames and data arrays

`/repo/dascore/utils/pd.py` 540-606 and `/repo/dascore/utils/io.py` 166-194. What pandas and xarray do with arrays is assumed: they keep the values, the labels and their dtype. Attributes
are left out; the ones of a patch agree with its coordinates, so that giving them back changes no labels (`update_from_attrs`, Model/PatchAttrs).
-/
namespace Verif
variable {α : Type}

/-- `coord.values`, as given to pandas or xarray and back to `get_coord`: an array which has not been through `get_coord` yet. Nulls only become a coordinate without values again (for a
single null the model keeps the null). -/
def MCoord.plain : MCoord → MCoord
  | .one k (.range r) => .one k (.arr r.values)
  | .one k (.mono vs) => .one k (.arr vs)
  | c => c

/-- coords.py: `coord._partial`. -/
def MCoord.noValues : MCoord → Bool
  | .one _ (.part _) => true
  | _ => false

/-- coordmanager.py 1258-1271, `get_coord_manager(coords, dims, shape=shape)`: dimensions without a coordinate get one without values. -/
def shapedManager (coords : Dict CArg) (dims : List String) (shape : List ℕ) : Except Err CM := do
  let r ← coordDimMap coords dims
  CM.mk? r.2 (r.1 ++ (r.2.filter fun d => !(Dict.keys r.1).contains d).map fun d => (d, [d], MCoord.one .float (.part (shape.getD (r.2.idxOf d) 0))))

/-- core/patch.py 113-125, `Patch(data, coords, dims)` with dictionaries. -/
def patchOf (data : Nd α) (coords : Dict CArg) (dims : List String) : Except Err (PatchM α) := do
  let cm ← shapedManager coords dims data.shape
  PatchM.new cm data

/-! ### Data frames -/

/-- A data frame of pandas: values, labels of rows and columns, and what these are called. -/
structure DataFrame (α : Type) where
  data : Nd α
  index : MCoord
  columns : MCoord
  indexName : Option String
  columnName : Option String

/-- The labels of the dimension. -/
def PatchM.dimValues (p : PatchM α) (d : String) : Except Err MCoord :=
  match p.cm.ents.get? d with
  | some (_, c) => .ok c.plain
  | none => .error .coordError

/-- pd.py 540-568, `patch_to_dataframe`. -/
def PatchM.toFrame (p : PatchM α) : Except Err (DataFrame α) :=
  match p.cm.dims with
  | [a, b] => do
    let i ← p.dimValues a
    let c ← p.dimValues b
    .ok ⟨p.data, i, c, some a, some b⟩
  | _ => .error .assertionError

/-- The entry "dims" of the attributes given to `dataframe_to_patch`: there is none, a tuple of names, or (`PatchAttrs.dims`, core/attrs.py 126) the names in one string. -/
inductive DimsAttr where
  | missing
  | names (ds : List String)
  | text (s : String)

/-- pd.py 588-592: a name that is missing or empty. -/
def noName (x : Option String) : Bool := x == none || x == some ""

/-- pd.py 586-600, `_get_column_names`. A string is taken for the sequence of its characters: of these the first two would be names, and for the others there is no axis (602-604,
coordmanager.py 1263), an IndexError. Other numbers of names than two are the same case. -/
def DataFrame.dimNames (f : DataFrame α) (attrs : Option DimsAttr) : Except Err (String × String) :=
  if noName f.indexName || noName f.columnName then
    match attrs with
    | none => .error .valueError
    | some .missing => .error .valueError
    | some (.names ds) =>
      if ds.any fun s => s == "" then .error .valueError
      else
        match ds with
        | [a, b] => .ok (a, b)
        | _ => .error .indexError
    | some (.text _) => .error .indexError
  else .ok (f.indexName.getD "", f.columnName.getD "")

/-- pd.py 571-606, `dataframe_to_patch`. -/
def DataFrame.toPatch (f : DataFrame α) (attrs : Option DimsAttr) : Except Err (PatchM α) := do
  let n ← f.dimNames attrs
  patchOf f.data (Dict.set [(n.1, CArg.simple f.index)] n.2 (.simple f.columns)) [n.1, n.2]

/-! ### Data arrays -/

/-- A data array of xarray: values, dimensions, and coordinates with their dimensions. -/
structure XArray (α : Type) where
  data : Nd α
  dims : List String
  coords : Ents

/-- io.py 166-178, `patch_to_xarray`. Of a coordinate xarray demands as many dimensions as its array has. -/
def PatchM.toXArray (p : PatchM α) : Except Err (XArray α) :=
  let es := p.cm.ents.filter fun e => !e.2.2.noValues
  if es.all fun e => e.2.1.length == e.2.2.shape.length then .ok ⟨p.data, p.cm.dims, es.map fun e => (e.1, e.2.1, e.2.2.plain)⟩ else .error .valueError

/-- io.py 181-194, `xarray_to_patch`. -/
def XArray.toPatch (x : XArray α) : Except Err (PatchM α) := patchOf x.data (x.coords.map fun e => (e.1, CArg.nested e.2.1 e.2.2)) x.dims

end Verif
