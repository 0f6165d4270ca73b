import Verif.Model.Equality
/-!
# Patch functions and their history (dascore/utils/patch.py 78-309)

A patch is what the decorator looks at: its dimensions, the names of its coordinates, its attributes, its history, and a
content (data and coordinates) only the functions use. `validate_call` (checking the types of the arguments) and the
formatting of single argument values (lines 58-75) are not modelled: an argument comes with its formatted value.
-/
namespace Verif

/-- core/attrs.py 121: `history: str | tuple[str, ...]`. -/
inductive Hist where
  | text (s : String)
  | items (l : List String)
  deriving DecidableEq, Repr

/-- `list(history)`: a string is split into its characters. -/
def Hist.toList : Hist → List String
  | .text s => s.toList.map fun c => String.ofList [c]
  | .items l => l

/-- A patch. -/
structure TPatch (δ : Type) where
  dims : List String
  coords : List String
  attrs : Dict AVal
  history : Hist
  content : δ

/-- What a patch function returns: the very patch it was given, another patch, or something that is no patch. -/
inductive Returned (δ : Type) where
  | same
  | fresh (p : TPatch δ)
  | value

/-- utils/patch.py 187 and 203-207, how to record a call. -/
inductive HistMode where
  | full | methodName | off
  deriving DecidableEq, Repr

/-- The attributes required: their names, or their names and values. -/
inductive AttrReq where
  | names (l : List String)
  | values (d : Dict AVal)

/-- A decorated function together with its arguments (`none` for `None`). -/
structure PatchFn (δ : Type) where
  name : String
  args : List (String × Option String) := []
  requiredDims : List String := []
  requiredCoords : List String := []
  requiredAttrs : AttrReq := .names []
  mode : HistMode := .full
  dataType : Option String := none
  body : TPatch δ → Except Err (Returned δ)

/-- utils/patch.py 78-95, `_func_and_kwargs_str`. -/
def callStr (name : String) (args : List (String × Option String)) : String :=
  let shown := args.filterMap fun a => a.2.map fun v => a.1 ++ "=" ++ v
  name ++ "(" ++ ",".intercalate (shown.insertionSort (· ≤ ·)) ++ ")"

/-- utils/patch.py 98-121, `_get_history_str`. -/
def PatchFn.entry {δ : Type} (f : PatchFn δ) : Option String :=
  match f.mode with
  | .off => none
  | .full => some (callStr f.name f.args)
  | .methodName => some f.name

/-- utils/patch.py 124-151, `check_patch_coords`. -/
def checkPatchCoords {δ : Type} (f : PatchFn δ) (p : TPatch δ) : Except Err Unit :=
  if (f.requiredDims.filter fun d => !p.dims.contains d) ++ (f.requiredCoords.filter fun c => !p.coords.contains c) = [] then .ok ()
  else .error .patchCoordinateError

/-- utils/patch.py 168-173 for required values: `patch_attrs[i]` raises AttributeError if there is no such attribute. -/
def checkValues (d attrs : Dict AVal) : Except Err Unit :=
  if !d.all fun a => (Dict.keys attrs).contains a.1 then .error .attributeError
  else if d.all fun a => match attrs.get? a.1 with
    | some v => v.pyEq a.2
    | none => false then .ok ()
  else .error .patchAttributeError

/-- utils/patch.py 154-180, `check_patch_attrs`. -/
def checkPatchAttrs {δ : Type} (f : PatchFn δ) (p : TPatch δ) : Except Err Unit :=
  match f.requiredAttrs with
  | .names l => if l.all fun k => (Dict.keys p.attrs).contains k then .ok () else .error .patchAttributeError
  | .values d => checkValues d p.attrs

/-- proc/basic.py 96-133 for `data_type`. -/
def TPatch.setType {δ : Type} (p : TPatch δ) (t : Option String) : TPatch δ :=
  match t with
  | none => p
  | some s => { p with attrs := p.attrs.set "data_type" (.val s) }

/-- utils/patch.py 287-291 and 129-130: append an entry. An empty string is not recorded. -/
def TPatch.record {δ : Type} (p : TPatch δ) (e : Option String) : TPatch δ :=
  match e with
  | none => p
  | some s => if s = "" then p else { p with history := .items (p.history.toList ++ [s]) }

/-- utils/patch.py 281-295: what the decorator does with the result. -/
def PatchFn.finish {δ : Type} (f : PatchFn δ) (p : TPatch δ) : Returned δ → Returned δ
  | .same =>
    match f.dataType with
    | none => .same
    | some _ => .fresh (p.setType f.dataType)
  | .fresh q => .fresh ((q.setType f.dataType).record f.entry)
  | .value => .value

/-- utils/patch.py 273-296, calling the decorated function. -/
def PatchFn.call {δ : Type} (f : PatchFn δ) (p : TPatch δ) : Except Err (Returned δ) := do
  checkPatchCoords f p
  checkPatchAttrs f p
  let out ← f.body p
  .ok (f.finish p out)

/-- The patch a result stands for; anything else has no patch functions. -/
def Returned.patch {δ : Type} (p : TPatch δ) : Returned δ → Except Err (TPatch δ)
  | .same => .ok p
  | .fresh q => .ok q
  | .value => .error .attributeError

/-- Calling one function after the other: `patch.f(...).g(...)`. -/
def runAll {δ : Type} : List (PatchFn δ) → TPatch δ → Except Err (TPatch δ)
  | [], p => .ok p
  | f :: fs, p => do
    let r ← f.call p
    let q ← r.patch p
    runAll fs q

/-! ### Functions of the library -/

/-- A body ending in `patch.new(data=...)` or the like, keeping the attributes. -/
def newBody {δ : Type} (work : TPatch δ → Except Err δ) (p : TPatch δ) : Except Err (Returned δ) := do
  let c ← work p
  .ok (.fresh { p with content := c })

/-- proc/coords.py 233-259, `update_coords` of one coordinate. -/
def updateCoordsFn {δ : Type} (dim value : String) (work : TPatch δ → Except Err δ) : PatchFn δ :=
  { name := "update_coords", args := [(dim, some value)], body := newBody work }

/-- proc/basic.py 667-709, the body of `roll`: with `update_coord` it calls `patch.update_coords`. -/
def rollBody {δ : Type} (dim newCoord : String) (updateCoord : Bool) (relabel shift : TPatch δ → Except Err δ) (p : TPatch δ) :
    Except Err (Returned δ) :=
  if updateCoord then do
    let r ← (updateCoordsFn dim newCoord relabel).call p
    let q ← r.patch p
    newBody shift q
  else newBody shift p

/-- proc/basic.py 666-709, `roll`. -/
def rollFn {δ : Type} (dim value newCoord : String) (updateCoord : Bool) (relabel shift : TPatch δ → Except Err δ) : PatchFn δ :=
  { name := "roll", args := [("samples", some "'True'"), ("update_coord", some (if updateCoord then "'True'" else "'False'")), (dim, some value)]
    body := rollBody dim newCoord updateCoord relabel shift }

/-- A body that calls decorated functions one after the other and then makes its own patch (as `whiten`, `slope_filter`,
`fbe`, `tau_p` and `dispersion_phase_shift` do). -/
def nestedBody {δ : Type} (inner : List (PatchFn δ)) (work : TPatch δ → Except Err δ) (p : TPatch δ) : Except Err (Returned δ) := do
  let q ← runAll inner p
  newBody work q

end Verif
