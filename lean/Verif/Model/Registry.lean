import Mathlib.Data.List.Sort
import Mathlib.Data.String.Basic
import Verif.Model.CoordManager
/-!
# The registry of file formats (dascore/io/core.py 103-389)

Warnings are not modelled. `str.upper` is that of ASCII. The attributes `_format_version` and `_extension_list` are default
dictionaries: looking up a missing key adds an empty value, which no method can tell from a missing one.
-/
namespace Verif

/-- `s.upper()`. -/
def upperS (s : String) : String := String.ofList (s.toList.map Char.toUpper)

/-- io/core.py 453-597, a `FiberIO` instance: its name, version, `preferred_extensions` and `input_type`. `uid` tells instances
apart (they are compared by identity). -/
structure Fiber where
  name : String
  version : String
  exts : List String
  inputType : String
  uid : ℕ
  deriving DecidableEq, Repr

/-- What identifies a reader to the registry (io/core.py 205). -/
def Fiber.key (f : Fiber) : String × String := (upperS f.name, f.version)

/-- An entry point: its name and the reader which loading it gives (`none`: loading raises). Importing the module of one reader
may register others; this is not modelled. -/
structure EntryPoint where
  name : String
  fiber : Option Fiber
  deriving DecidableEq, Repr

/-- io/core.py 110-119, the state of `_FiberIOManager`. `known` is the cached property `known_formats`; `prior`, `snaps` and `lookups`
are the caches of `_get_prioritized_list`, `_get_fiber_io_by_input_type` and `get_fiberio`. -/
structure Registry where
  eps : List EntryPoint
  forms : Dict (Dict Fiber) := []
  exts : Dict (List Fiber) := []
  types : Dict (List Fiber) := []
  seen : List (String × String) := []
  failed : List String := []
  known : Option (List String) := none
  prior : Dict (List Fiber) := []
  snaps : Dict (List Fiber) := []
  lookups : List ((String × Option String) × Fiber) := []
  deriving Repr

/-- `name.split("__", maxsplit=1)[0]`. -/
def beforeDunder : List Char → List Char
  | [] => []
  | '_' :: '_' :: _ => []
  | c :: l => c :: beforeDunder l

namespace Registry

/-- The readers of a format by version. -/
def form (s : Registry) (fmt : String) : Dict Fiber := (s.forms.get? fmt).getD []

/-- The readers registered with an extension. -/
def extList (s : Registry) (ext : String) : List Fiber := (s.exts.get? ext).getD []

/-- The readers registered with an input type. -/
def typeList (s : Registry) (t : String) : List Fiber := (s.types.get? t).getD []

/-- io/core.py 203-214, `register_fiberio`. -/
def register (s : Registry) (f : Fiber) : Registry :=
  if s.seen.contains f.key then s
  else { s with
    exts := f.exts.foldl (fun e x => e.set x ((e.get? x).getD [] ++ [f])) s.exts
    forms := s.forms.set (upperS f.name) ((s.form (upperS f.name)).set f.version f)
    types := s.types.set f.inputType (s.typeList f.inputType ++ [f])
    seen := s.seen ++ [f.key] }

/-- io/core.py 131-132: the formats known by the names of entry points and from registration. -/
def computeKnown (s : Registry) : List String :=
  (s.eps.map fun e => String.ofList (beforeDunder e.name.toList)) ++ s.forms.keys

/-- io/core.py 128-132, the cached property `known_formats`. -/
def knownFormats (s : Registry) : List String := s.known.getD s.computeKnown.dedup

/-- io/core.py 134-138, `unloaded_formats`. -/
def unloaded (s : Registry) : List String :=
  (s.knownFormats.filter fun x => !(s.forms.keys.contains x || s.failed.contains x)).insertionSort (· ≤ ·)

/-- io/core.py 185-199, one turn of the loop. -/
def loadForm (s : Registry) (form : String) : Registry :=
  let s := ((s.eps.filter fun e => form.toList.isPrefixOf e.name.toList).filterMap EntryPoint.fiber).foldl register s
  if s.forms.keys.contains form then s else { s with failed := s.failed ++ [form] }

/-- io/core.py 175-201, `load_plugins` (running it again with the same argument, which its cache prevents, changes nothing but
`_failed_formats`). -/
def loadPlugins (fmt : Option String) (s : Registry) : Registry :=
  if (match fmt with | some f => s.forms.keys.contains f | none => false) then s
  else
    let s := { s with known := some s.knownFormats }
    if s.unloaded.isEmpty then s
    else (match fmt with | some f => [f] | none => s.unloaded).foldl loadForm s

/-- io/core.py 140-149, `_get_fiber_io_by_input_type`: the set kept for a known type (which goes on growing) or a copy of all. -/
def byType (s : Registry) (t : String) : List Fiber × Registry :=
  match s.snaps.get? t with
  | some l => (l, s)
  | none =>
    match s.types.get? t with
    | some l => (l, s)
    | none =>
      let l := s.types.flatMap Prod.snd
      (l, { s with snaps := s.snaps ++ [(t, l)] })

/-- `sorted(..., reverse=True)` of the readers of a format by version (as strings). -/
def newestFirst (d : Dict Fiber) : List Fiber := (d.insertionSort (fun a b => b.1 ≤ a.1)).map Prod.snd

/-- io/core.py 151-173, `_get_prioritized_list`. `order` is the order of iteration of the set of known formats. -/
def prioritized (order : List String → List String) (s : Registry) (t : String) : List Fiber × Registry :=
  match s.prior.get? t with
  | some l => (l, s)
  | none =>
    let s := s.loadPlugins none
    let groups := (order s.knownFormats).map fun x => newestFirst (s.form x)
    let l := groups.flatMap (fun g => g.take 1) ++ groups.flatMap (fun g => g.drop 1)
    let r := s.byType t
    (l.filter r.1.contains, { r.2 with prior := r.2.prior ++ [(t, l.filter r.1.contains)] })

/-- io/core.py 298-323, `_yield_format_version`: the readers for a format and maybe a version (an empty version counts as none). -/
def formatVersion (s : Registry) (fmt : String) (version : Option String) : Except Err (List Fiber) × Registry :=
  let s := s.loadPlugins (some (upperS fmt))
  let d := s.form (upperS fmt)
  (if d.isEmpty then .error .unknownFiberFormat
   else match version with
    | some v => if v = "" then .ok (newestFirst d) else
      match d.get? v with
      | some f => .ok [f]
      | none => .error .unknownFiberFormat
    | none => .ok (newestFirst d), s)

/-- io/core.py 216-244, `get_fiberio(format=..., version=...)`, with its cache. -/
def getFiberio (s : Registry) (fmt : String) (version : Option String) : Except Err Fiber × Registry :=
  match s.lookups.find? (fun p => p.1 == (fmt, version)) with
  | some p => (.ok p.2, s)
  | none =>
    let r := (s.loadPlugins (some fmt)).formatVersion fmt version
    match r.1 with
    | .error e => (.error e, r.2)
    | .ok [] => (.error .unknownFiberFormat, r.2)
    | .ok (f :: _) => (.ok f, { r.2 with lookups := r.2.lookups ++ [((fmt, version), f)] })

/-- What a reader's `get_format` does with the input (getting the resource included): it raises, returns `False`, or the
name and version. -/
inductive Answer where
  | raises | no | yes (name version : String)
  deriving DecidableEq, Repr

/-- io/core.py 366-386, the loop over readers. -/
def tryAll (ask : Fiber → Answer) : List Fiber → Option (String × String)
  | [] => none
  | f :: fs =>
    match ask f with
    | .yes n v => some (n, v)
    | _ => tryAll ask fs

/-- `return` from the loop, or `UnknownFiberFormatError` (387-389). -/
def orUnknown : Option (String × String) → Except Err (String × String)
  | some r => .ok r
  | none => .error .unknownFiberFormat

/-- io/core.py 338-389 with 246-296 and 325-336, `_get_format` of an existing path. `hint` is the reader `fiber_io_hint` has for the
input type, `ext` the extension. The readers are asked while they are generated. -/
def getFormat (order : List String → List String) (ask : Fiber → Answer) (s : Registry) (fmt version : Option String)
    (hint : Option Fiber) (ext : Option String) (t : String) : Except Err (String × String) × Registry :=
  match fmt with
  | some f =>
    let r := (s.loadPlugins (some f)).formatVersion f version
    (r.1.bind fun l => orUnknown (tryAll ask l), r.2)
  | none =>
    if version.getD "" ≠ "" then (.error .unknownFiberFormat, s)
    else match tryAll ask hint.toList with
    | some r => (.ok r, s)
    | none =>
      match ext with
      | none =>
        let r := s.prioritized order t
        (orUnknown (tryAll ask r.1), r.2)
      | some e =>
        let s := s.loadPlugins none
        let pot := s.byType t
        match tryAll ask ((pot.2.extList e).filter pot.1.contains) with
        | some r => (.ok r, pot.2)
        | none =>
          let r := pot.2.prioritized order t
          (orUnknown (tryAll ask (r.1.filter fun f => !(pot.2.extList e).contains f)), r.2)

end Registry

/-- What is done to the registry. -/
inductive RegOp where
  | register (f : Fiber)
  | lookup (fmt : String) (version : Option String)
  | detect (order : List String → List String) (ask : Fiber → Registry.Answer) (fmt version : Option String) (hint : Option Fiber)
      (ext : Option String) (t : String)

/-- The registry after an operation. -/
def Registry.step (s : Registry) : RegOp → Registry
  | .register f => s.register f
  | .lookup fmt v => (s.getFiberio fmt v).2
  | .detect order ask fmt version hint ext t => (s.getFormat order ask fmt version hint ext t).2

end Verif
