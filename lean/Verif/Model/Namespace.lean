import Mathlib.Logic.Function.Basic
import Mathlib.Data.List.Basic
/-!
# Namespaces of methods (dascore/utils/namespace.py, dascore/utils/plugins.py)

One group (that of patches or that of spools) is modelled. Classes are named by strings, objects by numbers. An entry point is taken to define one
namespace, under the name of the entry point, in a module that is not imported otherwise. Warnings are not modelled.
-/
namespace Verif

/-- The registry of a group, the entry points already loaded (`functools.cache` of `maybe_load_entry_point`), and what objects keep in their `__dict__`. -/
structure NsState where
  registry : String → Option String
  loaded : String → Bool
  kept : ℕ → String → Option (String × ℕ)

/-- Nothing registered. -/
def NsState.empty : NsState := ⟨fun _ => none, fun _ => false, fun _ _ => none⟩

/-- A class is defined with a name, or an attribute is read from an object. -/
inductive NsEvent where
  | register (name cls : String)
  | access (obj : ℕ) (name : String)
  deriving DecidableEq

/-- namespace.py 57-75, `__init_subclass__`: a class of the same name is replaced. -/
def NsState.register (s : NsState) (name cls : String) : NsState := { s with registry := Function.update s.registry name (some cls) }

/-- plugins.py 30-40, `maybe_load_entry_point`: loaded once; importing it defines its class. -/
def NsState.load (plugins : String → Option String) (s : NsState) (name : String) : NsState :=
  if s.loaded name then s
  else
    let s := { s with loaded := Function.update s.loaded name true }
    match plugins name with
    | some cls => s.register name cls
    | none => s

/-- namespace.py 104-121, `__getattr__`, which Python only calls for names not in `__dict__`. The namespace is a class and the object it was made for;
`none` is an AttributeError. -/
def NsState.access (plugins : String → Option String) (s : NsState) (obj : ℕ) (name : String) : NsState × Option (String × ℕ) :=
  match s.kept obj name with
  | some x => (s, some x)
  | none =>
    let s := s.load plugins name
    match s.registry name with
    | some cls => ({ s with kept := Function.update s.kept obj (Function.update (s.kept obj) name (some (cls, obj))) }, some (cls, obj))
    | none => (s, none)

/-- What happens at an event. -/
def NsState.step (plugins : String → Option String) (s : NsState) : NsEvent → NsState
  | .register name cls => s.register name cls
  | .access obj name => (s.access plugins obj name).1

/-- What `getattr(obj, name)` gives after some events. -/
def nsResult (plugins : String → Option String) (h : List NsEvent) (obj : ℕ) (name : String) : Option (String × ℕ) :=
  ((h.foldl (NsState.step plugins) .empty).access plugins obj name).2

end Verif
