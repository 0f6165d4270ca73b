import Verif.Model.Registry
/-! # Specification vocabulary for the registry of file formats -/
namespace Spec
open Verif

/-- Nothing has been registered yet; the entry points are installed. -/
def fresh (eps : List EntryPoint) : Registry := { eps := eps }

/-- After registering readers in the order given. -/
def registered (eps : List EntryPoint) (fs : List Fiber) : Registry := fs.foldl Registry.register (fresh eps)

/-- The readers installed as entry points (those that can be loaded). -/
def installed (eps : List EntryPoint) : List Fiber := eps.filterMap EntryPoint.fiber

/-- All readers there are. -/
def allReaders (eps : List EntryPoint) (fs : List Fiber) : List Fiber := fs ++ installed eps

/-- No two different readers have the same name (in capitals) and version. -/
def Unambiguous (all : List Fiber) : Prop := ∀ f ∈ all, ∀ g ∈ all, f.key = g.key → f = g

/-- The name is not longer than the format's in the name of any entry point it begins (`DASDAE__V1` is, for `DASDAE`). -/
def PlainName (eps : List EntryPoint) (fmt : String) : Prop :=
  ∀ e ∈ eps, fmt.toList <+: e.name.toList → fmt.toList <+: beforeDunder e.name.toList

/-- Entry points are named after the format they give, in capitals: `NAME__VERSION` or `NAME`. -/
def WellNamed (eps : List EntryPoint) : Prop :=
  (∀ e ∈ eps, ∀ f, e.fiber = some f → String.ofList (beforeDunder e.name.toList) = upperS f.name) ∧
  ∀ e ∈ eps, PlainName eps (String.ofList (beforeDunder e.name.toList))

/-- The registered formats are not among those installed. -/
def Separate (eps : List EntryPoint) (fs : List Fiber) : Prop :=
  ∀ f ∈ fs, ∀ e ∈ eps, String.ofList (beforeDunder e.name.toList) ≠ upperS f.name

/-- The collections of readers considered. -/
structure Setup (eps : List EntryPoint) (fs : List Fiber) : Prop where
  unambiguous : Unambiguous (allReaders eps fs)
  named : WellNamed eps
  separate : Separate eps fs

/-- The numbers of a version: `"2.10"` is `[2, 10]`. -/
def versionNums : List Char → ℕ → List ℕ
  | [], n => [n]
  | c :: l, n => if c = '.' then n :: versionNums l 0 else versionNums l (n * 10 + (c.toNat - '0'.toNat))

/-- Version `v` is at least as new as `w`. -/
def AtLeast (v w : String) : Prop := versionNums w.toList 0 ≤ versionNums v.toList 0

/-- The order of versions as strings is that of their numbers, for versions of the same format. -/
def VersionsSortAsStrings (all : List Fiber) : Prop :=
  ∀ f ∈ all, ∀ g ∈ all, upperS f.name = upperS g.name → (f.version ≤ g.version ↔ AtLeast g.version f.version)

/-- The greatest string is the newest: the order of versions the code uses. -/
def LaterString (v w : String) : Prop := w ≤ v

/-- `f` is the newest reader of the format; `ge v w` says that version `v` is at least as new as `w`. -/
def Newest (ge : String → String → Prop) (all : List Fiber) (fmt : String) (f : Fiber) : Prop :=
  f ∈ all ∧ upperS f.name = upperS fmt ∧ ∀ g ∈ all, upperS g.name = upperS fmt → ge f.version g.version

/-- `get_fiberio(fmt)` returns the newest reader of the format; it raises if there is none. -/
def FindsNewest (ge : String → String → Prop) (all : List Fiber) (fmt : String) (r : Except Err Fiber) : Prop :=
  (∃ f, r = .ok f ∧ Newest ge all fmt f) ∨ (r = .error .unknownFiberFormat ∧ ∀ f ∈ all, upperS f.name ≠ upperS fmt)

/-- `get_fiberio(fmt, v)` returns the reader with that name and version; it raises if there is none. -/
def FindsVersion (all : List Fiber) (fmt v : String) (r : Except Err Fiber) : Prop :=
  (∃ f, r = .ok f ∧ f ∈ all ∧ upperS f.name = upperS fmt ∧ f.version = v) ∨
    (r = .error .unknownFiberFormat ∧ ∀ f ∈ all, ¬ (upperS f.name = upperS fmt ∧ f.version = v))

/-- What `get_fiberio` should return. An empty version is no version. -/
def LooksUp (ge : String → String → Prop) (all : List Fiber) (fmt : String) (version : Option String) (r : Except Err Fiber) : Prop :=
  (version = none ∨ version = some "" → FindsNewest ge all fmt r) ∧ (∀ v, version = some v → v ≠ "" → FindsVersion all fmt v r)

/-- The readers for input type `t`: those registered for it, or all if there are none. -/
def ForType (all : List Fiber) (t : String) (f : Fiber) : Prop := f ∈ all ∧ (f.inputType = t ∨ ∀ g ∈ all, g.inputType ≠ t)

/-- The readers which come last in the search: those which do not have the extension, each once. The newest of each format come first,
and newer ones before older ones of the same format. -/
structure Rest (ge : String → String → Prop) (all : List Fiber) (t : String) (hasExt : Fiber → Prop) (l : List Fiber) : Prop where
  mem : ∀ f, f ∈ l ↔ ForType all t f ∧ ¬ hasExt f
  once : l.Nodup
  newer : l.Pairwise fun f g => upperS f.name = upperS g.name → ge f.version g.version
  newestFirst : l.Pairwise fun f g => Newest ge all g.name g → Newest ge all f.name f

/-- The reader has the extension, if there is one. -/
def HasExt (ext : Option String) (f : Fiber) : Prop := ∃ e, ext = some e ∧ e ∈ f.exts

/-- The readers in the order they are asked: the hint, those which have the extension, the others. -/
def SearchOrder (ge : String → String → Prop) (all : List Fiber) (hint : Option Fiber) (ext : Option String) (t : String)
    (l : List Fiber) : Prop :=
  ∃ byExt rest, l = hint.toList ++ byExt ++ rest ∧ (∀ f, f ∈ byExt ↔ ForType all t f ∧ HasExt ext f) ∧
    Rest ge all t (HasExt ext) rest

/-- The readers asked if the format (and maybe version) is given: newest first. -/
structure FormatOrder (ge : String → String → Prop) (all : List Fiber) (fmt : String) (version : Option String) (l : List Fiber) :
    Prop where
  mem : ∀ f, f ∈ l ↔ f ∈ all ∧ upperS f.name = upperS fmt ∧ ∀ v, version = some v → v ≠ "" → f.version = v
  newer : l.Pairwise fun f g => ge f.version g.version

/-- `r` is the answer of the first reader in `l` that recognises the input; an error if none does. -/
def FirstToRecognise (ask : Fiber → Registry.Answer) (l : List Fiber) (r : Except Err (String × String)) : Prop :=
  (∃ l₁ f l₂ n v, l = l₁ ++ f :: l₂ ∧ ask f = .yes n v ∧ (∀ g ∈ l₁, ∀ n v, ask g ≠ .yes n v) ∧ r = .ok (n, v)) ∨
  (r = .error .unknownFiberFormat ∧ ∀ f ∈ l, ∀ n v, ask f ≠ .yes n v)

/-- Operations other than registering. Sets of formats may be iterated in any order. -/
def LookupOnly (eps : List EntryPoint) : RegOp → Prop
  | .register _ => False
  | .lookup fmt _ => PlainName eps fmt ∧ PlainName eps (upperS fmt)
  | .detect order _ fmt _ _ _ _ => (∀ l, (order l).Perm l) ∧ ∀ f, fmt = some f → PlainName eps f ∧ PlainName eps (upperS f)

end Spec
