import Verif.Model.PatchAttrs
import Verif.Spec.CoordManager
import Verif.Spec.Coord
import Verif.Proof.Order
/-!
# What attributes say about coordinates
-/
namespace Spec
open Verif

/-- What attributes say about a coordinate. -/
def coordFields : List String := ["dtype", "min", "max", "step", "units"]

/-- The name begins as the dimension does and has a field after an underscore, as `time_min`, but also `timezone_min` and `time_minutes`; or it is the old name of the step. -/
def LooksLike (d key : String) : Prop := (∃ f ∈ coordFields, ∃ x y, key = d ++ x ++ "_" ++ f ++ y) ∨ key = "d_" ++ d

/-- The name is that of a field of the dimension, such as `time_min`. -/
def FieldOf (d key : String) : Prop := (∃ f ∈ coordFields, key = d ++ "_" ++ f) ∨ key = "d_" ++ d

/-- No name says anything about these dimensions, or seems to. -/
def SilentOn (dims : List String) (key : String) : Prop := ∀ d ∈ dims, ¬ LooksLike d key

/-- A name which seems to say something about one of the dimensions of `all` is that of a field of a dimension of the patch. -/
def SaysClearly (all dims : List String) (key : String) : Prop := ∀ d ∈ all, LooksLike d key → d ∈ dims ∧ FieldOf d key

/-- Names with a field in them begin with the name of a dimension and an underscore. -/
def BeginsWithDim (dims : List String) (key : String) : Prop :=
  ∀ f ∈ coordFields, ∀ x y, key = x ++ "_" ++ f ++ y → ∃ d ∈ dims, ∃ z, key = d ++ "_" ++ z

/-- The fields of a coordinate do not look like those of any dimension other than itself. -/
def NamesDiffer (all : List String) (m : CM) : Prop :=
  ∀ name ∈ m.ents.keys, ∀ f ∈ coordFields, ∀ d ∈ all, LooksLike d (name ++ "_" ++ f) → name = d

/-- The summary `info` describes the coordinate `c`: its limits are the least and the largest label. -/
structure Describes {ν : Type} (units : Dict ν) (name : String) (c : MCoord) (info : CoordInfo ν) : Prop where
  dtype : info.get? "dtype" = some (.dtype c.kind?)
  least : ∀ k l, c = .one k l → l.Wf → ∀ m, IsMin l.vals m → info.get? "min" = some (.num m)
  largest : ∀ k l, c = .one k l → l.Wf → ∀ m, IsMax l.vals m → info.get? "max" = some (.num m)
  step : ∀ k r, c = .one k (.range r) → info.get? "step" = some (.num r.step)
  noStep : (∀ k r, c ≠ .one k (.range r)) → info.get? "step" = some .null
  units : (∀ k n, c ≠ .one k (.part n)) → info.get? "units" = some ((units.get? name).elim .null .val)

/-- The attributes tell the dimensions of the patch, and describe all coordinates and no others. -/
def TellsCoords {α ν : Type} (p : LPatch α ν) : Prop :=
  p.attrs.dims = p.cm.dims ∧ (∀ name, name ∈ p.attrs.coords.keys ↔ name ∈ p.cm.ents.keys) ∧
    ∀ name ds c info, p.cm.ents.get? name = some (ds, c) → p.attrs.coords.get? name = some info → Describes p.units name c info

/-- A dictionary of attributes that goes with the coordinates: what it says about dimensions is said clearly; if it does not list the dimensions names with a field begin with
one; if it has information about coordinates these exist. -/
structure GoesWith {ν : Type} (all : List String) (m : CM) (a : Attrs ν) : Prop where
  clear : ∀ key ∈ a.plain.keys, SaysClearly all m.dims key
  dims : a.dims = m.dims ∨ a.dims = [] ∧ ∀ key ∈ a.plain.keys, BeginsWithDim m.dims key
  coords : ∀ name info, (name, info) ∈ a.coords → name ∈ m.ents.keys ∧ ∀ f ∈ info.keys, f ∈ coordFields

/-- Coordinates of patches with at least one dimension whose dimensions are among `all`. -/
structure CoordsFrom (all : List String) (m : CM) : Prop where
  wf : WellFormed m
  some : m.dims ≠ []
  dims : ∀ d ∈ m.dims, d ∈ all
  names : NamesDiffer all m

/-- How patches are made and changed, if attributes have clear names. `all` are the names of dimensions which occur, none of them with an underscore. -/
inductive ClearHistory {α ν : Type} [DecidableEq ν] (all : List String) : LPatch α ν → Prop
  | made {data cm a units p} : CoordsFrom all cm → (∀ key ∈ a.plain.keys, SilentOn all key) → LPatch.make data cm a units = .ok p → ClearHistory all p
  | madeFrom {data cm a units p} : CoordsFrom all cm → GoesWith all cm a → LPatch.makeFrom data cm a units = .ok p → ClearHistory all p
  | attrs {p q kw} : ClearHistory all p → (∀ key ∈ kw.keys, SaysClearly all p.cm.dims key) → p.updateAttrs kw = .ok q → ClearHistory all q
  | withAttrs {p q a} : ClearHistory all p → GoesWith all p.cm a → p.updateWith a = .ok q → ClearHistory all q
  | coords {p q data cm units} : ClearHistory all p → CoordsFrom all cm → p.recoord data cm units = .ok q → ClearHistory all q

/-- The name is not that of a field of a coordinate. -/
def NoField (m : CM) (key : String) : Prop := ∀ name ∈ m.ents.keys, ¬ FieldOf name key

/-- The patches differ at most in the labels of one dimension, and what is said about them. -/
structure OnlyLabelsOf {α ν : Type} (d : String) (p q : LPatch α ν) : Prop where
  data : q.data = p.data
  dims : q.cm.dims = p.cm.dims
  attrs : q.attrs.plain = p.attrs.plain
  others : ∀ name, name ≠ d → q.cm.ents.get? name = p.cm.ents.get? name

end Spec
