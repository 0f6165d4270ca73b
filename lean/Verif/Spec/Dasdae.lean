import Verif.Model.Dasdae
import Verif.Spec.CoordManager
/-! # Specification vocabulary for patches saved and read back -/
namespace Spec
open Verif
variable {α ν : Type}

/-- `sub` does not occur in `s`. -/
def Lacks (sub s : String) : Prop := ¬ sub.toList <:+: s.toList

/-- A name of a dimension: not empty, without a comma. -/
def DimName (s : String) : Prop := s ≠ "" ∧ ',' ∉ s.toList

/-- The names of the patch can be written and told apart from what the format adds to them. Dimensions and coordinate summaries are not among its other attributes, and neither are
units of coordinates. No coordinate is a single null (`readCoord` is not modelled there). -/
structure Saveable (p : DPatch α ν) : Prop where
  dims : ∀ d ∈ p.cm.dims, DimName d
  coords : ∀ name ∈ p.cm.ents.keys, Lacks "_coord_" name ∧ Lacks "_cdims_" name ∧ '/' ∉ name.toList
  attrs : ∀ key ∈ p.attrs.keys, Lacks "_attrs_" key ∧ key ≠ "coords" ∧ key ≠ "dims" ∧ ∀ name ∈ p.cm.ents.keys, key ≠ name ++ "_units"
  distinct : p.attrs.keys.Nodup
  nulls : ∀ name ds k, (name, ds, .one k (.part 1)) ∉ p.cm.ents

/-- Names whose units and steps are found again. -/
def ShortName (s : String) : Prop := '_' ∉ s.toList ∧ s ≠ "d" ∧ s ≠ "data"

/-- Coordinates which tell their units. -/
def Tells : MCoord → Prop
  | .one _ (.part _) => False
  | _ => True

/-- `q` is the patch `p` as read back: the same dimensions, data and attributes, coordinates of the same names with the same dimensions and values. Evenly sampled coordinates stay so, with
their step, unless there is a single sample and the name is not short. Units are kept under short names. -/
structure ReadBack (p q : DPatch α ν) : Prop where
  dims : q.cm.dims = p.cm.dims
  data : q.data = p.data
  attrs : ∀ key, q.attrs.get? key = p.attrs.get? key
  names : q.cm.ents.keys = p.cm.ents.keys
  coords : ∀ name ds c, p.cm.ents.get? name = some (ds, c) → ∃ x, q.cm.ents.get? name = some (ds, x) ∧ SameValues c x
  even : ∀ name ds k r, p.cm.ents.get? name = some (ds, .one k (.range r)) → 2 ≤ r.len ∨ '_' ∉ name.toList ∧ name ≠ "d" →
    q.cm.ents.get? name = some (ds, .one k (.range r))
  units : ∀ name ds c, p.cm.ents.get? name = some (ds, c) → Tells c → ShortName name → q.units.get? name = p.units.get? name

end Spec
