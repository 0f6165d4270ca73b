import Verif.Model.Equality
import Verif.Spec.PatchOps
/-! # Specification vocabulary for equality -/
namespace Spec
open Verif

/-- A public coordinate: a dimension's or one whose name does not start with an underscore. -/
def Public (m : CM) (x : String) : Prop := (∃ e, m.ents.get? x = some e) ∧ (x ∈ m.dims ∨ x.toList.head? ≠ some '_')

/-- Two labels count as equal: times have to be the same, numbers within a hundred-millionth plus a hundred-thousandth of
the second, and a missing number matches any number. -/
def NearLabel (t1 t2 : Bool) : Option ℚ → Option ℚ → Prop
  | some a, some b => if t1 = false ∧ t2 = false then |a - b| ≤ 1 / 10 ^ 8 + |b| / 10 ^ 5 else t1 = t2 ∧ a = b
  | _, _ => t1 = false ∧ t2 = false

/-- Whether the labels of a coordinate are times. -/
def holdsTimes : MCoord → Bool
  | .one k _ => decide (k = .time)
  | .nd _ => false

/-- Two coordinates count as equal: the same shape and, position by position, labels which do; or both without values
and with the same units. -/
def NearCoord (c d : MCoord) (u v : Option String) : Prop :=
  c.shape = d.shape ∧ c.isPartial = d.isPartial ∧ (c.isPartial = true → u = v) ∧
  (c.isPartial = false → ∀ i, InRange c.shape i → NearLabel (holdsTimes c) (holdsTimes d) (c.arr.get i) (d.arr.get i))

/-- The attributes which are compared: all, or those every patch has. -/
def ComparedAttr (required : Bool) (k : String) : Prop := required = true → k ∈
  ["data_type", "data_category", "data_units", "instrument_id", "acquisition_id", "tag", "station", "network", "dims"]

/-- The same attribute: equal values, or both missing. -/
def SameAttr (a b : AVal) : Prop := a = b ∨ (a.isNull = true ∧ b.isNull = true)

/-- Two patches agree. -/
structure Agree (p q : EPatch) (required close : Bool) : Prop where
  dims : p.cm.dims = q.cm.dims
  names : ∀ x, Public p.cm x ↔ Public q.cm x
  coords : ∀ x c d, Public p.cm x → p.cm.ents.get? x = some c → q.cm.ents.get? x = some d → NearCoord c.2 d.2 (p.units x) (q.units x)
  keys : ∀ k, ComparedAttr required k → ((∃ v, p.attrs.get? k = some v) ↔ ∃ v, q.attrs.get? k = some v)
  attrs : ∀ k v w, ComparedAttr required k → p.attrs.get? k = some v → q.attrs.get? k = some w → SameAttr v w
  shape : p.data.shape = q.data.shape
  data : ∀ i, InRange p.data.shape i → ∃ a b, p.data.get i = some a ∧ q.data.get i = some b ∧
    (if close then |a - b| ≤ 1 / 10 ^ 8 + |b| / 10 ^ 5 else a = b)

/-- A patch as the library builds it: coordinates and data belong together, dimensions are distinct, their names contain
no comma, attributes are a dictionary (without the derived `dims`), and evenly sampled coordinates have as many values as
their length says. -/
structure Whole (p : EPatch) : Prop where
  wf : WellFormed p.cm
  distinct : DistinctDims p.cm
  shape : p.cm.shape = p.data.shape
  commas : ∀ d ∈ p.cm.dims, ',' ∉ d.toList
  attrs : (p.attrs.map Prod.fst).Nodup
  noDims : "dims" ∉ p.attrs.map Prod.fst
  counted : ∀ name ds k e, p.cm.ents.get? name = some (ds, .one k (.range e)) → e.values.length = e.len

/-! ### Deep equality -/

/-- The entries of a mapping, or of the `__dict__` of an object. -/
def entries (h : Heap) (x : ℕ) : Dict ℕ :=
  match h.node x with
  | .map i => i
  | .obj _ d => (match h.node d with | .map i => i | _ => [])
  | _ => []

/-- The object reached by looking up keys one after the other. -/
def follow (h : Heap) : ℕ → List String → Option ℕ
  | x, [] => some x
  | x, k :: ks => match (entries h x).get? k with
    | none => none
    | some y => follow h y ks

/-- Two objects of the same sort, and equal if they are not containers. -/
def SameHead (h : Heap) (x y : ℕ) : Prop :=
  match h.node x, h.node y with
  | .map _, .map _ => True
  | .obj _ _, .obj _ _ => True
  | .frame a, .frame b => h.frameEq a b = true
  | .leaf a, .leaf b => h.leafEq a b = true
  | _, _ => False

/-- The same at the end of a path of keys: either the path exists in neither, or it leads to equal objects in both. -/
def AlikeAt (h : Heap) (x y : ℕ) (path : List String) : Prop :=
  match follow h x path, follow h y path with
  | none, none => True
  | some a, some b => SameHead h a b
  | _, _ => False

/-- Two objects that cannot be told apart by following keys. -/
def Alike (h : Heap) (x y : ℕ) : Prop := ∀ path, AlikeAt h x y path

/-- A heap of finitely many objects, the first `n` numbers, in which `__dict__`s are mappings, keys are distinct, and the given
equality of non-containers is reflexive and symmetric. -/
structure FiniteHeap (h : Heap) (n : ℕ) : Prop where
  items : ∀ x i, h.node x = .map i → (i.map Prod.fst).Nodup ∧ ∀ k y, (k, y) ∈ i → y < n
  dicts : ∀ x c d, h.node x = .obj c d → d < n ∧ ∃ i, h.node d = .map i
  frameRefl : ∀ a, h.frameEq a a = true
  leafRefl : ∀ a, h.leafEq a a = true
  frameSymm : ∀ a b, h.frameEq a b = h.frameEq b a
  leafSymm : ∀ a b, h.leafEq a b = h.leafEq b a

end Spec
