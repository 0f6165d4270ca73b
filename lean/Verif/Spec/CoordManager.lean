import Verif.Model.CoordManager
import Verif.Spec.Coord
/-! # Specification vocabulary for coordinate managers and patches -/
namespace Spec
open Verif

/-- `i` is an index of an array of the given shape. -/
def InRange (shape i : List ℕ) : Prop := List.Forall₂ (· < ·) i shape

/-- A well formed manager, except that a dimension may be listed twice: names are distinct; every dimension has a one
dimensional coordinate of its own name; every coordinate is attached to dimensions of the manager, and has, along
each, the length of that dimension's own coordinate. -/
structure WellFormed (m : CM) : Prop where
  names : (m.ents.map Prod.fst).Nodup
  own : ∀ d ∈ m.dims, ∃ c n, (d, [d], c) ∈ m.ents ∧ c.shape = [n]
  attached : ∀ name ds c, (name, ds, c) ∈ m.ents → ∀ d ∈ ds, d ∈ m.dims
  shapes : ∀ name ds c, (name, ds, c) ∈ m.ents → ds ≠ [] → c.shape.length = ds.length ∧
    ∀ (k : ℕ) d n, ds[k]? = some d → c.shape[k]? = some n → ∀ c', (d, [d], c') ∈ m.ents → c'.shape = [n]

/-- The manager's dimensions are distinct. -/
def DistinctDims (m : CM) : Prop := m.dims.Nodup

/-- The keyword dictionary of a call has no key twice (a Python dictionary never has). -/
def KeywordsOk : CMOp → Prop
  | .update kw => (kw.map Prod.fst).Nodup
  | _ => True

/-- The operation does not give a dimension a name that is already taken by another dimension, nor the same new name
to two of them. -/
def FreshTargets (m : CM) : CMOp → Prop
  | .rename kw | .setDims kw => (kw.map Prod.snd).Nodup ∧ ∀ p ∈ kw, p.1 ≠ p.2 → p.2 ∉ m.dims
  | _ => True

/-- A history of successful operations on managers, each of which names its targets freshly. -/
inductive History (argsort : List ℚ → List ℕ) : CM → CM → Prop where
  | start (m : CM) : History argsort m m
  | step {m m₁ m₂ : CM} (op : CMOp) : History argsort m m₁ → KeywordsOk op → FreshTargets m₁ op →
      m₁.step argsort op = .ok m₂ → History argsort m m₂

/-- The label an element at index `i` of the data carries on a coordinate attached to the dimensions `ds`. -/
def labelAt (dims ds : List String) (c : Nd (Option ℚ)) (i : List ℕ) : Option ℚ :=
  c.get (ds.map fun d => i.getD (dims.idxOf d) 0)

/-- The label of element `i` on coordinate `name`; `none` if there is no such coordinate or it is not attached to a
dimension. -/
def label {α} (p : PatchM α) (name : String) (i : List ℕ) : Option (Option ℚ) :=
  match p.cm.ents.get? name with
  | some (d :: ds, c) => some (labelAt p.cm.dims (d :: ds) c.arr i)
  | _ => none

/-- Every element of `q` is an element of `p` and carries the same labels on every attached coordinate. `f` tells
where it came from. -/
def KeepsLabels {α} (p q : PatchM α) (f : List ℕ → List ℕ) : Prop :=
  ∀ i, InRange q.data.shape i → InRange p.data.shape (f i) ∧ q.data.get i = p.data.get (f i) ∧
    ∀ name, label q name i = label p name (f i)

/-- How much the limits of an interval are widened: half of 1e-10 steps for an evenly sampled coordinate. -/
def tolOf : Coord → ℚ
  | .range r => |r.step| / (2 * 10 ^ 10)
  | _ => 0

/-- The label at position `i` satisfies `P` (a null satisfies everything). -/
def LabelAt (c : Coord) (P : ℚ → Prop) (i : ℕ) : Prop := ∀ v, c.labels[i]? = some (some v) → P v

open Classical in
/-- `ps` are the positions of the coordinate that the query asks for, in the order in which it asks for them. -/
noncomputable def Survivors (c : Coord) (ps : List ℕ) : CQuery → Prop
  | .between a b => ps = (List.range c.length).filter fun i => LabelAt c (Between (tolOf c) a b) i
  | .slice s => pySlice (List.range c.length) (toSlice s) = .ok ps
  | .values vs => ps = (List.range c.length).filter fun i => LabelAt c (· ∈ vs) i
  | .mask m => m.length = c.length ∧ ps = (List.range c.length).filter fun i => m[i]? = some true
  | .samples ix => ps = (List.range c.length).filter fun i : ℕ => (i : ℤ) ∈ ix
  | .order vs => ∃ f : ℚ → List ℕ, (∀ v, (f v).Perm (positions v c.vals)) ∧ ps = vs.flatMap f
  | .orderSamples ix => ps = (ix.map Int.toNat).filter fun i => i < c.length

/-- Sample numbers given to `order` are not negative. -/
def NonNegSamples : CQuery → Prop
  | .orderSamples ix => ∀ i ∈ ix, 0 ≤ i
  | _ => True

/-- Where the element at index `i` of the result came from, `red d` being the positions kept along dimension `d`. -/
def origin (dims : List String) (red : String → List ℕ) (i : List ℕ) : List ℕ :=
  List.zipWith (fun r k => r.getD k 0) (dims.map red) i

/-- The labels of the coordinate `name` at the kept positions are labels that a coordinate can store unaltered (this
only matters for one dimensional coordinates). -/
def StorableAfter (m : CM) (red : String → List ℕ) (name : String) : Prop :=
  ∀ d k c, m.ents.get? name = some ([d], .one k c) → Storable (takeIdx c.vals (red d))

/-- No two of the coordinates asked about are attached to the same dimension. -/
def OnePerDim (m : CM) (kw : Dict CQuery) : Prop :=
  kw.Pairwise fun p q => ∀ d c c', m.ents.get? p.1 = some ([d], c) → m.ents.get? q.1 ≠ some ([d], c')

/-- `q` consists, along each dimension `d`, of the positions `red d` of `p`: dimensions and attachments are the same,
every element of `q` is the element of `p` it came from, and every coordinate gives it the label it had. -/
structure Rearranged {α} (p q : PatchM α) (red : String → List ℕ) : Prop where
  dims : q.cm.dims = p.cm.dims
  attached : ∀ name, (q.cm.ents.get? name).map Prod.fst = (p.cm.ents.get? name).map Prod.fst
  shape : q.data.shape = p.cm.dims.map fun d => (red d).length
  data : ∀ i, InRange q.data.shape i → InRange p.data.shape (origin p.cm.dims red i) ∧
    q.data.get i = p.data.get (origin p.cm.dims red i)
  labels : ∀ name, StorableAfter p.cm red name → ∀ i, InRange q.data.shape i →
    label q name i = label p name (origin p.cm.dims red i)

/-- `q` is what remains of `p` when, along each dimension, exactly the positions asked for are kept, in the order asked
for (all of them if nothing was asked about that dimension). -/
structure Selected {α} (p q : PatchM α) (kw : Dict CQuery) (red : String → List ℕ) : Prop extends Rearranged p q red where
  asked : ∀ r ∈ kw, ∀ d k c, p.cm.ents.get? r.1 = some ([d], .one k c) → Survivors c (red d) r.2
  others : ∀ d ∈ p.cm.dims, (∀ r ∈ kw, ∀ c, p.cm.ents.get? r.1 ≠ some ([d], c)) →
    ∀ c n, p.cm.ents.get? d = some ([d], c) → c.shape = [n] → red d = List.range n

/-- `q` comes from `p` by selecting with one group of keywords after the other. -/
inductive SelectedBy {α} : PatchM α → List (Dict CQuery) → PatchM α → Prop where
  | done (p : PatchM α) : SelectedBy p [] p
  | next {p p₁ q : PatchM α} {kw : Dict CQuery} {gs : List (Dict CQuery)} (red : String → List ℕ) :
      OnePerDim p.cm kw → Selected p p₁ kw red → SelectedBy p₁ gs q → SelectedBy p (kw :: gs) q

/-- Values in the order asked for: ascending, or descending if `reverse`. -/
def InOrder (reverse : Bool) (l : List ℚ) : Prop := l.Pairwise fun x y => if reverse then y ≤ x else x ≤ y

/-- `full` is the order of dimensions that a transpose asks for: all of them reversed if nothing is given, the names
given, or the names given with `...` standing for the dimensions not named, in their old order. -/
def Requested (old : List String) (new : List CM.TDim) (full : List String) : Prop :=
  (new = [] ∧ full = old.reverse) ∨ (new ≠ [] ∧ new = full.map .dim) ∨
    ∃ a b : List String, new = a.map .dim ++ .dots :: b.map .dim ∧ full = a ++ old.filter (· ∉ a ++ b) ++ b

/-- The new name of `x` under the renaming `kw`. -/
def newName (kw : List (String × String)) (x : String) : String := ((kw.find? fun p => p.1 == x).map Prod.snd).getD x

/-- `m'` is `m` with every name (of a coordinate or a dimension) replaced by `ρ` of it, and nothing else changed. -/
structure Renamed (m m' : CM) (ρ : String → String) : Prop where
  dims : m'.dims = m.dims.map ρ
  ents : ∀ name ds c, (name, ds, c) ∈ m.ents → (ρ name, ds.map ρ, c) ∈ m'.ents
  names : (m'.ents.map Prod.fst).Perm ((m.ents.map Prod.fst).map ρ)

/-- `m'` is `m` without the coordinates and dimensions named, without the coordinates attached to a dimension named, and
with everything else as it was. -/
structure Dropped (m m' : CM) (names : List String) : Prop where
  dims : m'.dims = m.dims.filter (· ∉ names)
  gone : ∀ name ds c, m.ents.get? name = some (ds, c) → (name ∈ names ∨ ∃ d ∈ ds, d ∈ names) → m'.ents.get? name = none
  kept : ∀ name ds c, m.ents.get? name = some (ds, c) → name ∉ names → (∀ d ∈ ds, d ∉ names) →
    m'.ents.get? name = some (ds, c)
  none : ∀ name, m.ents.get? name = none → m'.ents.get? name = none

/-- `c'` has the shape of `c`, and its values if they are values that a coordinate can store unaltered. -/
def SameValues (c c' : MCoord) : Prop :=
  c'.shape = c.shape ∧ ((∀ k x, c = .one k x → Storable x.vals) → c'.arr = c.arr)

/-- The dimensions and the coordinate that an argument of `update_coords` gives to the name (`none` for `None`). -/
def argOf (name : String) : CArg → Option (List String × MCoord)
  | .simple c => some ([name], c)
  | .nested ds c => some (ds, c)
  | _ => Option.none

/-- The names that `update_coords` is asked to drop. -/
def dropNames (kw : Dict CArg) : List String := (kw.filter fun p => p.2.isDrop).map Prod.fst

/-- `update_coords` gives dimension `d` a coordinate of another length. -/
def Resized (m : CM) (kw : Dict CArg) (d : String) : Prop :=
  d ∈ m.dims ∧ ∃ a ds c ds' c', kw.get? d = some a ∧ argOf d a = some (ds, c) ∧ m.ents.get? d = some (ds', c') ∧ c.len ≠ c'.len

/-- What `update_coords(**kw)` should do: the coordinates given are those given, coordinates dropped are gone, a
coordinate attached to a dimension that was dropped or got another length is gone unless it is given too, and every
other coordinate stays. A coordinate given for its own name as a new dimension is appended to the dimensions. -/
structure Updated (m m' : CM) (kw : Dict CArg) : Prop where
  dims : m'.dims = (m.dims ++ (kw.filter fun p => ((argOf p.1 p.2).map Prod.fst == some [p.1]) && !m.dims.contains p.1).map
    Prod.fst).filter (· ∉ dropNames kw)
  given : ∀ name a ds c, kw.get? name = some a → argOf name a = some (ds, c) →
    ∃ c', SameValues c c' ∧ m'.ents.get? name = some (ds, c')
  gone : ∀ name, name ∈ dropNames kw → m'.ents.get? name = Option.none
  lost : ∀ name ds c, kw.get? name = Option.none → m.ents.get? name = some (ds, c) →
    (∃ d ∈ ds, d ∈ dropNames kw ∨ Resized m kw d) → m'.ents.get? name = Option.none
  kept : ∀ name ds c, kw.get? name = Option.none → m.ents.get? name = some (ds, c) →
    (∀ d ∈ ds, d ∉ dropNames kw ∧ ¬ Resized m kw d) → ∃ c', SameValues c c' ∧ m'.ents.get? name = some (ds, c')
  none : ∀ name, kw.get? name = Option.none → m.ents.get? name = Option.none → m'.ents.get? name = Option.none

/-- The length of dimension `d` after `update_coords(**kw)`. -/
def newLen (m : CM) (kw : Dict CArg) (d : String) : ℕ :=
  match kw.get? d with
  | some a =>
    match argOf d a with
    | some (_, c) => c.len
    | Option.none => m.ents.lenOf d
  | Option.none => m.ents.lenOf d

/-- Every coordinate given to `update_coords` can be read, is attached to existing dimensions (that of a dimension to itself) and
has the shape these have after the update. -/
def Fits (m : CM) (kw : Dict CArg) : Prop :=
  ∀ name a, kw.get? name = some a → ∃ ds c x, argOf name a = some (ds, c) ∧ c.canon = .ok x ∧ (∀ d ∈ ds, d ∈ m.dims) ∧
    (name ∈ m.dims → ds = [name]) ∧ (ds = [] ∨ ds.map (newLen m kw) = c.shape)

end Spec
