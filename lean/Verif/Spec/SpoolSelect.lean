import Verif.Model.SpoolSelect
import Verif.Spec.Filter
import Verif.Spec.CoordManager
/-! # What `spool.select` asks for -/
namespace Spec
open Verif

/-- `t` lies between the two limits of a range (given in either order, possibly open). -/
def InPair (v : QArg) (t : ℚ) : Prop :=
  match v with
  | .coll [x, y] => Within (limit x) (limit y) t
  | _ => True

/-- A query made of ranges of coordinates and of conditions on other columns. A range names a coordinate with a
minimum, maximum and step and gives two limits (`None` and `...` are open). A condition names a column that is not a limit. -/
structure SpoolQuery (cols : List Key) (q : Query) : Prop where
  keys : (q.map Prod.fst).Nodup
  ranges : ∀ kv ∈ q, kv.1 ∉ cols → kv.1.suf = .plain ∧ (⟨kv.1.base, .min⟩ : Key) ∈ cols ∧
    (⟨kv.1.base, .max⟩ : Key) ∈ cols ∧ (⟨kv.1.base, .step⟩ : Key) ∈ cols ∧
    ∃ x y, kv.2 = .coll [x, y] ∧ (∀ s, x ≠ .str s) ∧ ∀ s, y ≠ .str s
  conds : ∀ kv ∈ q, kv.1 ∈ cols → kv.1.suf = .plain ∧
    ((⟨kv.1.base, .min⟩ : Key) ∉ cols ∨ (⟨kv.1.base, .max⟩ : Key) ∉ cols) ∧ kv.2 ≠ .none ∧ kv.2 ≠ .dots

/-- A patch with the cells `r` answers all of the query `Q` (which may ask about a coordinate several times): it meets the
conditions on columns, and its interval along each coordinate asked about has a point which lies in every range asked for. -/
def Answers (glob : String → String → Bool) (cols : List Key) (r : TRow) (Q : Query) : Prop :=
  ∀ kv ∈ Q, (kv.1 ∈ cols → Satisfies glob cols kv.1 kv.2 r) ∧
    (kv.1 ∉ cols → ∃ lo hi t, r ⟨kv.1.base, .min⟩ = .num lo ∧ r ⟨kv.1.base, .max⟩ = .num hi ∧ lo ≤ t ∧ t ≤ hi ∧
      ∀ v, (kv.1, v) ∈ Q → InPair v t)

/-- What a spool shows of a patch with the cells `r` after the queries `Q`: the cells `x.1`, and whether they were changed.
The interval along each coordinate is the part of the patch's own that lies in every range asked for. -/
structure Shown (cols : List Key) (r : TRow) (Q : Query) (x : TRow × Bool) : Prop where
  cut : ∀ b lo hi, r ⟨b, .min⟩ = .num lo → r ⟨b, .max⟩ = .num hi →
    ∃ lo' hi', x.1 ⟨b, .min⟩ = .num lo' ∧ x.1 ⟨b, .max⟩ = .num hi' ∧ lo' ≤ hi' ∧
      ∀ t, (lo' ≤ t ∧ t ≤ hi') ↔ ((lo ≤ t ∧ t ≤ hi) ∧
        ((⟨b, .plain⟩ : Key) ∉ cols → ∀ v, (⟨b, .plain⟩, v) ∈ Q → InPair v t))
  kept : ∀ k : Key, k.suf ≠ .min → k.suf ≠ .max → x.1 k = r k
  unasked : ∀ k : Key, ((⟨k.base, .plain⟩ : Key) ∉ cols → ∀ v, (⟨k.base, .plain⟩, v) ∉ Q) → x.1 k = r k
  flag : x.2 = true ↔ ∃ k, x.1 k ≠ r k

/-- The effect of an operation on a list of patches, each with the queries it was asked so far. -/
noncomputable def askStep {P : Type} (glob : String → String → Bool) (cols : List Key) (row : P → TRow) (l : List (P × Query)) :
    MemSpool.Op → Except Err (List (P × Query))
  | .slice sl => pySlice l sl
  | .ints ix => takeInts l ix
  | .mask m => if m.length = l.length then .ok (maskIdx l m) else .error .indexError
  | .select q => by
    classical exact .ok ((l.map fun e => (e.1, e.2 ++ q)).filter fun e => Answers glob cols (row e.1) e.2)

/-- The effect of a history. -/
noncomputable def askRun {P : Type} (glob : String → String → Bool) (cols : List Key) (row : P → TRow) :
    List MemSpool.Op → List (P × Query) → Except Err (List (P × Query))
  | [], l => .ok l
  | o :: os, l =>
    match askStep glob cols row l o with
    | .error e => .error e
    | .ok l' => askRun glob cols row os l'

/-- The label `v` lies in every range asked for along `b`, the limits being widened by `tol`. -/
def InAll (tol : ℚ) (b : String) (Q : Query) (v : ℚ) : Prop :=
  ∀ x y, ((⟨b, .plain⟩ : Key), QArg.coll [x, y]) ∈ Q → Between tol (limit x) (limit y) v

/-- The interval of a patch with the cells `r` lies in every range asked for. -/
def Inside (r : TRow) (Q : Query) : Prop :=
  ∀ b v, ((⟨b, .plain⟩ : Key), v) ∈ Q → ∃ lo hi, r ⟨b, .min⟩ = .num lo ∧ r ⟨b, .max⟩ = .num hi ∧ InPair v lo ∧ InPair v hi

/-- Every coordinate of the patch is that of a dimension. -/
def DimsOnly (m : CM) : Prop := ∀ name ds c, m.ents.get? name = some (ds, c) → ds = [name]

end Spec
