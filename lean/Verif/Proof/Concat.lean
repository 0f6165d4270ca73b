import Verif.Proof.Correlate
import Verif.Proof.Squeeze
import Verif.Proof.UpdateTotal
import Verif.Spec.Concat
/-! # Lemmas: joining patches -/
namespace Verif
open Spec

/-! ### Arrays -/

theorem inRange_iff {sh i : List ℕ} : InRange sh i ↔ i.length = sh.length ∧ ∀ k < sh.length, i.getD k 0 < sh.getD k 0 := by
  unfold InRange
  rw [List.forall₂_iff_get]
  constructor
  · rintro ⟨h1, h2⟩
    refine ⟨h1, fun k hk => ?_⟩
    have := h2 k (by omega) hk
    simpa [List.getD_eq_getElem?_getD, List.getElem?_eq_getElem hk, List.getElem?_eq_getElem (h1 ▸ hk : k < i.length)] using this
  · rintro ⟨h1, h2⟩
    refine ⟨h1, fun k hk hk' => ?_⟩
    have := h2 k hk'
    simpa [List.getD_eq_getElem?_getD, List.getElem?_eq_getElem hk, List.getElem?_eq_getElem hk'] using this

theorem getD_set' {l : List ℕ} {k x m : ℕ} : (l.set k x).getD m 0 = if m = k ∧ k < l.length then x else l.getD m 0 := by
  rw [List.getD_eq_getElem?_getD, List.getD_eq_getElem?_getD, List.getElem?_set]
  by_cases h : k = m
  · subst h
    by_cases h2 : k < l.length
    · simp [h2]
    · simp [h2]
  · have : ¬ m = k := fun h' => h h'.symm
    simp [h, this]

namespace Nd
variable {α : Type}

/-- The arrays have the same shape but for one axis. -/
def Alike (axis : ℕ) (a b : Nd α) : Prop := b.shape.length = a.shape.length ∧ ∀ k, k ≠ axis → b.shape.getD k 0 = a.shape.getD k 0

theorem concat2_inl {axis : ℕ} {a b : Nd α} {i : List ℕ} (hax : axis < a.shape.length) (hi : InRange a.shape i) :
    InRange (concat2 axis a b).shape i ∧ (concat2 axis a b).get i = a.get i := by
  rw [inRange_iff] at hi
  constructor
  · rw [inRange_iff]
    refine ⟨by simpa [concat2] using hi.1, fun k hk => ?_⟩
    simp only [concat2, List.length_set, getD_set'] at hk ⊢
    have := hi.2 k hk
    split
    · rename_i h; rw [h.1] at this ⊢; omega
    · exact this
  · simp only [concat2]
    rw [if_pos (hi.2 axis hax)]

theorem concat2_inr {axis : ℕ} {a b : Nd α} (hab : Alike axis a b) {i : List ℕ} (hax : axis < a.shape.length) (hi : InRange b.shape i) :
    InRange (concat2 axis a b).shape (i.set axis (i.getD axis 0 + a.shape.getD axis 0)) ∧
    (concat2 axis a b).get (i.set axis (i.getD axis 0 + a.shape.getD axis 0)) = b.get i := by
  rw [inRange_iff] at hi
  have hil : axis < i.length := by rw [hi.1, hab.1]; exact hax
  constructor
  · rw [inRange_iff]
    refine ⟨by simp [concat2, hi.1, hab.1], fun k hk => ?_⟩
    simp only [concat2, List.length_set, getD_set'] at hk ⊢
    have := hi.2 k (by rw [hab.1]; exact hk)
    by_cases hka : k = axis
    · subst hka
      rw [if_pos ⟨rfl, hil⟩, if_pos ⟨rfl, hax⟩]; omega
    · rw [if_neg (by tauto), if_neg (by tauto), ← hab.2 k hka]; exact this
  · simp only [concat2]
    have hv : (i.set axis (i.getD axis 0 + a.shape.getD axis 0)).getD axis 0 = i.getD axis 0 + a.shape.getD axis 0 := by
      rw [getD_set', if_pos ⟨rfl, hil⟩]
    rw [hv, if_neg (by omega), List.set_set, Nat.add_sub_cancel]
    congr 1
    apply List.ext_getElem?
    intro k
    rw [List.getElem?_set]
    split
    · rename_i h; subst h
      rw [List.getD_eq_getElem?_getD, List.getElem?_eq_getElem hil]; rfl
    · rfl

theorem concat2_len {axis : ℕ} {a b : Nd α} (hax : axis < a.shape.length) :
    (concat2 axis a b).shape.getD axis 0 = a.shape.getD axis 0 + b.shape.getD axis 0 := by
  simp only [concat2]; rw [getD_set', if_pos ⟨rfl, hax⟩]

theorem concat2_alike {axis : ℕ} {a b c : Nd α} (h : Alike axis a c) : Alike axis (concat2 axis a b) c := by
  refine ⟨by simpa [concat2] using h.1, fun k hk => ?_⟩
  simp only [concat2]; rw [getD_set', if_neg (by tauto)]; exact h.2 k hk

theorem foldl_spec {axis : ℕ} (l : List (Nd α)) : ∀ a : Nd α, axis < a.shape.length → (∀ b ∈ l, Alike axis a b) →
    Alike axis a (l.foldl (concat2 axis) a) ∧
    (l.foldl (concat2 axis) a).shape.getD axis 0 = a.shape.getD axis 0 + (l.map fun b => b.shape.getD axis 0).sum ∧
    (∀ i, InRange a.shape i → InRange (l.foldl (concat2 axis) a).shape i ∧ (l.foldl (concat2 axis) a).get i = a.get i) ∧
    ∀ (j : ℕ) b, l[j]? = some b → ∀ i, InRange b.shape i →
      InRange (l.foldl (concat2 axis) a).shape (i.set axis (i.getD axis 0 + (a.shape.getD axis 0 + ((l.take j).map fun b => b.shape.getD axis 0).sum))) ∧
      (l.foldl (concat2 axis) a).get (i.set axis (i.getD axis 0 + (a.shape.getD axis 0 + ((l.take j).map fun b => b.shape.getD axis 0).sum))) = b.get i := by
  induction l with
  | nil => intro a _ _; exact ⟨⟨rfl, fun _ _ => rfl⟩, by simp, fun i hi => ⟨hi, rfl⟩, fun j b h => by simp at h⟩
  | cons b l ih =>
    intro a hax hal
    have hb := hal b (by simp)
    have hax' : axis < (concat2 axis a b).shape.length := by simpa [concat2] using hax
    obtain ⟨h1, h2, h3, h4⟩ := ih (concat2 axis a b) hax' fun c hc => concat2_alike (hal c (by simp [hc]))
    rw [List.foldl_cons]
    refine ⟨?_, ?_, ?_, ?_⟩
    · refine ⟨by rw [h1.1]; simp [concat2], fun k hk => ?_⟩
      rw [h1.2 k hk]; simp only [concat2]; rw [getD_set', if_neg (by tauto)]
    · rw [h2, concat2_len hax]; simp; omega
    · intro i hi
      obtain ⟨g1, g2⟩ := concat2_inl (b := b) hax hi
      obtain ⟨g3, g4⟩ := h3 i g1
      exact ⟨g3, g4.trans g2⟩
    · intro j c hj i hi
      cases j with
      | zero =>
        simp at hj; subst hj
        obtain ⟨g1, g2⟩ := concat2_inr hb hax hi
        obtain ⟨g3, g4⟩ := h3 _ g1
        simp only [List.take_zero, List.map_nil, List.sum_nil, Nat.add_zero]
        exact ⟨g3, g4.trans g2⟩
      | succ j =>
        have := h4 j c (by simpa using hj) i hi
        rw [concat2_len hax] at this
        simp only [List.take_succ_cons, List.map_cons, List.sum_cons]
        rw [← Nat.add_assoc (a.shape.getD axis 0)]
        exact this

theorem concat_spec {axis : ℕ} {l : List (Nd α)} {r : Nd α} (h : concat axis l = .ok r) :
    r.shape.getD axis 0 = (l.map fun b => b.shape.getD axis 0).sum ∧ (∀ b ∈ l, axis < b.shape.length ∧ Alike axis b r) ∧
    ∀ (j : ℕ) b, l[j]? = some b → ∀ i, InRange b.shape i →
      InRange r.shape (i.set axis (i.getD axis 0 + ((l.take j).map fun b => b.shape.getD axis 0).sum)) ∧
      r.get (i.set axis (i.getD axis 0 + ((l.take j).map fun b => b.shape.getD axis 0).sum)) = b.get i := by
  cases l with
  | nil => cases h
  | cons a l =>
    simp only [concat] at h
    split at h
    · rename_i hc
      cases h
      rw [Bool.and_eq_true, decide_eq_true_iff, List.all_eq_true] at hc
      obtain ⟨hax, hl⟩ := hc
      have hal : ∀ b ∈ l, Alike axis a b := by
        intro b hb
        have := hl b hb
        rw [Bool.and_eq_true, decide_eq_true_iff, decide_eq_true_iff] at this
        refine ⟨this.1, fun k hk => ?_⟩
        have h2 := congrArg (fun s => s.getD k 0) this.2
        simp only [getD_set'] at h2
        rwa [if_neg (by tauto), if_neg (by tauto)] at h2
      obtain ⟨h1, h2, h3, h4⟩ := foldl_spec l a hax hal
      refine ⟨by rw [h2]; simp, ?_, ?_⟩
      · intro b hb
        rcases List.mem_cons.1 hb with rfl | hb
        · exact ⟨hax, h1⟩
        · have := hal b hb
          exact ⟨by rw [this.1]; exact hax, by rw [h1.1, this.1], fun k hk => by rw [h1.2 k hk, this.2 k hk]⟩
      · intro j b hj i hi
        cases j with
        | zero =>
          simp at hj; subst hj
          have he : i.set axis (i.getD axis 0 + 0) = i := by
            apply List.ext_getElem?
            intro k
            rw [List.getElem?_set]
            split
            · rename_i h; subst h
              have hil : axis < i.length := by rw [(inRange_iff.1 hi).1]; exact hax
              rw [if_pos hil, List.getD_eq_getElem?_getD, List.getElem?_eq_getElem hil]; rfl
            · rfl
          simp only [List.take_zero, List.map_nil, List.sum_nil, he]
          exact h3 i hi
        | succ j =>
          simp only [List.take_succ_cons, List.map_cons, List.sum_cons]
          exact h4 j b (by simpa using hj) i hi
    · cases h

theorem newAxis_spec {a : Nd α} {i : List ℕ} (hi : InRange a.shape i) : InRange a.newAxis.shape (i ++ [0]) ∧ a.newAxis.get (i ++ [0]) = a.get i := by
  refine ⟨List.rel_append hi (.cons (by omega) .nil), ?_⟩
  show a.get (List.take _ _) = _
  rw [take_inRange hi]

end Nd

/-! ### Coordinates -/

/-- The labels of a one dimensional coordinate. -/
def labels1 : MCoord → List (Option ℚ)
  | .one _ c => c.labels
  | .nd _ => []

/-- The values of a one dimensional coordinate. -/
def vals1 : MCoord → List ℚ
  | .one _ c => c.vals
  | .nd _ => []

theorem labels_vals {c : Coord} (h : ∀ n, c ≠ .part n) : c.labels = c.vals.map some := by
  cases c with
  | part n => exact absurd rfl (h n)
  | _ => rfl

theorem joinCoords_spec : ∀ {cs : List MCoord} {r : MCoord}, joinCoords cs = .ok r →
    (∀ c ∈ cs, ∃ k x, c = .one k x) ∧ ∃ k d, r = .one k d ∧ (∀ r, d ≠ .range r) ∧ d.labels = cs.flatMap labels1 ∧ d.vals = cs.flatMap vals1
  | [], _, h => by cases h
  | .nd a :: l, _, h => by
    cases l <;> simp [joinCoords] at h
  | [.one k c], r, h => by
    refine ⟨fun c hc => by simp at hc; exact ⟨_, _, hc⟩, ?_⟩
    cases c with
    | part n => cases h; exact ⟨k, _, rfl, by simp, by simp [labels1], by simp [vals1, Coord.vals]⟩
    | range r' => cases h; exact ⟨k, _, rfl, by simp, by simp [labels1, Coord.labels, Coord.vals], by simp [vals1, Coord.vals]⟩
    | mono vs => cases h; exact ⟨k, _, rfl, by simp, by simp [labels1, Coord.labels, Coord.vals], by simp [vals1, Coord.vals]⟩
    | arr vs => cases h; exact ⟨k, _, rfl, by simp, by simp [labels1, Coord.labels, Coord.vals], by simp [vals1, Coord.vals]⟩
  | .one k c :: c2 :: l, r, h => by
    have h : (joinCoords (c2 :: l)).bind (joinStep k c) = .ok r := by rw [← h]; cases c <;> rfl
    cases hj : joinCoords (c2 :: l) with
    | error e => rw [hj] at h; cases h
    | ok x =>
      rw [hj] at h
      obtain ⟨h1, k', d, rfl, h2, h3, h4⟩ := joinCoords_spec hj
      refine ⟨fun x hx => ?_, ?_⟩
      · rcases List.mem_cons.1 hx with rfl | hx
        · exact ⟨_, _, rfl⟩
        · exact h1 x hx
      · by_cases hp : ∃ n, d = .part n
        · obtain ⟨n, rfl⟩ := hp
          cases c with
          | part m =>
            obtain ⟨k2, _, rfl⟩ := except_map_ok h
            refine ⟨k2, _, rfl, by simp, ?_, ?_⟩
            · rw [List.flatMap_cons, ← h3]
              simp [labels1, Coord.labels]
            · rw [List.flatMap_cons, ← h4]
              simp [vals1, Coord.vals]
          | range _ => cases h
          | mono _ => cases h
          | arr _ => cases h
        · have hp' : ∀ n, d ≠ .part n := fun n hn => hp ⟨n, hn⟩
          have key : (∀ n, c ≠ .part n) ∧ (joinKind k k').map (fun k => MCoord.one k (.arr (c.vals ++ d.vals))) = .ok r := by
            cases d with
            | part n => exact absurd rfl (hp' n)
            | range r' => exact absurd rfl (h2 r')
            | mono vs => cases c with
              | part m => cases h
              | _ => exact ⟨by simp, h⟩
            | arr vs => cases c with
              | part m => cases h
              | _ => exact ⟨by simp, h⟩
          obtain ⟨k2, _, rfl⟩ := except_map_ok key.2
          refine ⟨k2, _, rfl, by simp, ?_, ?_⟩
          · rw [List.flatMap_cons, ← h3, labels_vals hp']
            show List.map some (c.vals ++ d.vals) = c.labels ++ _
            rw [labels_vals key.1, List.map_append]
          · rw [List.flatMap_cons, ← h4]; rfl

theorem flatMap_at {γ δ : Type} {f : γ → List δ} : ∀ {l : List γ} {j : ℕ} {p : γ} {k : ℕ}, l[j]? = some p → k < (f p).length →
    (l.flatMap f)[k + ((l.take j).map fun x => (f x).length).sum]? = (f p)[k]?
  | [], j, p, k, h, _ => by simp at h
  | a :: l, 0, p, k, h, hk => by
    simp at h; subst h
    simp [List.flatMap_cons, List.getElem?_append_left hk]
  | a :: l, j + 1, p, k, h, hk => by
    rw [List.flatMap_cons, List.take_succ_cons, List.map_cons, List.sum_cons, List.getElem?_append_right (by omega)]
    rw [← flatMap_at (l := l) (j := j) (by simpa using h) hk]
    congr 1; omega

/-! ### Dropping private coordinates -/

theorem dropped_regular {m m' : CM} {names : List String} (hm : Regular m) (h : m.dropCoords names = .ok m') (hD : Dropped m m' names)
    (hdims : ∀ d ∈ m.dims, d ∉ names) : Regular m' ∧ m'.dims = m.dims := by
  have hd : m'.dims = m.dims := by
    rw [hD.dims, List.filter_eq_self]; intro d hd; simpa using hdims d hd
  obtain ⟨hw, hdd⟩ := CM.dropCoords_wf h hm.wf
  have key : ∀ name ds c, (name, ds, c) ∈ m'.ents → (name, ds, c) ∈ m.ents := by
    intro name ds c hmem
    have hg := Dict.get?_of_mem hw.names hmem
    cases hx : m.ents.get? name with
    | none => rw [hD.none name hx] at hg; cases hg
    | some v =>
      obtain ⟨ds', c'⟩ := v
      by_cases hb : name ∈ names ∨ ∃ d ∈ ds', d ∈ names
      · rw [hD.gone name ds' c' hx hb] at hg; cases hg
      · push Not at hb
        rw [hD.kept name ds' c' hx hb.1 hb.2] at hg
        cases hg
        exact Dict.mem_of_get? hx
  refine ⟨⟨hw, hdd hm.distinct, fun name ds c hc => hm.coordDims name ds c (key _ _ _ hc), fun name ds k c hc => hm.classes name ds k c (key _ _ _ hc), ?_⟩, hd⟩
  intro name hn
  obtain ⟨⟨ds, c⟩, hv⟩ := Dict.mem_keys.1 hn
  rw [hd]
  exact hm.plain name (List.mem_map_of_mem (key _ _ _ (Dict.mem_of_get? hv)))

variable {α β : Type}

/-- What the proofs need of the patches to join. -/
structure Sound (p : HPatch α β) : Prop where
  reg : Regular p.cm
  dims : p.cm.dims ≠ []
  shape : p.cm.shape = p.data.shape

theorem Sound.shape_eq {p : HPatch α β} (h : Sound p) : p.data.shape = p.cm.dims.map (lenDim p.cm) := by
  rw [← h.shape]; unfold CM.shape; rw [if_neg h.dims]; rfl

theorem private_iff {n : String} : "_".toList.isPrefixOf n.toList = true ↔ isPrivate n := by
  unfold isPrivate
  rw [List.isPrefixOf_iff_prefix]
  constructor
  · rintro ⟨l, hl⟩; exact ⟨l, hl.symm⟩
  · rintro ⟨l, hl⟩; exact ⟨l, hl.symm⟩

open Classical in
theorem dropPrivate_spec {p q : HPatch α β} (hp : Sound p) (hpub : ∀ d ∈ p.cm.dims, ¬ isPrivate d) (h : p.dropPrivate = .ok q) :
    NoPrivate p q ∧ Sound q ∧ q.cm.dims = p.cm.dims := by
  unfold HPatch.dropPrivate at h
  simp only [bind, Except.bind] at h
  split at h
  · cases h
  rename_i cm hcm
  split at h
  · cases h
  rename_i q' hq
  cases h
  have hnames : (p.cm.ents.keys.filter fun n => "_".toList.isPrefixOf n.toList) = p.cm.ents.keys.filter fun n => decide (isPrivate n) := by
    apply List.filter_congr
    intro n _
    rw [Bool.eq_iff_iff, private_iff]; simp
  rw [hnames] at hcm hq
  obtain ⟨cm', h1, hD⟩ := dropCoords_spec hp.reg.wf (p.cm.ents.keys.filter fun n => decide (isPrivate n))
  rw [hcm] at h1; cases h1
  have hdn : ∀ d ∈ p.cm.dims, d ∉ p.cm.ents.keys.filter fun n => decide (isPrivate n) := by
    intro d hd hc
    exact hpub d hd (by simpa using (List.mem_filter.1 hc).2)
  obtain ⟨hr, hd⟩ := dropped_regular hp.reg hcm hD hdn
  have : (p.cm.dims.zipIdx.filter fun d => (p.cm.ents.keys.filter fun n => decide (isPrivate n)).contains d.1) = [] := by
    rw [List.filter_eq_nil_iff]
    rintro ⟨d, k⟩ hk
    have := hdn d (List.fst_mem_of_mem_zipIdx hk)
    simpa using this
  rw [this] at hq
  obtain ⟨rfl, hs⟩ := new_ok hq
  exact ⟨⟨hD, rfl, rfl, rfl⟩, ⟨hr, by rw [hd]; exact hp.dims, hs⟩, hd⟩

/-! ### One group -/

theorem coord_at {m : CM} (hm : Regular m) {dim : String} (hd : dim ∈ m.dims) {c : MCoord} (h : coordOf m dim = .ok c) :
    m.ents.get? dim = some ([dim], c) ∧ lenDim m dim = c.len := by
  unfold coordOf at h
  obtain ⟨c', n, h1, h2, h3⟩ := CM.WellFormed.get_dim hm.wf hd
  rw [h1] at h
  cases h
  exact ⟨h1, by unfold lenDim; rw [h3]; unfold MCoord.len; rw [h2]; rfl⟩

theorem getD_map_len {m : CM} {dims : List String} {dim : String} (h : dim ∈ dims) :
    (dims.map (lenDim m)).getD (dims.idxOf dim) 0 = lenDim m dim := by
  have hlt := List.idxOf_lt_length_of_mem h
  rw [List.getD_eq_getElem?_getD, List.getElem?_map, List.getElem?_eq_getElem hlt]
  simp

theorem moved_getD {dims : List String} {dim d : String} {off : ℕ} {i : List ℕ} (hd : d ∈ dims) (hi : i.length = dims.length) :
    (movedAlong dims dim off i).getD (dims.idxOf d) 0 = i.getD (dims.idxOf d) 0 + if d = dim then off else 0 := by
  unfold movedAlong
  have hlt := List.idxOf_lt_length_of_mem hd
  rw [getD_set']
  by_cases h : d = dim
  · subst h
    rw [if_pos ⟨rfl, by omega⟩, if_pos rfl]
  · rw [if_neg, if_neg h, Nat.add_zero]
    rintro ⟨h1, _⟩
    exact h ((List.idxOf_inj hd).1 h1)

theorem joined_spec {dim : String} {g : List (HPatch α β)} {q : HPatch α β} {dims : List String} (hs : ∀ p ∈ g, Sound p)
    (hdims : ∀ p ∈ g, p.cm.dims = dims) (hdim : dim ∈ dims) (h : concatGroup dim dims false g = .ok q) : Joined dim g q := by
  cases g with
  | nil => cases h
  | cons p l =>
    simp only [concatGroup, bind, Except.bind] at h
    set g := p :: l with hg
    have hp : p ∈ g := by rw [hg]; simp
    have hsp := hs p hp
    have hpd := hdims p hp
    split at h
    · cases h
    rename_i data hdata
    split at h
    · cases h
    rename_i arg harg
    split at h
    · cases h
    rename_i cm hcm
    split at h
    · cases h
    rename_i q' hq
    cases h
    obtain ⟨rfl, hsh⟩ := new_ok hq
    simp only [concatArg, Bool.false_eq_true, if_false, bind, Except.bind] at hdata harg
    split at harg
    · cases harg
    rename_i cs hcs
    split at harg
    · cases harg
    rename_i c hc
    cases harg
    obtain ⟨hone, k, d, rfl, hnr, hlab, hval⟩ := joinCoords_spec hc
    have hF := mapM_forall₂ hcs
    obtain ⟨hlen, halike, hget⟩ := Nd.concat_spec hdata
    -- every member
    have hmem : ∀ (j : ℕ) r, g[j]? = some r → ∃ kr cr, cs[j]? = some (.one kr cr) ∧ r.cm.ents.get? dim = some ([dim], .one kr cr) ∧ cr.Wf ∧
        lenDim r.cm dim = cr.length := by
      intro j r hj
      have hrg := List.mem_of_getElem? hj
      obtain ⟨hj1, hj2⟩ := List.getElem?_eq_some_iff.1 hj
      have hl := hF.length_eq
      have hcj : coordOf r.cm dim = .ok cs[j] := by
        have := hF.get (i := j) hj1 (by omega)
        simpa [hj2] using this
      obtain ⟨kr, cr, hcr⟩ := hone cs[j] (List.getElem_mem _)
      rw [hcr] at hcj
      obtain ⟨g1, g2⟩ := coord_at (hs r hrg).reg (by rw [hdims r hrg]; exact hdim) hcj
      refine ⟨kr, cr, ?_, g1, (hs r hrg).reg.classes _ _ _ _ (Dict.mem_of_get? g1), g2⟩
      rw [List.getElem?_eq_getElem (by omega), hcr]
    have hlens : ∀ r ∈ g, r.data.shape.getD (dims.idxOf dim) 0 = lenDim r.cm dim := by
      intro r hr
      rw [(hs r hr).shape_eq, hdims r hr, getD_map_len hdim]
    have hlabs : g.map (fun r => lenDim r.cm dim) = cs.map fun c => (labels1 c).length := by
      apply List.ext_getElem?
      intro j
      rw [List.getElem?_map, List.getElem?_map]
      cases hj : g[j]? with
      | none =>
        rw [List.getElem?_eq_none_iff] at hj
        have := hF.length_eq
        rw [List.getElem?_eq_none (by omega)]; rfl
      | some r =>
        obtain ⟨kr, cr, h1, h2, h3, h4⟩ := hmem j r hj
        rw [h1]
        simp only [Option.map_some, labels1, labels_length h3, h4]
    have hplain : ∀ n ∈ Dict.keys [(dim, CArg.simple (.one k d))], matchesPrefixSuffix p.cm.dims n = false := by
      intro n hn
      simp [Dict.keys] at hn; subst hn
      obtain ⟨kr, cr, _, h2, _⟩ := hmem 0 p (by rw [hg]; rfl)
      exact hsp.reg.plain n (Dict.mem_keys.2 ⟨_, h2⟩)
    have hU := update_spec hsp.reg.wf (by simp [Dict.keys]) hplain hcm
    have hcmd : cm.dims = dims := by
      rw [hU.dims]
      simp [dropNames, CArg.isDrop, argOf, hpd, hdim]
    have hown : Dict.get? [(dim, CArg.simple (.one k d))] dim = some (.simple (.one k d)) := by simp [Dict.get?]
    obtain ⟨x, hx1, hx2⟩ := hU.givenC dim _ _ _ hown rfl
    obtain ⟨k0, c0, _, hp0, _, hp0l⟩ := hmem 0 p (by rw [hg]; rfl)
    have hxlen := canon_length hx1
    have hdl : d.length = (g.map fun r => lenDim r.cm dim).sum := by
      have : d.labels.length = d.length := labels_length' (fun r hr => absurd hr (hnr r))
      rw [← this, hlab, List.length_flatMap, hlabs]
    have hqlen : lenDim cm dim = d.length := by
      unfold lenDim Ents.lenOf; rw [hx2]; simp only [MCoord.len]; rw [hxlen]; rfl
    have hshape : data.shape = cm.dims.map (lenDim cm) := by
      rw [← hsh]; unfold CM.shape; rw [if_neg (by rw [hcmd]; intro hc; rw [hc] at hdim; cases hdim)]; rfl
    have hothers : ∀ r ∈ g, ∀ e ∈ r.cm.dims, e ≠ dim → lenDim cm e = lenDim r.cm e := by
      intro r hr e he hne
      rw [hdims r hr] at he
      obtain ⟨a1, a2, a3⟩ := halike r.data (List.mem_map_of_mem hr)
      have := a3 (dims.idxOf e) (fun hc => hne ((List.idxOf_inj he).1 hc))
      rw [hshape, (hs r hr).shape_eq, hdims r hr, hcmd, getD_map_len he, getD_map_len he] at this
      exact this
    have hbefore : ∀ j, before dim g j = (((g.map fun r => r.data).take j).map fun b => b.shape.getD (dims.idxOf dim) 0).sum := by
      intro j
      unfold before
      rw [← List.map_take, List.map_map]
      congr 1
      refine List.map_congr_left fun r hr => ?_
      exact (hlens r (List.mem_of_mem_take hr)).symm
    have hres : ∀ e, Resized p.cm [(dim, CArg.simple (.one k d))] e → e = dim := by
      rintro e ⟨_, a, _, _, _, _, h2, _⟩
      simp only [Dict.get?] at h2
      by_contra hne
      simp [Ne.symm hne] at h2
    have hnk : ∀ name, name ≠ dim → Dict.get? [(dim, CArg.simple (.one k d))] name = none := by
      intro name hne
      simp [Dict.get?, Ne.symm hne]
    refine ⟨?_, hshape, ?_, hothers, ?_, ?_, ?_, ?_, ?_, ?_⟩
    · intro r hr; rw [hdims r hr]; exact hcmd
    · show lenDim cm dim = _
      rw [hqlen, hdl]
    · intro j r hj i hi
      have := hget j r.data (by rw [List.getElem?_map, hj]; rfl) i hi
      rw [← hbefore] at this
      show InRange data.shape (movedAlong cm.dims dim _ i) ∧ data.get (movedAlong cm.dims dim _ i) = _
      unfold movedAlong
      rw [hcmd]
      exact this
    · intro hst j r hj i hi
      have hrg := List.mem_of_getElem? hj
      obtain ⟨kr, cr, h1, h2, h3, h4⟩ := hmem j r hj
      obtain ⟨y, rfl, hy, _⟩ := canon_one hx1
      have hvals : allLabels dim g = d.vals := by
        rw [hval]
        unfold allLabels
        rw [List.flatMap_def, List.flatMap_def]
        congr 1
        apply List.ext_getElem?
        intro j
        rw [List.getElem?_map, List.getElem?_map]
        cases hj : g[j]? with
        | none =>
          rw [List.getElem?_eq_none_iff] at hj
          have := hF.length_eq
          rw [List.getElem?_eq_none (by omega)]; rfl
        | some r =>
          obtain ⟨kr, cr, h1, h2, h3, h4⟩ := hmem j r hj
          rw [h1]
          simp only [Option.map_some, valuesOf, h2, vals1]
      have hy' := hy (hvals ▸ hst)
      have hil : i.length = dims.length := by
        have := inRange_length hi
        rw [(hs r hrg).shape_eq, hdims r hrg] at this
        simpa using this
      unfold label
      simp only [hx2, h2]
      congr 1
      unfold labelAt
      simp only [MCoord.arr, List.map_cons, List.map_nil, List.getD_cons_zero]
      rw [hcmd, moved_getD hdim hil, if_pos rfl, hdims r hrg, hy', hlab]
      have hpos : i.getD (dims.idxOf dim) 0 < (labels1 (.one kr cr)).length := by
        have h5 := (inRange_iff.1 hi).2 (dims.idxOf dim) (by rw [(hs r hrg).shape_eq, hdims r hrg]; simpa using List.idxOf_lt_length_of_mem hdim)
        rw [hlens r hrg, h4] at h5
        simpa [labels1, labels_length h3] using h5
      have hb : before dim g j = ((cs.take j).map fun c => (labels1 c).length).sum := by
        unfold before
        rw [List.map_take, hlabs, List.map_take]
      have hfm := flatMap_at (f := labels1) h1 hpos
      rw [← hb] at hfm
      rw [List.getD_eq_getElem?_getD (l := List.flatMap labels1 cs), hfm, ← List.getD_eq_getElem?_getD]
      rfl
    · intro p' hp' name ds c hn hnd hne hst i
      rw [hg] at hp'; cases hp'
      obtain ⟨x', h1, h2⟩ := hU.kept name ds c (hnk name hne) hn (fun e he => ⟨by simp [dropNames, CArg.isDrop], fun hr => hnd (hres e hr ▸ he)⟩)
      unfold label
      rw [hn]
      simp only [h2]
      cases ds with
      | nil => rfl
      | cons d0 ds =>
        simp only [h1.2 hst, hcmd, hpd]
    · intro p' hp' name ds c hn hne hdd hll
      rw [hg] at hp'; cases hp'
      refine hU.lost name ds c (hnk name hne) hn ⟨dim, hdd, Or.inr ⟨by rw [hpd]; exact hdim, _, _, _, _, _, hown, rfl, hp0, ?_⟩⟩
      intro hc
      apply hll
      show lenDim cm dim = lenDim p.cm dim
      rw [hqlen, hp0l]
      simpa [MCoord.len, MCoord.shape, MCoord.arr] using hc
    · intro p' hp' name hn
      rw [hg] at hp'; cases hp'
      refine hU.none name (hnk name ?_) hn
      rintro rfl
      rw [hn] at hp0; cases hp0
    · intro p' hp'
      rw [hg] at hp'; cases hp'
      exact ⟨rfl, rfl⟩

/-! ### One group along a new dimension -/

theorem stacked_spec {dim : String} {g : List (HPatch α β)} {q : HPatch α β} {dims : List String} (hs : ∀ p ∈ g, Sound p)
    (hdims : ∀ p ∈ g, p.cm.dims = dims) (hdim : dim ∉ dims) (hpl : matchesPrefixSuffix dims dim = false)
    (h : concatGroup dim (dims ++ [dim]) true g = .ok q) : Stacked dim g q := by
  cases g with
  | nil => cases h
  | cons p l =>
    simp only [concatGroup, bind, Except.bind] at h
    set g := p :: l with hg
    have hp : p ∈ g := by rw [hg]; simp
    have hsp := hs p hp
    have hpd := hdims p hp
    split at h
    · cases h
    rename_i data hdata
    split at h
    · cases h
    rename_i arg harg
    split at h
    · cases h
    rename_i cm hcm
    split at h
    · cases h
    rename_i q' hq
    cases h
    obtain ⟨rfl, hsh⟩ := new_ok hq
    simp only [concatArg, if_true] at hdata harg
    cases harg
    have hax : (dims ++ [dim]).idxOf dim = dims.length := by
      rw [List.idxOf_append_of_notMem hdim]; simp
    rw [hax] at hdata
    obtain ⟨hlen, halike, hget⟩ := Nd.concat_spec hdata
    have hplain : ∀ n ∈ Dict.keys [(dim, CArg.nested [dim] (.one .float (.part g.length)))], matchesPrefixSuffix p.cm.dims n = false := by
      intro n hn
      simp [Dict.keys] at hn; subst hn
      rw [hpd]; exact hpl
    have hU := update_spec hsp.reg.wf (by simp [Dict.keys]) hplain hcm
    have hcmd : cm.dims = dims ++ [dim] := by
      rw [hU.dims]
      simp [dropNames, CArg.isDrop, argOf, hpd, hdim]
    have hown : Dict.get? [(dim, CArg.nested [dim] (.one .float (.part g.length)))] dim = some (.nested [dim] (.one .float (.part g.length))) := by
      simp [Dict.get?]
    obtain ⟨x, hx1, hx2⟩ := hU.givenC dim _ _ _ hown rfl
    cases hx1
    have hlenr : ∀ r ∈ g, r.data.shape.length = dims.length := by
      intro r hr; rw [(hs r hr).shape_eq, hdims r hr]; simp
    have hones : ∀ r ∈ g, (r.data.newAxis).shape.getD dims.length 0 = 1 := by
      intro r hr
      show (r.data.shape ++ [1]).getD _ 0 = 1
      rw [← hlenr r hr, List.getD_eq_getElem?_getD, List.getElem?_concat_length]; rfl
    have hsum : ∀ g' : List (HPatch α β), (∀ r ∈ g', r ∈ g) → ((g'.map fun r => r.data.newAxis).map fun b => b.shape.getD dims.length 0).sum = g'.length := by
      intro g' hg'
      rw [List.map_map]
      have : g'.map ((fun b : Nd α => b.shape.getD dims.length 0) ∘ fun r => r.data.newAxis) = List.replicate g'.length 1 := by
        rw [List.eq_replicate_iff]
        refine ⟨by simp, fun b hb => ?_⟩
        obtain ⟨r, hr, rfl⟩ := List.mem_map.1 hb
        exact hones r (hg' r hr)
      rw [this]; simp
    have hres : ∀ e, ¬ Resized p.cm [(dim, CArg.nested [dim] (.one .float (.part g.length)))] e := by
      rintro e ⟨h1, a, _, _, _, _, h2, _⟩
      simp only [Dict.get?] at h2
      by_cases hne : dim = e
      · subst hne; rw [hpd] at h1; exact hdim h1
      · simp [hne] at h2
    have hnk : ∀ name, name ≠ dim → Dict.get? [(dim, CArg.nested [dim] (.one .float (.part g.length)))] name = none := by
      intro name hne
      simp [Dict.get?, Ne.symm hne]
    refine ⟨?_, ?_, ?_, ⟨_, hx2⟩, ?_, ?_, ?_⟩
    · intro r hr; rw [hdims r hr]; exact hcmd
    · intro r hr
      show data.shape = _
      obtain ⟨a1, a2, a3⟩ := halike r.data.newAxis (List.mem_map.2 ⟨r, hr, rfl⟩)
      have hl : data.shape.length = dims.length + 1 := by
        rw [a2]; show (r.data.shape ++ [1]).length = _; simp [hlenr r hr]
      apply List.ext_getElem?
      intro k
      by_cases hk : k = dims.length
      · subst hk
        rw [hsum g (fun _ h => h)] at hlen
        rw [← hlenr r hr, List.getElem?_concat_length, hlenr r hr, List.getElem?_eq_getElem (by omega)]
        rw [List.getD_eq_getElem?_getD, List.getElem?_eq_getElem (by omega)] at hlen
        simpa using hlen
      · by_cases hk2 : k < dims.length
        · have := a3 k hk
          rw [List.getD_eq_getElem?_getD, List.getElem?_eq_getElem (by omega)] at this
          rw [List.getElem?_eq_getElem (by omega), List.getElem?_append_left (by rw [hlenr r hr]; exact hk2),
            List.getElem?_eq_getElem (by rw [hlenr r hr]; exact hk2)]
          have e : (r.data.newAxis).shape.getD k 0 = r.data.shape[k]'(by rw [hlenr r hr]; exact hk2) := by
            show (r.data.shape ++ [1]).getD k 0 = _
            rw [List.getD_eq_getElem?_getD, List.getElem?_append_left (by rw [hlenr r hr]; exact hk2),
              List.getElem?_eq_getElem (by rw [hlenr r hr]; exact hk2)]; rfl
          rw [e] at this
          simpa using this
        · rw [List.getElem?_eq_none (by omega), List.getElem?_eq_none (by simp [hlenr r hr]; omega)]
    · intro j r hj i hi
      have hr := List.mem_of_getElem? hj
      obtain ⟨n1, n2⟩ := Nd.newAxis_spec hi
      obtain ⟨_, g2⟩ := hget j r.data.newAxis (by rw [List.getElem?_map, hj]; rfl) _ n1
      rw [← List.map_take, hsum _ (fun r hr => List.mem_of_mem_take hr), n2] at g2
      show data.get _ = _
      rw [← g2]
      congr 1
      have hil : i.length = dims.length := by rw [inRange_length hi, hlenr r hr]
      have hjl := (List.getElem?_eq_some_iff.1 hj).1
      have hj' : (g.take j).length = j := by rw [List.length_take]; omega
      rw [hj', ← hil, List.getD_eq_getElem?_getD, List.getElem?_concat_length, List.set_append_right _ _ (by omega)]
      simp
    · intro p' hp' name ds c hn hne hst i j hi
      rw [hg] at hp'; cases hp'
      obtain ⟨x', h1, h2⟩ := hU.kept name ds c (hnk name hne) hn (fun e he => ⟨by simp [dropNames, CArg.isDrop], hres e⟩)
      unfold label
      rw [hn]
      simp only [h2]
      cases ds with
      | nil => rfl
      | cons d0 ds =>
        simp only [h1.2 hst]
        congr 1
        unfold labelAt
        congr 1
        refine List.map_congr_left fun d hdd => ?_
        have hdm := hsp.reg.wf.attached _ _ _ (Dict.mem_of_get? hn) d hdd
        rw [hpd] at hdm
        have hlt := List.idxOf_lt_length_of_mem hdm
        rw [hcmd, hpd, List.idxOf_append_of_mem hdm]
        apply append_getD
        rw [inRange_length hi, hlenr p hp]; exact hlt
    · intro p' hp' name hne hn
      rw [hg] at hp'; cases hp'
      exact hU.none name (hnk name hne) hn
    · intro p' hp'
      rw [hg] at hp'; cases hp'
      exact ⟨rfl, rfl⟩

/-! ### Groups -/

theorem flatten_groups {γ : Type} (n : ℕ) : ∀ (m : ℕ) (l : List γ), ((List.range m).map fun k => (l.drop (k * n)).take n).flatten = l.take (m * n)
  | 0, l => by simp
  | m + 1, l => by
    rw [List.range_succ, List.map_append, List.flatten_append, flatten_groups n m l]
    simp only [List.map_cons, List.map_nil, List.flatten_cons, List.flatten_nil, List.append_nil]
    rw [Nat.succ_mul, List.take_add]

theorem subSequences_spec {γ : Type} {l : List γ} {n : Option ℕ} {gs : List (List γ)} (h0 : ∀ k, n = some k → 0 < k)
    (h : subSequences l (n.map Int.ofNat) = .ok gs) : Grouped n l gs := by
  cases n with
  | none =>
    simp only [Option.map_none, subSequences] at h
    split_ifs at h with hl
    cases h
    exact ⟨by simp, by simpa using hl, by simp, by simp, by simp⟩
  | some n =>
    have hn := h0 n rfl
    simp only [Option.map_some, subSequences] at h
    rw [if_neg (by simp; omega), if_neg (by simp)] at h
    cases h
    simp only [Int.ofNat_eq_natCast, Int.toNat_natCast]
    set m := (l.length + n - 1) / n with hm
    have hm1 : l.length ≤ m * n := by
      have := Nat.lt_div_mul_add (a := l.length + n - 1) hn
      rw [← hm] at this; omega
    have hm2 : ∀ k < m, k * n < l.length := by
      intro k hk
      have h1 : (k + 1) * n ≤ m * n := Nat.mul_le_mul_right _ hk
      have h2 := Nat.div_mul_le_self (l.length + n - 1) n
      rw [← hm] at h2
      rw [Nat.add_mul] at h1; omega
    refine ⟨?_, ?_, by simp, ?_, ?_⟩
    · rw [flatten_groups, List.take_of_length_le hm1]
    · intro g hg
      obtain ⟨k, hk, rfl⟩ := List.mem_map.1 hg
      have := hm2 k (by simpa using hk)
      rw [← List.length_pos_iff, List.length_take, List.length_drop]; omega
    · rintro k hk g hg
      cases hk
      obtain ⟨k, _, rfl⟩ := List.mem_map.1 hg
      simp
    · rintro k hk j g hj hg
      cases hk
      simp only [List.length_map, List.length_range] at hj
      rw [List.getElem?_map, List.getElem?_range (by omega)] at hg
      cases hg
      have := hm2 (j + 1) hj
      rw [List.length_take, List.length_drop]
      rw [Nat.add_mul] at this
      omega

end Verif
