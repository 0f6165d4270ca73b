import Verif.Proof.ArithAlign
/-! # Lemmas: arithmetic between patches -/
namespace Verif
open Spec

theorem mergeTuples_eq {a b : List String} (ha : a.Nodup) (hb : b.Nodup) : mergeTuples a b = joinDims' a b := by
  have key : ∀ (l acc : List String), l.Nodup →
      l.foldl (fun l x => if l.contains x then l else l ++ [x]) acc = acc ++ l.filter fun d => d ∉ acc := by
    intro l
    induction l with
    | nil => intro acc _; simp
    | cons x l ih =>
      intro acc hl
      rw [List.nodup_cons] at hl
      rw [List.foldl_cons]
      by_cases hx : x ∈ acc
      · rw [if_pos (by simpa using hx), ih acc hl.2, List.filter_cons_of_neg (by simpa using hx)]
      · rw [if_neg (by simpa using hx), ih _ hl.2, List.filter_cons_of_pos (by simpa using hx), List.append_assoc, List.singleton_append]
        congr 2
        refine List.filter_congr fun d hd => ?_
        have : d ≠ x := fun h => hl.1 (h ▸ hd)
        simp [this]
  unfold mergeTuples joinDims'
  rw [List.foldl_append, key a [] ha, key b _ hb]
  simp

theorem approxEqual_labels {k k' : Kind} {x y : Coord} (hx : x.Wf) (hy : y.Wf) (hcl : CloseIsEqual x.vals y.vals)
    (h : (MCoord.one k x).approxEqual (.one k' y) none none = true) :
    x.labels = y.labels ∧ ((∃ n, x = .part n ∧ y = .part n) ∨ ((∀ n, x ≠ .part n) ∧ (∀ n, y ≠ .part n))) := by
  unfold MCoord.approxEqual at h
  split at h
  · cases h
  rename_i hs
  push Not at hs
  rw [one_shape, one_shape] at hs
  have hlen : x.length = y.length := by simpa using hs
  by_cases hxp : ∃ n, x = .part n
  · by_cases hyp : ∃ n, y = .part n
    · obtain ⟨n, rfl⟩ := hxp
      obtain ⟨m, rfl⟩ := hyp
      have : n = m := hlen
      subst this
      exact ⟨rfl, Or.inl ⟨n, rfl, rfl⟩⟩
    · have e2 : (MCoord.one k' y).isPartial = false := by
        rw [← Bool.not_eq_true, isPartial_one]; exact hyp
      rw [e2, isPartial_one.2 hxp] at h
      simp at h
  · have e1 : (MCoord.one k x).isPartial = false := by
      rw [← Bool.not_eq_true, isPartial_one]; exact hxp
    by_cases hyp : ∃ n, y = .part n
    · rw [e1, isPartial_one.2 hyp] at h
      simp at h
    · have e2 : (MCoord.one k' y).isPartial = false := by
        rw [← Bool.not_eq_true, isPartial_one]; exact hyp
      have hx' : ∀ n, x ≠ .part n := fun n hn => hxp ⟨n, hn⟩
      have hy' : ∀ n, y ≠ .part n := fun n hn => hyp ⟨n, hn⟩
      rw [e1, e2] at h
      simp only [Bool.and_self, Bool.or_self, Bool.false_eq_true, if_false] at h
      unfold allClose at h
      rw [Bool.and_eq_true, List.all_eq_true] at h
      have hv : x.vals = y.vals := by
        refine hcl (by rw [vals_length hx hx', vals_length hy hy', hlen]) ?_
        intro t a b ha hb
        have ht : t < x.length := by rw [← vals_length hx hx']; exact (List.getElem?_eq_some_iff.1 ha).1
        have := h.2 [t] (mem_indices.2 (.cons ht .nil))
        have ga : (MCoord.one k x).arr.get [t] = some a := by
          show x.labels.getD t none = some a
          rw [labels_vals hx', List.getD_eq_getElem?_getD, List.getElem?_map, ha]; rfl
        have gb : (MCoord.one k' y).arr.get [t] = some b := by
          show y.labels.getD t none = some b
          rw [labels_vals hy', List.getD_eq_getElem?_getD, List.getElem?_map, hb]; rfl
        rw [ga, gb] at this
        simp only [closeOrNull] at this
        split_ifs at this
        · rw [Bool.and_eq_true, decide_eq_true_iff, decide_eq_true_iff] at this
          rw [this.2, sub_self, abs_zero]
          positivity
        · rw [isClose_iff] at this
          norm_num at this ⊢
          exact this
      exact ⟨by rw [labels_vals hx', labels_vals hy', hv], Or.inr ⟨hx', hy'⟩⟩

theorem keys_sublist {V : Type} (X : String → Option V) (l : List String) :
    List.Sublist (Dict.keys ((l.map fun d => (d, X d)).filterMap fun x => x.2.map fun y => (x.1, y))) l := by
  induction l with
  | nil => exact .slnil
  | cons d l ih =>
    rw [List.map_cons, List.filterMap_cons]
    cases hxd : X d with
    | none => exact ih.cons _
    | some y => exact ih.cons_cons _

section
variable {α β γ : Type} {f : α → β → γ} {p : PatchM α} {q : PatchM β} {r : PatchM γ}

theorem own_labels {p p' : PatchM α} {D : List String} {red : String → List ℕ} (hp : Regular p.cm) (hL : Lay p p' D red) {d : String} (hd : d ∈ p.cm.dims)
    {k : Kind} {c : Coord} (hc : p.cm.ents.get? d = some ([d], .one k c)) (hr : red d = List.range (lenDim p.cm d)) :
    ∃ x, p'.cm.ents.get? d = some ([d], .one k x) ∧ x.Wf ∧ Storable x.vals ∧ x.labels = c.labels ∧ c.labels.length = lenDim p.cm d ∧
      x.length = lenDim p.cm d := by
  obtain ⟨x, h1, h2, h3, h4⟩ := hL.own d hd k c hc
  have hl : c.labels.length = lenDim p.cm d := by
    rw [labels_length (hp.classes _ _ _ _ (Dict.mem_of_get? hc)), (dim_one hp hd hc).2]; rfl
  have hx : x.labels = c.labels := by rw [h4, hr, ← hl, takeIdx_range_self]
  exact ⟨x, h1, h2, h3, hx, hl, by rw [← labels_length h2, hx, hl]⟩

/-- Everything `alignDim` can give for a shared dimension. -/
theorem alignDim_cases {argsort : List ℚ → List ℕ} (ha : IsArgsort argsort) {p' : PatchM α} {q' : PatchM β}
    {d : String} {k k' : Kind} {x y : Coord} (hx1 : p'.cm.ents.get? d = some ([d], .one k x)) (hy1 : q'.cm.ents.get? d = some ([d], .one k' y))
    (hx : x.Wf) (hy : y.Wf) (hsx : Storable x.vals) (hsy : Storable y.vals) (hnx : x.vals.Nodup) (hny : y.vals.Nodup)
    (hcl : CloseIsEqual x.vals y.vals)
    (hcom : ∀ l : List ℚ, l.Pairwise (· < ·) → (∀ v, v ∈ l ↔ v ∈ x.vals ∧ v ∈ y.vals) → Storable l)
    {o : Option (MCoord × MCoord × Indexer × Indexer)} (h : alignDim argsort p'.cm q'.cm d = .ok o) :
    (o = none ∧ Glued x.labels y.labels (List.range x.length) (List.range y.length)) ∨
    ∃ c1 d1 i1 i2 P Q, o = some (.one k c1, .one k' d1, i1, i2) ∧ AlignedDim x y c1 d1 i1 i2 P Q := by
  unfold alignDim at h
  rw [hx1, hy1] at h
  simp only at h
  split at h
  · cases h
  split at h
  · rename_i he
    cases h
    obtain ⟨h1, h2⟩ := pyEq_cases he hcl
    left
    have := glued_same h1 h2 hnx
    rw [labels_length hx, labels_length hy] at this
    exact ⟨rfl, this⟩
  · rename_i hk he
    obtain ⟨⟨c1, d1, i1, i2⟩, h1, rfl⟩ := except_map_ok h
    right
    obtain ⟨P, Q, hA⟩ := alignTo_glued ha hx hy hsx hsy hnx hny hcom (by simpa using he) h1
    exact ⟨c1, d1, i1, i2, P, Q, rfl, hA⟩

/-- `p''` and `q''` are `p` and `q` laid out along the dimensions of both, at the positions `P` and `Q`. -/
structure LaidOut (p p'' : PatchM α) (q q'' : PatchM β) (P Q : String → List ℕ) : Prop where
  left : Lay p p'' (joinDims' p.cm.dims q.cm.dims) P
  right : Lay q q'' (joinDims' p.cm.dims q.cm.dims) Q
  glued : ∀ d k c k' c', d ∈ p.cm.dims → d ∈ q.cm.dims → p.cm.ents.get? d = some ([d], .one k c) → q.cm.ents.get? d = some ([d], .one k' c') →
    Glued c.labels c'.labels (P d) (Q d)
  onlyLeft : ∀ d ∈ p.cm.dims, d ∉ q.cm.dims → P d = List.range (lenDim p.cm d)
  onlyRight : ∀ d ∈ q.cm.dims, d ∉ p.cm.dims → Q d = List.range (lenDim q.cm d)
  still : ∀ d ∈ p.cm.dims, Undisturbed p.cm q.cm d → P d = List.range (lenDim p.cm d)

theorem alignPatches_laidOut {argsort : List ℚ → List ℕ} (ha : IsArgsort argsort)
    (hp : Regular p.cm) (hq : Regular q.cm) (hpl : DimsListed p.cm) (hql : DimsListed q.cm)
    (hpd : p.cm.dims ≠ []) (hqd : q.cm.dims ≠ []) (hps : p.cm.shape = p.data.shape) (hqs : q.cm.shape = q.data.shape)
    (hJ : Joinable p.cm q.cm) (hE : p.cm.equals q.cm (fun _ => none) (fun _ => none) = true → p.cm.dims = q.cm.dims)
    {ab : PatchM α × PatchM β} (hab : alignPatches argsort p q = .ok ab) : ∃ P Q, LaidOut p ab.1 q ab.2 P Q := by
  have hwp : ∀ d k c, p.cm.ents.get? d = some ([d], .one k c) → c.Wf := fun d k c hc => hp.classes _ _ _ _ (Dict.mem_of_get? hc)
  have hwq : ∀ d k c, q.cm.ents.get? d = some ([d], .one k c) → c.Wf := fun d k c hc => hq.classes _ _ _ _ (Dict.mem_of_get? hc)
  have hlp : ∀ d k c, d ∈ p.cm.dims → p.cm.ents.get? d = some ([d], .one k c) → c.labels.length = lenDim p.cm d := fun d k c hd hc => by
    rw [labels_length (hwp d k c hc), (dim_one hp hd hc).2]; rfl
  have hlq : ∀ d k c, d ∈ q.cm.dims → q.cm.ents.get? d = some ([d], .one k c) → c.labels.length = lenDim q.cm d := fun d k c hd hc => by
    rw [labels_length (hwq d k c hc), (dim_one hq hd hc).2]; rfl
  unfold alignPatches at hab
  split at hab
  · rename_i heq
    cases hab
    have hdims : p.cm.dims = q.cm.dims := hE heq
    have hD : joinDims' p.cm.dims q.cm.dims = p.cm.dims := by
      unfold joinDims'
      rw [hdims]
      have : q.cm.dims.filter (fun d => decide (d ∉ q.cm.dims)) = [] := by
        rw [List.filter_eq_nil_iff]; intro d hd; simp [hd]
      rw [this, List.append_nil]
    have hL1 : Lay p p (joinDims' p.cm.dims q.cm.dims) fun d => List.range (lenDim p.cm d) := by
      rw [hD]; exact lay_self hp hpd hps hJ.left
    have hL2 : Lay q q (joinDims' p.cm.dims q.cm.dims) fun d => List.range (lenDim q.cm d) := by
      rw [hD, hdims]; exact lay_self hq hqd hqs hJ.right
    refine ⟨_, _, hL1, hL2, ?_, fun _ _ _ => rfl, fun _ _ _ => rfl, fun _ _ _ => rfl⟩
    intro d k c k' c' hdp hdq hc hc'
    have hce : (MCoord.one k c).approxEqual (.one k' c') none none = true := by
      unfold CM.equals at heq
      rw [Bool.and_eq_true, List.all_eq_true] at heq
      have := heq.2 d (by
        unfold CM.compared
        rw [List.mem_filter]
        exact ⟨Dict.mem_keys.2 ⟨_, hc⟩, by simp [hdp]⟩)
      unfold coordEqual at this
      rw [hc, hc'] at this
      exact this
    obtain ⟨h1, h2⟩ := approxEqual_labels (hwp d k c hc) (hwq d k' c' hc') (hJ.close d k c k' c' hdp hdq hc hc') hce
    have := glued_same h1 h2 (hJ.nodup d k c k' c' hdp hdq hc hc').1
    rw [hlp d k c hdp hc, hlq d k' c' hdq hc'] at this
    exact this
  · simp only at hab
    split at hab
    · cases hab
    simp only [bind, Except.bind] at hab
    rw [mergeTuples_eq hp.distinct hq.distinct] at hab
    set D := joinDims' p.cm.dims q.cm.dims with hDdef
    set shared := p.cm.dims.filter fun d => q.cm.dims.contains d with hshared
    split at hab
    · cases hab
    rename_i p' hp'
    split at hab
    · cases hab
    rename_i q' hq'
    split at hab
    · cases hab
    rename_i rr hrr
    have hsp : ∀ d ∈ p.cm.dims, d ∈ D := fun d h => mem_joinDims'.2 (Or.inl h)
    have hsq : ∀ d ∈ q.cm.dims, d ∈ D := fun d h => mem_joinDims'.2 (Or.inr h)
    have hDn : D.Nodup := joinDims'_nodup hp.distinct hq.distinct
    have hkeyD : ∀ d ∈ D, d ∈ p.cm.ents.keys ∨ d ∈ q.cm.ents.keys := by
      intro d hd
      rcases mem_joinDims'.1 hd with h | h
      · obtain ⟨k, c, hc⟩ := hpl d h; exact Or.inl (Dict.mem_keys.2 ⟨_, hc⟩)
      · obtain ⟨k, c, hc⟩ := hql d h; exact Or.inr (Dict.mem_keys.2 ⟨_, hc⟩)
    have hDne : D ≠ [] := by
      obtain ⟨d0, hd0⟩ := List.exists_mem_of_ne_nil _ hpd
      exact List.ne_nil_of_mem (hsp d0 hd0)
    have hplainD : ∀ d ∈ D, matchesPrefixSuffix D d = false := by
      intro d hd
      refine matches_mono hDne ?_ (hJ.plain d (hkeyD d hd))
      intro e he
      rw [List.mem_append]
      exact mem_joinDims'.1 he
    have hL1 := spread_lay hp hpd hps hJ.left hDn hsp (by
      intro d hd h1
      rcases mem_joinDims'.1 hd with h | h
      · exact absurd h h1
      · exact hJ.fresh.1 d h h1) (fun d hd => matches_mono hpd hsp (hplainD d hd)) hp'
    have hL2 := spread_lay hq hqd hqs hJ.right hDn hsq (by
      intro d hd h1
      rcases mem_joinDims'.1 hd with h | h
      · exact hJ.fresh.2 d h h1
      · exact absurd h h1) (fun d hd => matches_mono hqd hsq (hplainD d hd)) hq'
    have hmemS : ∀ d, d ∈ shared ↔ d ∈ p.cm.dims ∧ d ∈ q.cm.dims := by
      intro d; rw [hshared, List.mem_filter]; simp
    -- one shared dimension
    have hal : ∀ d, d ∈ p.cm.dims → d ∈ q.cm.dims → ∃ k c k' c' x y, p.cm.ents.get? d = some ([d], .one k c) ∧ q.cm.ents.get? d = some ([d], .one k' c') ∧
        p'.cm.ents.get? d = some ([d], .one k x) ∧ q'.cm.ents.get? d = some ([d], .one k' y) ∧ x.Wf ∧ y.Wf ∧ x.labels = c.labels ∧ y.labels = c'.labels ∧
        x.length = lenDim p.cm d ∧ y.length = lenDim q.cm d ∧
        ∀ o, alignDim argsort p'.cm q'.cm d = .ok o →
          (o = none ∧ Glued x.labels y.labels (List.range x.length) (List.range y.length)) ∨
          ∃ c1 d1 i1 i2 P Q, o = some (.one k c1, .one k' d1, i1, i2) ∧ AlignedDim x y c1 d1 i1 i2 P Q := by
      intro d hdp hdq
      obtain ⟨k, c, hc⟩ := hpl d hdp
      obtain ⟨k', c', hc'⟩ := hql d hdq
      obtain ⟨x, x1, x2, x3, x4, x5, x6⟩ := own_labels hp hL1 hdp hc (by simp [hdp])
      obtain ⟨y, y1, y2, y3, y4, y5, y6⟩ := own_labels hq hL2 hdq hc' (by simp [hdq])
      have e1 := vals_eq_of_labels x4
      have e2 := vals_eq_of_labels y4
      refine ⟨k, c, k', c', x, y, hc, hc', x1, y1, x2, y2, x4, y4, x6, y6, fun o ho => ?_⟩
      refine alignDim_cases ha x1 y1 x2 y2 x3 y3 ?_ ?_ ?_ ?_ ho
      · rw [e1]; exact (hJ.nodup d k c k' c' hdp hdq hc hc').1
      · rw [e2]; exact (hJ.nodup d k c k' c' hdp hdq hc hc').2
      · rw [e1, e2]; exact hJ.close d k c k' c' hdp hdq hc hc'
      · rw [e1, e2]; exact hJ.common d k c k' c' hdp hdq hc hc'
    -- the dictionary of new coordinates
    have hX : ∀ d ∈ shared, ∃ o, alignDim argsort p'.cm q'.cm d = .ok o := by
      intro d hd
      obtain ⟨b, _, hb⟩ := mapM_mem_in hrr hd
      obtain ⟨o, ho, _⟩ := except_map_ok hb
      exact ⟨o, ho⟩
    choose! X hX' using hX
    have hrr' : rr = shared.map fun d => (d, X d) := by
      have : (shared.mapM fun d => (alignDim argsort p'.cm q'.cm d).map fun x => (d, x)) = .ok (shared.map fun d => (d, X d)) := by
        apply mapM_ok'
        intro d hd
        rw [hX' d hd]; rfl
      rw [this] at hrr
      injection hrr with hrr
      exact hrr.symm
    subst hrr'
    set new := (shared.map fun d => (d, X d)).filterMap fun x => x.2.map fun y => (x.1, y) with hnew
    have hsn : shared.Nodup := hp.distinct.filter _
    have hkeys0 : (Dict.keys (shared.map fun d => (d, X d))) = shared := by
      simp [Dict.keys, Function.comp_def]
    have hget : ∀ d, Dict.get? new d = if d ∈ shared then X d else none := by
      intro d
      have := get?_filterMap_val (d := shared.map fun d => (d, X d)) (fun _ e => e) (by rw [hkeys0]; exact hsn) d
      have e0 : new = (shared.map fun d => (d, X d)).filterMap fun e => e.2.map fun v => (e.1, v) := hnew
      rw [e0, this]
      by_cases hd : d ∈ shared
      · rw [if_pos hd]
        have : Dict.get? (shared.map fun d => (d, X d)) d = some (X d) :=
          Dict.get?_of_mem (by rw [hkeys0]; exact hsn) (List.mem_map.2 ⟨d, hd, rfl⟩)
        rw [this]; rfl
      · rw [if_neg hd]
        have : Dict.get? (shared.map fun d => (d, X d)) d = none := by
          rw [Dict.get?_eq_none, hkeys0]; exact hd
        rw [this]; rfl
    have hnk : (Dict.keys new).Nodup := by
      have : List.Sublist (Dict.keys new) shared := by
        rw [hnew]
        exact keys_sublist X shared
      exact this.nodup hsn
    -- positions along every dimension
    have hPQ : ∀ d, ∃ PQ : List ℕ × List ℕ, d ∈ shared → ∀ k c k' c' x y, p.cm.ents.get? d = some ([d], .one k c) → q.cm.ents.get? d = some ([d], .one k' c') →
        p'.cm.ents.get? d = some ([d], .one k x) → q'.cm.ents.get? d = some ([d], .one k' y) →
        Glued c.labels c'.labels PQ.1 PQ.2 ∧ (X d = none → PQ = (List.range (lenDim p.cm d), List.range (lenDim q.cm d))) ∧
        (∀ m1 m2 i1 i2, X d = some (m1, m2, i1, i2) → ∃ c1 d1, m1 = .one k c1 ∧ m2 = .one k' d1 ∧ AlignedDim x y c1 d1 i1 i2 PQ.1 PQ.2) ∧
        (Undisturbed p.cm q.cm d → PQ.1 = List.range (lenDim p.cm d)) := by
      intro d
      by_cases hd : d ∈ shared
      swap
      · exact ⟨([], []), fun h => absurd h hd⟩
      obtain ⟨hdp, hdq⟩ := (hmemS d).1 hd
      obtain ⟨k, c, k', c', x, y, hc, hc', x1, y1, xw, yw, xl, yl, xn, yn, hcases⟩ := hal d hdp hdq
      rcases hcases (X d) (hX' d hd) with ⟨ho, hg⟩ | ⟨c1, d1, i1, i2, P, Q, ho, hA⟩
      · refine ⟨(List.range (lenDim p.cm d), List.range (lenDim q.cm d)), fun _ k2 c2 k2' c2' x2 y2 g1 g2 g3 g4 => ?_⟩
        rw [hc] at g1; rw [hc'] at g2; rw [x1] at g3; rw [y1] at g4
        cases g1; cases g2; cases g3; cases g4
        refine ⟨?_, fun _ => rfl, ?_, fun _ => rfl⟩
        · rw [xl, yl, xn, yn] at hg; exact hg
        · intro m1 m2 i1 i2 h; rw [ho] at h; cases h
      · refine ⟨(P, Q), fun _ k2 c2 k2' c2' x2 y2 g1 g2 g3 g4 => ?_⟩
        rw [hc] at g1; rw [hc'] at g2; rw [x1] at g3; rw [y1] at g4
        cases g1; cases g2; cases g3; cases g4
        refine ⟨?_, ?_, ?_, ?_⟩
        · have := hA.glued; rw [xl, yl] at this; exact this
        · intro h; rw [ho] at h; cases h
        · intro m1 m2 j1 j2 h
          rw [ho] at h
          simp only [Option.some.injEq, Prod.mk.injEq] at h
          obtain ⟨rfl, rfl, rfl, rfl⟩ := h
          exact ⟨c1, d1, rfl, rfl, hA⟩
        · intro hu
          obtain ⟨u1, u2, u3⟩ := hu k c k' c' hc hc'
          have := hA.still (by rw [xl, yl, u1]) (by rw [xl, u2, vals_eq_of_labels xl]) (by rw [vals_eq_of_labels xl]; exact u3)
          rw [xn] at this; exact this
    choose PQ hPQ' using hPQ
    set P : String → List ℕ := fun d => if d ∈ shared then (PQ d).1 else List.range (lenDim p'.cm d) with hPdef
    set Q : String → List ℕ := fun d => if d ∈ shared then (PQ d).2 else List.range (lenDim q'.cm d) with hQdef
    have hlen1 : ∀ d ∈ p.cm.dims, lenDim p'.cm d = lenDim p.cm d := by
      intro d hd
      rw [hL1.lens (hsp d hd)]; simp [hd]
    have hlen2 : ∀ d ∈ q.cm.dims, lenDim q'.cm d = lenDim q.cm d := by
      intro d hd
      rw [hL2.lens (hsq d hd)]; simp [hd]
    have hlen1' : ∀ d ∈ D, List.range (lenDim p'.cm d) = if d ∈ p.cm.dims then List.range (lenDim p.cm d) else [0] := by
      intro d hd
      by_cases h : d ∈ p.cm.dims
      · rw [hlen1 d h, if_pos h]
      · rw [if_neg h, hL1.lens hd, if_neg h]; rfl
    have hlen2' : ∀ d ∈ D, List.range (lenDim q'.cm d) = if d ∈ q.cm.dims then List.range (lenDim q.cm d) else [0] := by
      intro d hd
      by_cases h : d ∈ q.cm.dims
      · rw [hlen2 d h, if_pos h]
      · rw [if_neg h, hL2.lens hd, if_neg h]; rfl
    have hG : ∀ d k c k' c', d ∈ p.cm.dims → d ∈ q.cm.dims → p.cm.ents.get? d = some ([d], .one k c) → q.cm.ents.get? d = some ([d], .one k' c') →
        Glued c.labels c'.labels (P d) (Q d) := by
      intro d k c k' c' hdp hdq hc hc'
      have hd := (hmemS d).2 ⟨hdp, hdq⟩
      obtain ⟨k0, c0, k0', c0', x, y, g1, g2, g3, g4, _⟩ := hal d hdp hdq
      rw [hc] at g1; rw [hc'] at g2
      cases g1; cases g2
      have := (hPQ' d hd k c k' c' x y hc hc' g3 g4).1
      simp only [hPdef, hQdef, if_pos hd]
      exact this
    have hPs : ∀ d ∈ p.cm.dims, d ∉ q.cm.dims → P d = List.range (lenDim p.cm d) := by
      intro d hd h
      simp only [hPdef]
      rw [if_neg fun hc => h ((hmemS d).1 hc).2, hlen1 d hd]
    have hQs : ∀ d ∈ q.cm.dims, d ∉ p.cm.dims → Q d = List.range (lenDim q.cm d) := by
      intro d hd h
      simp only [hQdef]
      rw [if_neg fun hc => h ((hmemS d).1 hc).1, hlen2 d hd]
    have hPu : ∀ d ∈ p.cm.dims, Undisturbed p.cm q.cm d → P d = List.range (lenDim p.cm d) := by
      intro d hdp hu
      by_cases hdq : d ∈ q.cm.dims
      · have hd := (hmemS d).2 ⟨hdp, hdq⟩
        obtain ⟨k0, c0, k0', c0', x, y, g1, g2, g3, g4, _⟩ := hal d hdp hdq
        have := (hPQ' d hd k0 c0 k0' c0' x y g1 g2 g3 g4).2.2.2 hu
        simp only [hPdef, if_pos hd]
        exact this
      · exact hPs d hdp hdq
    split at hab
    · rename_i hemp
      cases hab
      have hnone : ∀ d ∈ shared, X d = none := by
        intro d hd
        have h1 := hget d
        rw [if_pos hd] at h1
        rw [← h1]
        have h0 : new = [] := by simpa using hemp
        rw [h0]; rfl
      have hPr : ∀ d ∈ D, P d = if d ∈ p.cm.dims then List.range (lenDim p.cm d) else [0] := by
        intro d hd
        simp only [hPdef]
        by_cases h : d ∈ shared
        · obtain ⟨hdp, hdq⟩ := (hmemS d).1 h
          obtain ⟨k0, c0, k0', c0', x, y, g1, g2, g3, g4, _⟩ := hal d hdp hdq
          rw [if_pos h, (hPQ' d h k0 c0 k0' c0' x y g1 g2 g3 g4).2.1 (hnone d h), if_pos hdp]
        · rw [if_neg h, hlen1' d hd]
      have hQr : ∀ d ∈ D, Q d = if d ∈ q.cm.dims then List.range (lenDim q.cm d) else [0] := by
        intro d hd
        simp only [hQdef]
        by_cases h : d ∈ shared
        · obtain ⟨hdp, hdq⟩ := (hmemS d).1 h
          obtain ⟨k0, c0, k0', c0', x, y, g1, g2, g3, g4, _⟩ := hal d hdp hdq
          rw [if_pos h, (hPQ' d h k0 c0 k0' c0' x y g1 g2 g3 g4).2.1 (hnone d h), if_pos hdq]
        · rw [if_neg h, hlen2' d hd]
      have hL1' : Lay p p' D P := by
        refine ⟨hL1.wf, hL1.dims, hL1.csh, ?_, ?_, ?_, ?_, ?_, hL1.keys, ?_⟩
        · rw [hL1.shape]; exact List.map_congr_left fun d hd => by rw [hPr d hd]
        · intro d hd; rw [hPr d (hsp d hd)]; exact hL1.bound d hd
        · intro d hd h1; rw [hPr d hd]; exact hL1.new d hd h1
        · intro d hd k c hc; rw [hPr d (hsp d hd)]; exact hL1.own d hd k c hc
        · intro i hi
          rw [hL1.data i hi]
          congr 1
          exact List.map_congr_left fun d hd => by rw [hPr d (hsp d hd)]
        · intro name ds c hc hn hlen
          refine hL1.extra name ds c hc hn fun d hd => ?_
          rw [← hPr d (hsp d (hp.wf.attached _ _ _ (Dict.mem_of_get? hc) d hd))]
          exact hlen d hd
      have hL2' : Lay q q' D Q := by
        refine ⟨hL2.wf, hL2.dims, hL2.csh, ?_, ?_, ?_, ?_, ?_, hL2.keys, ?_⟩
        · rw [hL2.shape]; exact List.map_congr_left fun d hd => by rw [hQr d hd]
        · intro d hd; rw [hQr d (hsq d hd)]; exact hL2.bound d hd
        · intro d hd h1; rw [hQr d hd]; exact hL2.new d hd h1
        · intro d hd k c hc; rw [hQr d (hsq d hd)]; exact hL2.own d hd k c hc
        · intro i hi
          rw [hL2.data i hi]
          congr 1
          exact List.map_congr_left fun d hd => by rw [hQr d (hsq d hd)]
        · intro name ds c hc hn hlen
          refine hL2.extra name ds c hc hn fun d hd => ?_
          rw [← hQr d (hsq d (hq.wf.attached _ _ _ (Dict.mem_of_get? hc) d hd))]
          exact hlen d hd
      exact ⟨P, Q, hL1', hL2', hG, hPs, hQs, hPu⟩
    · split at hab
      · cases hab
      rename_i p'' hp''
      split at hab
      · cases hab
      rename_i q'' hq''
      cases hab
      have hL1' : Lay p p'' D P := by
        refine realign_lay hp hsp hplainD hL1 (by
          have : Dict.keys (new.map fun x => (x.1, x.2.1, x.2.2.2.1)) = Dict.keys new := by simp [Dict.keys, Function.comp_def]
          rw [this]; exact hnk) ?_ ?_ hp''
        · intro d mc ix hd
          rw [Dict.get?_map_val new (fun _ v => (v.1, v.2.2.1)) d] at hd
          obtain ⟨⟨m1, m2, i1, i2⟩, h1, h2⟩ := Option.map_eq_some_iff.1 hd
          cases h2
          rw [hget] at h1
          split_ifs at h1 with hds
          obtain ⟨hdp, hdq⟩ := (hmemS d).1 hds
          obtain ⟨k, c, k', c', x, y, g1, g2, g3, g4, xw, yw, xl, yl, xn, yn, _⟩ := hal d hdp hdq
          obtain ⟨c1, d1, rfl, rfl, hA⟩ := (hPQ' d hds k c k' c' x y g1 g2 g3 g4).2.2.1 m1 m2 i1 i2 h1
          refine ⟨hdp, k, x, c1, g3, xw, rfl, ?_, ?_, hA.sto1, hA.val1⟩
          · simp only [hPdef, if_pos hds]
            rw [hlen1 d hdp, ← xn]; exact hA.pos1
          · simp only [hPdef, if_pos hds]
            exact hA.lab1
        · intro d hd hno
          rw [Dict.get?_map_val new (fun _ v => (v.1, v.2.2.1)) d, Option.map_eq_none_iff, hget] at hno
          simp only [hPdef]
          split_ifs with hds
          · rw [if_pos hds] at hno
            obtain ⟨hdp, hdq⟩ := (hmemS d).1 hds
            obtain ⟨k0, c0, k0', c0', x, y, g1, g2, g3, g4, _⟩ := hal d hdp hdq
            rw [(hPQ' d hds k0 c0 k0' c0' x y g1 g2 g3 g4).2.1 hno, hlen1 d hdp]
          · rfl
      have hL2' : Lay q q'' D Q := by
        refine realign_lay hq hsq hplainD hL2 (by
          have : Dict.keys (new.map fun x => (x.1, x.2.2.1, x.2.2.2.2)) = Dict.keys new := by simp [Dict.keys, Function.comp_def]
          rw [this]; exact hnk) ?_ ?_ hq''
        · intro d mc ix hd
          rw [Dict.get?_map_val new (fun _ v => (v.2.1, v.2.2.2)) d] at hd
          obtain ⟨⟨m1, m2, i1, i2⟩, h1, h2⟩ := Option.map_eq_some_iff.1 hd
          cases h2
          rw [hget] at h1
          split_ifs at h1 with hds
          obtain ⟨hdp, hdq⟩ := (hmemS d).1 hds
          obtain ⟨k, c, k', c', x, y, g1, g2, g3, g4, xw, yw, xl, yl, xn, yn, _⟩ := hal d hdp hdq
          obtain ⟨c1, d1, rfl, rfl, hA⟩ := (hPQ' d hds k c k' c' x y g1 g2 g3 g4).2.2.1 m1 m2 i1 i2 h1
          refine ⟨hdq, k', y, d1, g4, yw, rfl, ?_, ?_, hA.sto2, hA.val2⟩
          · simp only [hQdef, if_pos hds]
            rw [hlen2 d hdq, ← yn]; exact hA.pos2
          · simp only [hQdef, if_pos hds]
            exact hA.lab2
        · intro d hd hno
          rw [Dict.get?_map_val new (fun _ v => (v.2.1, v.2.2.2)) d, Option.map_eq_none_iff, hget] at hno
          simp only [hQdef]
          split_ifs with hds
          · rw [if_pos hds] at hno
            obtain ⟨hdp, hdq⟩ := (hmemS d).1 hds
            obtain ⟨k0, c0, k0', c0', x, y, g1, g2, g3, g4, _⟩ := hal d hdp hdq
            rw [(hPQ' d hds k0 c0 k0' c0' x y g1 g2 g3 g4).2.1 hno, hlen2 d hdq]
          · rfl
      exact ⟨P, Q, hL1', hL2', hG, hPs, hQs, hPu⟩

theorem binary_combined {argsort : List ℚ → List ℕ} (ha : IsArgsort argsort)
    (hp : Regular p.cm) (hq : Regular q.cm) (hpl : DimsListed p.cm) (hql : DimsListed q.cm)
    (hpd : p.cm.dims ≠ []) (hqd : q.cm.dims ≠ []) (hps : p.cm.shape = p.data.shape) (hqs : q.cm.shape = q.data.shape)
    (hJ : Joinable p.cm q.cm) (h : PatchM.binary argsort f p q = .ok r) : Combined f p q r := by
  unfold PatchM.binary at h
  simp only [bind, Except.bind] at h
  split at h
  · cases h
  rename_i ab hab
  split at h
  · cases h
  rename_i cm hcm
  split at h
  · cases h
  rename_i a hza
  have hsp : ∀ d ∈ p.cm.dims, d ∈ joinDims' p.cm.dims q.cm.dims := fun d h => mem_joinDims'.2 (Or.inl h)
  obtain ⟨P, Q, hL⟩ := alignPatches_laidOut ha hp hq hpl hql hpd hqd hps hqs hJ (fun heq => by
    unfold alignPatches at hab
    rw [if_pos heq] at hab
    cases hab
    unfold mergeAligned at hcm
    split at hcm
    · cases hcm
    · rename_i h1; push Not at h1; exact h1) hab
  have hDne : joinDims' p.cm.dims q.cm.dims ≠ [] := by
    obtain ⟨d0, hd0⟩ := List.exists_mem_of_ne_nil _ hpd
    exact List.ne_nil_of_mem (hsp d0 hd0)
  have hLp := hL.left
  set D := joinDims' p.cm.dims q.cm.dims with hD
  have hsame : ∀ name, name ∈ p.cm.ents.keys ∨ name ∈ q.cm.ents.keys → matchesPrefixSuffix D name = false := by
    intro name hn
    refine matches_mono hDne ?_ (hJ.plain name hn)
    intro d hd
    rw [List.mem_append]
    exact mem_joinDims'.1 hd
  have hkeyD : ∀ d ∈ D, d ∈ p.cm.ents.keys ∨ d ∈ q.cm.ents.keys := by
    intro d hd
    rcases mem_joinDims'.1 hd with h | h
    · obtain ⟨k, c, hc⟩ := hpl d h; exact Or.inl (Dict.mem_keys.2 ⟨_, hc⟩)
    · obtain ⟨k, c, hc⟩ := hql d h; exact Or.inr (Dict.mem_keys.2 ⟨_, hc⟩)
  obtain ⟨hM, _⟩ := mergeAligned_spec hLp.wf (by
    intro name hn
    rw [hLp.dims]
    rcases hLp.keys name hn with h | h
    · exact hsame name (Or.inl h)
    · exact hsame name (hkeyD name h)) hcm
  exact join_combined hp hq hpl hql hpd hqd hps hqs hJ hL.left hL.right hL.glued hL.onlyLeft hL.onlyRight hL.still hM hza h

end

end Verif
