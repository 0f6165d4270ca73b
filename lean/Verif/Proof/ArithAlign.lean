import Verif.Proof.ArithJoin
/-! # Lemmas: aligning the shared dimensions of two patches -/
namespace Verif
open Spec

theorem vals_filterMap (c : Coord) : c.vals = c.labels.filterMap id := by
  by_cases h : ∃ n, c = .part n
  · obtain ⟨n, rfl⟩ := h
    simp [Coord.vals, Coord.labels]
  · rw [labels_vals fun n hn => h ⟨n, hn⟩, List.filterMap_map]
    simp

theorem vals_eq_of_labels {c d : Coord} (h : c.labels = d.labels) : c.vals = d.vals := by
  rw [vals_filterMap c, vals_filterMap d, h]

theorem pyEq_cases {k : Kind} {x y : Coord} (h : x.pyEq k y = true) (hc : CloseIsEqual x.vals y.vals) :
    x.labels = y.labels ∧ ((∃ n, x = .part n ∧ y = .part n) ∨ ((∀ n, x ≠ .part n) ∧ (∀ n, y ≠ .part n))) := by
  have hclose : ∀ (l l' : List ℚ), CloseIsEqual l l' → (decide (l.length = l'.length) &&
      (l.zip l').all fun p => if k = .time then decide (p.1 = p.2) else isClose p.1 p.2) = true → l = l' := by
    intro l l' hcl hh
    rw [Bool.and_eq_true, decide_eq_true_iff, List.all_eq_true] at hh
    refine hcl hh.1 ?_
    intro t a b ha hb
    have hz : (a, b) ∈ l.zip l' := by
      refine List.mem_of_getElem? (i := t) ?_
      rw [List.getElem?_zip_eq_some]
      exact ⟨ha, hb⟩
    have := hh.2 _ hz
    simp only at this
    split_ifs at this
    · rw [decide_eq_true_iff] at this
      subst this
      rw [sub_self, abs_zero]
      positivity
    · rw [isClose_iff] at this
      norm_num at this ⊢
      exact this
  cases x with
  | range a => cases y with
    | range b =>
      simp only [Coord.pyEq, decide_eq_true_iff] at h
      subst h
      exact ⟨rfl, Or.inr ⟨by simp, by simp⟩⟩
    | _ => simp [Coord.pyEq] at h
  | part n => cases y with
    | part m =>
      simp only [Coord.pyEq, decide_eq_true_iff] at h
      subst h
      exact ⟨rfl, Or.inl ⟨n, rfl, rfl⟩⟩
    | _ => simp [Coord.pyEq] at h
  | mono l => cases y with
    | range b => simp [Coord.pyEq] at h
    | part b => simp [Coord.pyEq] at h
    | mono l' =>
      have := hclose l l' hc h
      subst this
      exact ⟨rfl, Or.inr ⟨by simp, by simp⟩⟩
    | arr l' =>
      have := hclose l l' hc h
      subst this
      exact ⟨rfl, Or.inr ⟨by simp, by simp⟩⟩
  | arr l => cases y with
    | range b => simp [Coord.pyEq] at h
    | part b => simp [Coord.pyEq] at h
    | mono l' =>
      have := hclose l l' hc h
      subst this
      exact ⟨rfl, Or.inr ⟨by simp, by simp⟩⟩
    | arr l' =>
      have := hclose l l' hc h
      subst this
      exact ⟨rfl, Or.inr ⟨by simp, by simp⟩⟩

theorem getElem?_vals {x : Coord} (hx : ∀ n, x ≠ .part n) {a : ℕ} {v : ℚ} (h : x.labels[a]? = some (some v)) : x.vals[a]? = some v := by
  rw [labels_vals hx, List.getElem?_map] at h
  obtain ⟨w, hw, e⟩ := Option.map_eq_some_iff.1 h
  cases e; exact hw

theorem nodup_getElem?_inj {α} {l : List α} (hn : l.Nodup) {a b : ℕ} {v : α} (ha : l[a]? = some v) (hb : l[b]? = some v) : a = b := by
  obtain ⟨h1, h2⟩ := List.getElem?_eq_some_iff.1 ha
  obtain ⟨h3, h4⟩ := List.getElem?_eq_some_iff.1 hb
  exact (hn.getElem_inj_iff (hi := h1) (hj := h3)).1 (h2.trans h4.symm)

theorem part_labels_none (n : ℕ) : ∀ x ∈ (Coord.part n).labels, x = none := by
  intro x hx
  simp only [Coord.labels, List.mem_replicate] at hx
  exact hx.2

theorem glued_same {x y : Coord} (h : x.labels = y.labels) (hor : (∃ n, x = .part n ∧ y = .part n) ∨ ((∀ n, x ≠ .part n) ∧ (∀ n, y ≠ .part n)))
    (hn : x.vals.Nodup) : Glued x.labels y.labels (List.range x.labels.length) (List.range y.labels.length) := by
  rcases hor with ⟨n, rfl, rfl⟩ | ⟨h1, h2⟩
  · exact .null (Or.inl (part_labels_none n)) rfl rfl
  · refine .valued (none_not_mem h1) (none_not_mem h2) (by rw [takeIdx_range_self, takeIdx_range_self, h]) ?_
    intro a b v ha hb
    rw [← h] at hb
    have := nodup_getElem?_inj hn (getElem?_vals h1 ha) (getElem?_vals h1 hb)
    subst this
    have hl : a < x.labels.length := (List.getElem?_eq_some_iff.1 ha).1
    refine ⟨a, by rw [List.getElem?_range hl], ?_⟩
    rw [← h, List.getElem?_range hl]

theorem order_valid {argsort : List ℚ → List ℕ} {k : Kind} {c d : Coord} {find : List ℚ} {x : Indexer}
    (h : c.order argsort k find = .ok (d, x)) : ∀ r, d = .range r → r.Valid := by
  rintro r rfl
  cases c with
  | part n => cases h
  | mono l => simp [Coord.order, Coord.getInts, bind, Except.bind, pure, Except.pure] at h
  | arr l => simp [Coord.order, Coord.getInts, bind, Except.bind, pure, Except.pure] at h
  | range a =>
    simp only [Coord.order, Coord.getInts, bind, Except.bind] at h
    split at h
    · cases h
    · rename_i e he
      cases h
      exact getCoordData_wf he

theorem align_order {argsort : List ℚ → List ℕ} {k : Kind} {x y c1 d1 : Coord} {i1 i2 : Indexer} (hx : ∀ n, x ≠ .part n) (hy : ∀ n, y ≠ .part n)
    (hne : x.pyEq k y = false) (h : x.alignTo argsort k y = .ok (c1, d1, i1, i2)) :
    ∃ l, x.order argsort k l = .ok (c1, i1) ∧ y.order argsort k l = .ok (d1, i2) := by
  unfold Coord.alignTo at h
  rw [if_neg (by rw [hne]; decide)] at h
  have key : ∀ (l : List ℚ), (do
        let (c1, s1) ← x.order argsort k l
        let (d1, s2) ← y.order argsort k l
        return (c1, d1, s1, s2)) = Except.ok (ε := Err) (c1, d1, i1, i2) → x.order argsort k l = .ok (c1, i1) ∧ y.order argsort k l = .ok (d1, i2) := by
    intro l hl
    simp only [bind, Except.bind] at hl
    cases h1 : x.order argsort k l with
    | error e => rw [h1] at hl; cases hl
    | ok v =>
      rw [h1] at hl
      simp only at hl
      cases h2 : y.order argsort k l with
      | error e => rw [h2] at hl; cases hl
      | ok w =>
        rw [h2] at hl
        cases hl
        exact ⟨rfl, rfl⟩
  cases x with
  | part n => exact absurd rfl (hx n)
  | range a => cases y with
    | part n => exact absurd rfl (hy n)
    | _ => exact ⟨_, key _ h⟩
  | mono a => cases y with
    | part n => exact absurd rfl (hy n)
    | _ => exact ⟨_, key _ h⟩
  | arr a => cases y with
    | part n => exact absurd rfl (hy n)
    | _ => exact ⟨_, key _ h⟩

/-- What aligning one shared dimension gives. -/
structure AlignedDim (x y c1 d1 : Coord) (i1 i2 : Indexer) (P Q : List ℕ) : Prop where
  pos1 : i1.positions x.length = .ok P
  pos2 : i2.positions y.length = .ok Q
  lab1 : c1.labels = takeIdx x.labels P
  lab2 : d1.labels = takeIdx y.labels Q
  sto1 : Storable c1.vals
  sto2 : Storable d1.vals
  val1 : ∀ r, c1 = .range r → r.Valid
  val2 : ∀ r, d1 = .range r → r.Valid
  glued : Glued x.labels y.labels P Q
  still : x.labels = y.labels → x.labels.length = x.vals.length → x.vals.Pairwise (· < ·) → P = List.range x.length

theorem alignTo_glued {argsort : List ℚ → List ℕ} (ha : IsArgsort argsort) {k : Kind} {x y c1 d1 : Coord} {i1 i2 : Indexer}
    (hx : x.Wf) (hy : y.Wf) (hsx : Storable x.vals) (hsy : Storable y.vals) (hnx : x.vals.Nodup) (hny : y.vals.Nodup)
    (hcom : ∀ l : List ℚ, l.Pairwise (· < ·) → (∀ v, v ∈ l ↔ v ∈ x.vals ∧ v ∈ y.vals) → Storable l)
    (hne : x.pyEq k y = false) (h : x.alignTo argsort k y = .ok (c1, d1, i1, i2)) : ∃ P Q, AlignedDim x y c1 d1 i1 i2 P Q := by
  have hpart : (c1, d1, i1, i2) = (x, y, Indexer.slice {}, Indexer.slice {}) → ((∃ n, x = .part n) ∨ ∃ n, y = .part n) →
      ∃ P Q, AlignedDim x y c1 d1 i1 i2 P Q := by
    intro he hor
    simp only [Prod.mk.injEq] at he
    obtain ⟨rfl, rfl, rfl, rfl⟩ := he
    refine ⟨List.range c1.length, List.range d1.length, slice_all_positions _, slice_all_positions _, ?_, ?_, hsx, hsy,
      fun r hr => by subst hr; exact hx, fun r hr => by subst hr; exact hy, ?_, fun _ _ _ => rfl⟩
    · rw [← labels_length hx, takeIdx_range_self]
    · rw [← labels_length hy, takeIdx_range_self]
    · refine .null ?_ (by rw [labels_length hx]) (by rw [labels_length hy])
      rcases hor with ⟨n, rfl⟩ | ⟨n, rfl⟩
      · exact Or.inl (part_labels_none n)
      · exact Or.inr (part_labels_none n)
  by_cases hxp : ∃ n, x = .part n
  · obtain ⟨n, rfl⟩ := hxp
    refine hpart ?_ (Or.inl ⟨n, rfl⟩)
    unfold Coord.alignTo at h
    rw [if_neg (by rw [hne]; decide)] at h
    simp only at h
    split_ifs at h
    injection h with h; exact h.symm
  · by_cases hyp : ∃ n, y = .part n
    · obtain ⟨n, rfl⟩ := hyp
      refine hpart ?_ (Or.inr ⟨n, rfl⟩)
      unfold Coord.alignTo at h
      rw [if_neg (by rw [hne]; decide)] at h
      cases x with
      | part n => exact absurd ⟨n, rfl⟩ hxp
      | range a => simp only at h; split_ifs at h; injection h with h; exact h.symm
      | mono a => simp only at h; split_ifs at h; injection h with h; exact h.symm
      | arr a => simp only at h; split_ifs at h; injection h with h; exact h.symm
    · have hx' : ∀ n, x ≠ .part n := fun n hn => hxp ⟨n, hn⟩
      have hy' : ∀ n, y ≠ .part n := fun n hn => hyp ⟨n, hn⟩
      have hpw : (commonLabels x.vals y.vals).Pairwise (· < ·) := by
        have h1 := uniqueQ_sorted (x.vals.filter fun v => decide (v ∈ y.vals))
        have h2 := uniqueQ_nodup (x.vals.filter fun v => decide (v ∈ y.vals))
        exact List.Pairwise.imp₂ (fun a b h3 h4 => lt_of_le_of_ne h3 h4) h1 h2
      have hmem : ∀ v, v ∈ commonLabels x.vals y.vals ↔ v ∈ x.vals ∧ v ∈ y.vals := by
        intro v; unfold commonLabels; rw [mem_uniqueQ, List.mem_filter]; simp
      have hst := hcom _ hpw hmem
      obtain ⟨c1', d1', x1, x2, h1, h2, h3, h4, h5, _, _⟩ := C08_align_partial argsort ha k x y hx hy hx' hy' hne hnx hny hst
      rw [h] at h1
      simp only [Except.ok.injEq, Prod.mk.injEq] at h1
      obtain ⟨rfl, rfl, rfl, rfl⟩ := h1
      obtain ⟨l, o1, o2⟩ := align_order hx' hy' hne h
      rw [apply_eq] at h4 h5
      obtain ⟨P, p1, p2⟩ := except_map_ok h4
      obtain ⟨Q, q1, q2⟩ := except_map_ok h5
      have hlx : x.vals.length = x.length := vals_length hx hx'
      have hly : y.vals.length = y.length := vals_length hy hy'
      have bP := positions_lt p1
      have bQ := positions_lt q1
      have hsto : ∀ {c : Coord}, c.labels = (commonLabels x.vals y.vals).map some → Storable c.vals := by
        intro c hc
        rw [vals_filterMap, hc, List.filterMap_map]
        simpa using hst
      refine ⟨P, Q, by rw [← hlx]; exact p1, by rw [← hly]; exact q1, ?_, ?_, hsto h2, hsto h3, order_valid o1, order_valid o2, ?_, ?_⟩
      · rw [h2, labels_vals hx', takeIdx_map, p2]
      · rw [h3, labels_vals hy', takeIdx_map, q2]
      · refine .valued (none_not_mem hx') (none_not_mem hy') (by rw [labels_vals hx', labels_vals hy', takeIdx_map, takeIdx_map, p2, q2]) ?_
        intro a b v hva hvb
        have va := getElem?_vals hx' hva
        have vb := getElem?_vals hy' hvb
        obtain ⟨t, ht⟩ := List.mem_iff_getElem?.1 ((hmem v).2 ⟨List.mem_of_getElem? va, List.mem_of_getElem? vb⟩)
        refine ⟨t, ?_, ?_⟩
        · rw [← p2, takeIdx_getElem? bP] at ht
          obtain ⟨a', e1, e2⟩ := Option.bind_eq_some_iff.1 ht
          rw [e1, nodup_getElem?_inj hnx va e2]
        · rw [← q2, takeIdx_getElem? bQ] at ht
          obtain ⟨a', e1, e2⟩ := Option.bind_eq_some_iff.1 ht
          rw [e1, nodup_getElem?_inj hny vb e2]
      · intro hl _ hasc
        have hv := vals_eq_of_labels hl
        have hcl : commonLabels x.vals y.vals = x.vals := by
          refine List.Pairwise.eq_of_mem_iff (r := (· < ·)) hpw hasc ?_
          intro v
          rw [hmem, ← hv]; simp
        rw [← hlx]
        apply takeIdx_inj hnx bP (fun i hi => List.mem_range.1 hi)
        rw [p2, hcl, takeIdx_range_self]

end Verif
