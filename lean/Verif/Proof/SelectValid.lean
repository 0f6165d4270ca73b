import Verif.Proof.SelectGroup
/-! # Lemmas: even coordinates produced by a selection are valid -/
namespace Verif
open Spec

theorem new_valid {c : RangeCoord} {a b s : ℚ} {d : Coord} (hs : s ≠ 0) (h : c.new a b s = .ok d) {r : RangeCoord} (hd : d = .range r) :
    r.Valid := by
  subst hd
  unfold RangeCoord.new getCoordParts at h
  simp only at h
  split at h
  · rename_i c' hc'
    cases h
    exact mkRange_valid hs (by simpa [mkRangeParts] using hc')
  · cases h
  · cases h

theorem wf_of_data {k : Kind} {l : List ℚ} {d : Coord} (h : getCoordData k l = .ok d) {r : RangeCoord} (hd : d = .range r) : r.Valid := by
  have := getCoordData_wf h
  subst hd
  exact this

theorem getSlice_valid {c : RangeCoord} (hc : c.Valid) {s : PySlice} {d : Coord} (h : c.getSlice s = .ok d) {r : RangeCoord}
    (hd : d = .range r) : r.Valid := by
  unfold RangeCoord.getSlice at h
  cases h1 : s.indices c.len with
  | error e => rw [h1] at h; cases h
  | ok ix =>
    rw [h1] at h
    simp only [bind, Except.bind] at h
    by_cases h0 : ix.len ≠ 0
    · rw [if_pos h0] at h
      refine new_valid (mul_ne_zero hc.step_ne ?_) h hd
      exact_mod_cast (indices_bounds h1).1
    · rw [if_neg h0] at h
      cases h; cases hd

theorem getMask_valid {k : Kind} {c : Coord} {m : List Bool} {d : Coord} (h : c.getMask k m = .ok d) {r : RangeCoord}
    (hd : d = .range r) : r.Valid := by
  unfold Coord.getMask at h
  split_ifs at h
  cases c with
  | range r0 => exact wf_of_data h hd
  | mono vs => cases h; cases hd
  | arr vs => cases h; cases hd
  | part n => cases h; cases hd

theorem getInts_valid {k : Kind} {c : Coord} {ix : List ℕ} {d : Coord} (h : c.getInts k ix = .ok d) {r : RangeCoord}
    (hd : d = .range r) : r.Valid := by
  unfold Coord.getInts at h
  cases c with
  | range r0 => exact wf_of_data h hd
  | mono vs => cases h; cases hd
  | arr vs => cases h; cases hd
  | part n => cases h; cases hd

theorem query_valid {argsort : List ℚ → List ℕ} {k : Kind} {c : Coord} (hc : c.Wf) {q : CQuery} {d : Coord} {x : Indexer}
    (h : c.query argsort k q = .ok (d, x)) {r : RangeCoord} (hd : d = .range r) : r.Valid := by
  cases q with
  | between a b =>
    cases c with
    | range r0 =>
      obtain ⟨p, h1, h2⟩ := except_map_ok h
      cases h2
      unfold RangeCoord.select at h1
      have hv : r0.Valid := hc
      rw [if_neg hv.step_ne] at h1
      simp only at h1
      have key : ∀ s t, r0.selectFrom s t = .ok p → r.Valid := by
        intro s t hst
        unfold RangeCoord.selectFrom at hst
        simp only at hst
        generalize (if s = some 0 then none else s) = s' at hst
        split at hst
        · cases hst; cases hd
        · simp only [bind, Except.bind] at hst
          split at hst
          · cases hst
          · split at hst
            · cases hst
            · split at hst
              · cases hst
              · rename_i nc hnc
                cases hst
                exact new_valid hv.step_ne hnc hd
      split at h1
      · exact key _ _ h1
      · exact key _ _ h1
    | mono vs =>
      obtain ⟨p, h1, h2⟩ := except_map_ok h
      cases h2
      obtain ⟨sl, _, h3⟩ := MonoCoord.select_spec k vs hc.1 a b
      rw [h3] at h1
      obtain ⟨d', h4, h5⟩ := except_map_ok h1
      cases h5
      exact wf_of_data h4 hd
    | arr vs =>
      obtain ⟨s1, s2, s3⟩ := ArrCoord.select_spec.{0} k vs a b
      have h : ArrCoord.select k vs (a, b) = .ok (d, x) := h
      by_cases e1 : vs.filter (fun x => decide (Between 0 a b x)) = []
      · rw [s1 e1] at h; cases h; cases hd
      · by_cases e2 : vs.filter (fun x => decide (Between 0 a b x)) = vs
        · rw [s2 hc e2] at h; cases h; cases hd
        · obtain ⟨ix, _, _, h3⟩ := s3 e1 e2
          rw [h3] at h
          obtain ⟨d', h4, h5⟩ := except_map_ok h
          cases h5
          exact wf_of_data h4 hd
    | part n =>
      simp only [Coord.query] at h
      split_ifs at h
      cases h; cases hd
  | slice s =>
    obtain ⟨d', h1, h2⟩ := except_map_ok h
    cases h2
    cases c with
    | range r0 => exact getSlice_valid hc h1 hd
    | mono vs => obtain ⟨l, _, h3⟩ := except_map_ok h1; subst h3; cases hd
    | arr vs => obtain ⟨l, _, h3⟩ := except_map_ok h1; subst h3; cases hd
    | part n => obtain ⟨l, _, h3⟩ := except_map_ok h1; subst h3; cases hd
  | values vs =>
    cases c with
    | part n => cases h
    | _ => obtain ⟨d', h1, h2⟩ := except_map_ok h; cases h2; exact getMask_valid h1 hd
  | mask m =>
    cases c with
    | part n => cases h
    | _ => obtain ⟨d', h1, h2⟩ := except_map_ok h; cases h2; exact getMask_valid h1 hd
  | samples ix =>
    obtain ⟨d', h1, h2⟩ := except_map_ok h; cases h2; exact getMask_valid h1 hd
  | order vs =>
    cases c with
    | part n => cases h
    | _ =>
      simp only [Coord.query, Coord.order, bind, Except.bind] at h
      split at h
      · cases h
      · rename_i d' h1
        cases h
        exact getInts_valid h1 hd
  | orderSamples ix =>
    simp only [Coord.query, Coord.orderBySamples, bind, Except.bind] at h
    split at h
    · cases h
    · split at h
      · cases h
      · rename_i d' h1
        cases h
        exact getInts_valid h1 hd

theorem getCoordData_length {k : Kind} {l : List ℚ} {d : Coord} (h : getCoordData k l = .ok d) : d.length = l.length := by
  cases hl : l with
  | nil => subst hl; cases h; rfl
  | cons a r =>
    rcases C14_declared_partial k l (by simp [hl]) with ⟨d', h1, _, h2, _⟩ | ⟨_, h1, _⟩
    · rw [h] at h1; cases h1; rw [← hl]; exact h2
    · rw [h] at h1; cases h1

theorem labels_length' {c : Coord} (hc : ∀ r, c = .range r → r.Valid) : c.labels.length = c.length := by
  cases c with
  | part n => simp [Coord.labels, Coord.length]
  | range r => simp [Coord.labels, Coord.length, RangeCoord.Valid.length_values (hc r rfl)]
  | mono vs => simp [Coord.labels, Coord.length]
  | arr vs => simp [Coord.labels, Coord.length]

theorem Carries.length {k : Kind} {c d : Coord} {ps : List ℕ} (h : Carries k c d ps) (hc : c.Wf) (hp : ∀ i ∈ ps, i < c.length)
    (hd : ∀ r, d = .range r → r.Valid) : d.length = ps.length := by
  have e : (takeIdx c.labels ps).length = ps.length := takeIdx_length (by rw [labels_length hc]; exact hp)
  rcases h with h | ⟨h1, h2⟩
  · rw [← labels_length' hd, h, e]
  · rw [getCoordData_length h1, ← e, h2, List.length_map]

theorem canon_length {k : Kind} {c : Coord} {x : MCoord} (h : (MCoord.one k c).canon = .ok x) : x.shape = [c.length] := by
  cases c with
  | range r => cases h; rfl
  | part n => cases h; rfl
  | mono vs =>
    obtain ⟨d, h1, h2⟩ := except_map_ok h
    subst h2
    rw [one_shape, getCoordData_length h1]; rfl
  | arr vs =>
    obtain ⟨d, h1, h2⟩ := except_map_ok h
    subst h2
    rw [one_shape, getCoordData_length h1]; rfl

/-- Every even coordinate of the dictionary is valid. -/
def RangesValid (e : Ents) : Prop := ∀ name ds k r, Dict.get? e name = some (ds, MCoord.one k (.range r)) → r.Valid

theorem RangesValid.set {e : Ents} (h : RangesValid e) {n : String} {ds : List String} {c : MCoord}
    (hc : ∀ k r, c = .one k (.range r) → r.Valid) : RangesValid (Dict.set e n (ds, c)) := by
  intro name ds' k r hg
  rw [Dict.get?_set] at hg
  split_ifs at hg
  · cases hg; exact hc k r rfl
  · exact h name ds' k r hg

theorem index_valid {c : MCoord} (hc : ∀ k r, c = .one k (.range r) → r.Valid) {x : Indexer} {ax : ℕ} {c' : MCoord} (h : c.index x ax = .ok c') :
    ∀ k r, c' = .one k (.range r) → r.Valid := by
  intro k r hr
  subst hr
  cases c with
  | nd a => obtain ⟨b, _, h2⟩ := except_map_ok h; cases h2
  | one k0 c0 =>
    simp only [MCoord.index] at h
    split_ifs at h
    cases c0 with
    | part n => obtain ⟨b, _, h2⟩ := except_map_ok h; cases h2
    | _ =>
      simp only [bind, Except.bind] at h
      split at h
      · cases h
      · obtain ⟨d, h1, h2⟩ := except_map_ok h
        cases h2
        exact wf_of_data h1 rfl

theorem selStep_valid {argsort : List ℚ → List ℕ} {m : CM} (hm : Regular m) {st st' : Ents × Dict Indexer} {p : String × CQuery}
    (hv : RangesValid st.1) (h : m.selStep argsort st p = .ok st') : RangesValid st'.1 := by
  unfold CM.selStep at h
  split at h
  · cases h
  · cases h
  · rename_i ds k c hent
    simp only [bind, Except.bind] at h
    split at h
    · cases h
    · rename_i r hr
      have hwf := hm.classes _ _ _ _ (Dict.mem_of_get? hent)
      have h0 : ∀ ds, RangesValid (Dict.set st.1 p.1 (ds, .one k r.1)) := by
        intro ds
        apply hv.set
        intro k' r' he
        simp only [MCoord.one.injEq] at he
        exact query_valid (d := r.1) (x := r.2) hwf (by rw [hr]) he.2
      split at h
      · cases h; exact h0 _
      · split at h
        · cases h
        · rename_i new hnew
          cases h
          unfold CM.indirect at hnew
          refine CM.foldlM_inv (P := RangesValid) ?_ hnew (h0 _)
          intro b a b' hb he
          obtain ⟨ds1, c1, c2, e1, ⟨_, _, _, e3⟩, e4⟩ := indirectOne_rel _ _ _ he
          subst e4
          apply hb.set
          apply index_valid _ e3
          intro k' r' hc
          subst hc
          exact hb _ _ _ _ e1

end Verif
