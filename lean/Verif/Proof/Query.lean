import Verif.Proof.Nd
/-! # Lemmas: what a query picks from one coordinate -/
namespace Verif
open Spec

theorem eq_map_range (l : List ℚ) : l = (List.range l.length).map fun i : ℕ => l.getD i 0 := by
  apply List.ext_getElem (by simp)
  intro i h1 h2
  simp [List.getD_eq_getElem?_getD, List.getElem?_eq_getElem h1]

/-- The positions whose value satisfies `p`. -/
def filterPos (l : List ℚ) (p : ℚ → Bool) : List ℕ := (List.range l.length).filter fun i => p (l.getD i 0)

theorem filterPos_lt {l : List ℚ} {p : ℚ → Bool} : ∀ i ∈ filterPos l p, i < l.length := by
  intro i hi
  exact List.mem_range.1 (List.mem_filter.1 hi).1

theorem takeIdx_filterPos (l : List ℚ) (p : ℚ → Bool) : takeIdx l (filterPos l p) = l.filter p := by
  have h := takeIdx_map_range (f := fun i : ℕ => l.getD i 0) (n := l.length) (ix := filterPos l p) filterPos_lt
  rw [← eq_map_range l] at h
  rw [h]
  conv_rhs => rw [eq_map_range l]
  rw [List.filter_map]
  rfl

theorem takeIdx_inj {α} {l : List α} (hn : l.Nodup) {ps qs : List ℕ} (hp : ∀ i ∈ ps, i < l.length) (hq : ∀ i ∈ qs, i < l.length)
    (h : takeIdx l ps = takeIdx l qs) : ps = qs := by
  have h1 := takeIdx_of_lt hp
  have h2 := takeIdx_of_lt hq
  rw [h, h2] at h1
  have hlen : ps.length = qs.length := by simpa using (congrArg List.length h1).symm
  apply List.ext_getElem hlen
  intro k k1 k2
  have := congrArg (fun t => t[k]?) h1
  simp only [List.getElem?_map, List.getElem?_eq_getElem k1, List.getElem?_eq_getElem k2, Option.map_some, Option.some.injEq] at this
  have l1 := hp _ (List.getElem_mem k1)
  have l2 := hq _ (List.getElem_mem k2)
  rw [List.getElem?_eq_getElem l1, List.getElem?_eq_getElem l2, Option.some.injEq] at this
  exact ((List.Nodup.getElem_inj_iff hn).1 this).symm

theorem positions_of_nodup {l : List ℚ} (hn : l.Nodup) {x : Indexer} {p : ℚ → Bool} (h : x.apply l = .ok (l.filter p)) :
    x.positions l.length = .ok (filterPos l p) := by
  rw [apply_eq] at h
  cases hp : x.positions l.length with
  | error e => rw [hp] at h; cases h
  | ok ps =>
    rw [hp] at h
    simp only [Except.map, Except.ok.injEq] at h
    rw [← takeIdx_filterPos] at h
    rw [takeIdx_inj hn (positions_lt hp) filterPos_lt h]

theorem maskIdx_self {α} (l : List α) (p : α → Bool) : maskIdx l (l.map p) = l.filter p := by
  unfold maskIdx
  induction l with
  | nil => rfl
  | cons a r ih =>
    simp only [List.map_cons, List.zip_cons_cons, List.filterMap_cons, List.filter_cons, ih]
    cases p a <;> simp

theorem maskIdx_range (m : List Bool) : maskIdx (List.range m.length) m = (List.range m.length).filter fun i : ℕ => m.getD i false := by
  have : m = (List.range m.length).map fun i : ℕ => m.getD i false := by
    apply List.ext_getElem (by simp)
    intro i h1 h2
    simp [List.getD_eq_getElem?_getD, List.getElem?_eq_getElem h1]
  conv_lhs => rw [this]
  simp only [List.length_map, List.length_range]
  exact maskIdx_self _ _

theorem mask_positions (m : List Bool) (n : ℕ) (h : m.length = n) :
    (Indexer.mask m).positions n = .ok ((List.range n).filter fun i : ℕ => m.getD i false) := by
  subst h
  simp [Indexer.positions, Indexer.apply, maskIdx_range]

theorem slice_all_positions (n : ℕ) : (Indexer.slice {}).positions n = .ok (List.range n) := pySlice_all _

theorem takeIdx_range_self {α} (l : List α) : takeIdx l (List.range l.length) = l := by
  rw [List.range_eq_range', takeIdx_range']; simp

/-- The coordinate has values (it is not all null), and these are its labels. -/
structure HasVals (c : Coord) : Prop where
  labels : c.labels = c.vals.map some
  length : c.vals.length = c.length

theorem hasVals {c : Coord} (hc : c.Wf) (hp : ∀ n, c ≠ .part n) : HasVals c := by
  refine ⟨?_, vals_length hc hp⟩
  cases c with
  | part n => exact absurd rfl (hp n)
  | _ => rfl

theorem HasVals.labelAt {c : Coord} (h : HasVals c) {P : ℚ → Prop} {i : ℕ} (hi : i < c.length) :
    LabelAt c P i ↔ P (c.vals.getD i 0) := by
  unfold LabelAt
  rw [h.labels]
  have : i < c.vals.length := by rw [h.length]; exact hi
  simp [List.getElem?_map, List.getD_eq_getElem?_getD, List.getElem?_eq_getElem this]

open Classical in
theorem HasVals.filter {c : Coord} (h : HasVals c) {P : ℚ → Prop} {p : ℚ → Bool} (hp : ∀ v, p v = true ↔ P v) :
    ((List.range c.length).filter fun i => LabelAt c P i) = filterPos c.vals p := by
  unfold filterPos
  rw [h.length]
  apply List.filter_congr
  intro i hi
  rw [Bool.eq_iff_iff, decide_eq_true_eq, h.labelAt (List.mem_range.1 hi), hp]

theorem HasVals.take {c : Coord} (h : HasVals c) (ps : List ℕ) : takeIdx c.labels ps = (takeIdx c.vals ps).map some := by
  rw [h.labels, takeIdx_map]

theorem labels_length {c : Coord} (hc : c.Wf) : c.labels.length = c.length := by
  cases c with
  | part n => simp [Coord.labels, Coord.length]
  | range r => simp [Coord.labels, Coord.length, RangeCoord.Valid.length_values hc]
  | mono vs => simp [Coord.labels, Coord.length]
  | arr vs => simp [Coord.labels, Coord.length]

theorem take_part {n : ℕ} {ps : List ℕ} (h : ∀ i ∈ ps, i < (Coord.part n).length) :
    takeIdx (Coord.part n).labels ps = (Coord.part ps.length).labels := by
  apply List.eq_replicate_iff.2
  refine ⟨takeIdx_length (by simpa [Coord.labels, Coord.length] using h), ?_⟩
  intro b hb
  have := mem_takeIdx hb
  simp only [Coord.labels] at this
  exact List.eq_of_mem_replicate this

theorem wf_nodup {c : Coord} (hc : c.Wf) (h : (∃ r, c = .range r) ∨ ∃ vs, c = .mono vs) : c.vals.Nodup := by
  rcases h with ⟨r, rfl⟩ | ⟨vs, rfl⟩
  · have hv : r.Valid := hc
    simp only [Coord.vals]
    rw [hv.values_eq]
    have := progression_strict r.start r.step r.len hv.step_ne
    rcases this with h | h
    · exact h.imp fun h => ne_of_lt h
    · exact h.imp fun h => ne_of_gt h
  · rcases hc.1 with h | h
    · exact h.imp fun h => ne_of_lt h
    · exact h.imp fun h => ne_of_gt h

theorem getCoordData_labels {kind : Kind} {l : List ℚ} {d : Coord} (hs : Storable l) (h : getCoordData kind l = .ok d) :
    d.labels = l.map some := by
  obtain ⟨d', h1, h2, _⟩ := C14_represents_partial kind l hs
  rw [h] at h1
  cases h1
  exact h2

theorem except_map_ok {α β : Type} {x : Except Err α} {f : α → β} {b : β} (h : x.map f = .ok b) : ∃ a, x = .ok a ∧ f a = b := by
  cases x with
  | error e => cases h
  | ok a => cases h; exact ⟨a, rfl, rfl⟩

theorem samplesBetween_filter (t : ℚ) (a b : Option ℚ) (l : List ℚ) :
    samplesBetween t a b l = l.filter fun x => decide (Between t a b x) := rfl

/-- `d` carries the labels of `c` at the positions `ps`, or is what `get_coord` makes of them. -/
def Carries (kind : Kind) (c d : Coord) (ps : List ℕ) : Prop :=
  d.labels = takeIdx c.labels ps ∨
    (getCoordData kind (takeIdx c.vals ps) = .ok d ∧ takeIdx c.labels ps = (takeIdx c.vals ps).map some)

theorem Carries.labels {kind : Kind} {c d : Coord} {ps : List ℕ} (h : Carries kind c d ps) (hs : Storable (takeIdx c.vals ps)) :
    d.labels = takeIdx c.labels ps := by
  rcases h with h | ⟨h, h'⟩
  · exact h
  · rw [getCoordData_labels hs h, h']

theorem getMask_labels {kind : Kind} {c d : Coord} {m : List Bool} (hc : c.Wf) (h : c.getMask kind m = .ok d) :
    m.length = c.length ∧
      Carries kind c d ((List.range c.length).filter fun i : ℕ => m.getD i false) := by
  unfold Coord.getMask at h
  split_ifs at h with hl
  rw [not_not] at hl
  refine ⟨hl, ?_⟩
  have hpos := mask_positions m c.length hl
  have key : ∀ {α} (l : List α), l.length = c.length → maskIdx l m = takeIdx l ((List.range c.length).filter fun i : ℕ => m.getD i false) := by
    intro α l hl'
    have := apply_eq l (.mask m)
    rw [hl', hpos] at this
    simp only [Indexer.apply, hl, hl', if_true, Except.map, Except.ok.injEq] at this
    exact this
  cases c with
  | part n =>
    simp only [Except.ok.injEq] at h
    subst h
    left
    rw [take_part (fun i hi => List.mem_range.1 (List.mem_filter.1 hi).1)]
    have : maskIdx (List.range n) m = _ := key (List.range n) (by simp [Coord.length])
    rw [this, takeIdx_length (by intro i hi; simpa [Coord.length] using (List.mem_filter.1 hi).1)]
  | range r =>
    have hv := hasVals hc (by simp)
    have e : maskIdx r.values m = _ := key r.values hv.length
    simp only at h
    rw [e] at h
    exact Or.inr ⟨h, hv.take _⟩
  | mono vs =>
    have hv := hasVals hc (by simp)
    simp only [Except.ok.injEq] at h
    subst h
    have e : maskIdx vs m = _ := key vs hv.length
    left
    rw [hv.take, e]; rfl
  | arr vs =>
    have hv := hasVals hc (by simp)
    simp only [Except.ok.injEq] at h
    subst h
    have e : maskIdx vs m = _ := key vs hv.length
    left
    rw [hv.take, e]; rfl

/-- What a query returns: the indexer picks the positions asked for, and the new coordinate carries their labels when
these can be stored. -/
theorem query_spec (argsort : List ℚ → List ℕ) (ha : IsArgsort argsort) (kind : Kind) (c : Coord) (hc : c.Wf) (q : CQuery)
    (hq : NonNegSamples q) (d : Coord) (x : Indexer) (h : c.query argsort kind q = .ok (d, x)) :
    ∃ ps, x.positions c.length = .ok ps ∧ Survivors c ps q ∧ Carries kind c d ps := by
  cases q with
  | between a b =>
    cases c with
    | part n =>
      simp only [Coord.query] at h
      split_ifs at h with hab
      cases h
      refine ⟨List.range n, slice_all_positions n, ?_, Or.inl ?_⟩
      · simp only [Survivors, Coord.length]
        symm
        rw [List.filter_eq_self]
        intro i _
        simp only [decide_eq_true_eq]
        intro v hv
        simp [Coord.labels, List.getElem?_replicate] at hv
      · rw [take_part (ps := List.range n) (fun i hi => List.mem_range.1 hi)]; simp
    | range r =>
      have hv := hasVals hc (by simp)
      obtain ⟨⟨d', sl⟩, h1, h2⟩ := except_map_ok h
      cases h2
      obtain ⟨d'', sl', e1, e2, e3⟩ := C03_select_exact r (BuiltRange.of_valid hc) a b
      rw [e1] at h1
      cases h1
      rw [samplesBetween_filter] at e2 e3
      have hp := positions_of_nodup (x := .slice sl) (wf_nodup hc (Or.inl ⟨r, rfl⟩)) e3
      refine ⟨_, by rw [← hv.length]; exact hp, ?_, Or.inl ?_⟩
      · simp only [Survivors, tolOf]
        exact (hv.filter fun v => by simp).symm
      · rw [hv.take, e2]
        congr 1
        exact (takeIdx_filterPos _ _).symm
    | mono vs =>
      have hv := hasVals hc (by simp)
      obtain ⟨⟨d', sl⟩, h1, h2⟩ := except_map_ok h
      cases h2
      obtain ⟨sl', e1, e2⟩ := C04_select_exact kind vs hc.1 a b
      rw [e2] at h1
      obtain ⟨d'', h3, h4⟩ := except_map_ok h1
      cases h4
      rw [samplesBetween_filter] at e1 h3
      have hp := positions_of_nodup (x := .slice sl) (wf_nodup hc (Or.inr ⟨vs, rfl⟩)) e1
      refine ⟨_, by rw [← hv.length]; exact hp, ?_, Or.inr ⟨?_, hv.take _⟩⟩
      · simp only [Survivors, tolOf]
        exact (hv.filter fun v => by simp).symm
      · have e : takeIdx (Coord.mono vs).vals (filterPos (Coord.mono vs).vals fun x => decide (Between 0 a b x)) = _ := takeIdx_filterPos _ _
        rw [e]; exact h3
    | arr vs =>
      have hv := hasVals hc (by simp)
      change ArrCoord.select kind vs (a, b) = _ at h
      have hsurv : filterPos vs (fun x => decide (Between 0 a b x)) = ((List.range (Coord.arr vs).length).filter fun i =>
          (open Classical in decide (LabelAt (Coord.arr vs) (Between 0 a b) i))) := (hv.filter fun v => by simp).symm
      have hpos : ∀ ix : List ℕ, (∀ i ∈ ix, i < vs.length) →
          (∀ {α : Type} (D : List α), D.length = vs.length → takeIdx D ix = maskIdx D (vs.map fun x => decide (Between 0 a b x))) →
          ix = filterPos vs (fun x => decide (Between 0 a b x)) := by
        intro ix hix hD
        have e1 := hD (List.range vs.length) (by simp)
        have e2 : takeIdx (List.range vs.length) ix = ix := by
          have := takeIdx_map_range (f := fun i : ℕ => i) hix
          simpa using this
        rw [e2] at e1
        rw [e1]
        have := maskIdx_range (vs.map fun x => decide (Between 0 a b x))
        rw [List.length_map] at this
        rw [this]
        unfold filterPos
        apply List.filter_congr
        intro i hi
        have := List.mem_range.1 hi
        simp [List.getD_eq_getElem?_getD, List.getElem?_eq_getElem this]
      obtain ⟨h1, h2, h3⟩ := ArrCoord.select_spec kind vs a b
      have htk : takeIdx (Coord.arr vs).vals (filterPos vs (fun x => decide (Between 0 a b x))) = vs.filter fun x => decide (Between 0 a b x) := takeIdx_filterPos _ _
      refine ⟨filterPos vs (fun x => decide (Between 0 a b x)), ?_⟩
      unfold Carries
      rw [hv.take, htk]
      by_cases hnil : (vs.filter fun x => decide (Between 0 a b x)) = []
      · rw [h1 hnil] at h
        cases h
        refine ⟨?_, hsurv, Or.inl (by rw [hnil]; rfl)⟩
        rw [mask_positions _ _ (by simp [Coord.length])]
        congr 1
        unfold filterPos
        apply List.filter_congr
        intro i hi
        have := List.mem_range.1 hi
        simp only [Coord.length] at this
        simp [List.getD_eq_getElem?_getD, List.getElem?_eq_getElem this]
      · by_cases hall : (vs.filter fun x => decide (Between 0 a b x)) = vs
        · rw [h2 hc hall] at h
          cases h
          refine ⟨?_, hsurv, Or.inl (by rw [hall]; rfl)⟩
          rw [slice_all_positions]
          congr 1
          symm
          unfold filterPos
          rw [List.filter_eq_self] at hall
          refine List.filter_eq_self.2 ?_
          intro i hi
          have := List.mem_range.1 hi
          rw [List.getD_eq_getElem?_getD, List.getElem?_eq_getElem this]
          exact hall _ (List.getElem_mem this)
        · obtain ⟨ix, hix, hD, hs⟩ := h3 hnil hall
          rw [hs] at h
          obtain ⟨d', h4, h5⟩ := except_map_ok h
          cases h5
          refine ⟨?_, hsurv, Or.inr ⟨h4, rfl⟩⟩
          have := hpos ix hix hD
          unfold Indexer.positions
          simp only [Indexer.apply]
          rw [takeInts_eq _ _ (by simpa [Coord.length] using hix), ← this]
          congr 1
          have := takeIdx_map_range (f := fun i : ℕ => i) hix
          rw [List.map_id', List.map_id'] at this
          exact this
  | slice s =>
    obtain ⟨d', h1, h2⟩ := except_map_ok h
    cases h2
    have hps : ∃ ps, (Indexer.slice (toSlice s)).positions c.length = .ok ps := by
      cases hp : (Indexer.slice (toSlice s)).positions c.length with
      | ok ps => exact ⟨ps, rfl⟩
      | error e =>
        exfalso
        have ap : ∀ (l : List ℚ), l.length = c.length → pySlice l (toSlice s) = .error e := by
          intro l hl
          have := apply_eq l (.slice (toSlice s))
          rw [hl, hp] at this
          exact this
        cases c with
        | part n => simp only [Coord.getSlice] at h1; rw [show n = (Coord.part n).length from rfl, hp] at h1; cases h1
        | range r =>
          obtain ⟨q1, q2⟩ := C02_slice r (BuiltRange.of_valid hc) (toSlice s)
          by_cases h0 : (toSlice s).step = some 0
          · have := (q2 h0).1
            simp only [Coord.getSlice] at h1
            rw [this] at h1; cases h1
          · obtain ⟨_, l, _, q3, _⟩ := q1 h0
            rw [ap r.values (hasVals hc (by simp)).length] at q3
            cases q3
        | mono vs => simp only [Coord.getSlice] at h1; rw [ap vs rfl] at h1; cases h1
        | arr vs => simp only [Coord.getSlice] at h1; rw [ap vs rfl] at h1; cases h1
    obtain ⟨ps, hp⟩ := hps
    refine ⟨ps, hp, hp, Or.inl ?_⟩
    have ap : ∀ (l : List ℚ), l.length = c.length → pySlice l (toSlice s) = .ok (takeIdx l ps) := by
      intro l hl
      have := apply_eq l (.slice (toSlice s))
      rw [hl, hp] at this
      exact this
    cases c with
    | part n =>
      simp only [Coord.getSlice] at h1
      rw [show n = (Coord.part n).length from rfl, hp] at h1
      cases h1
      rw [take_part (positions_lt hp)]
    | range r =>
      have hv := hasVals hc (by simp)
      obtain ⟨q1, q2⟩ := C02_slice r (BuiltRange.of_valid hc) (toSlice s)
      by_cases h0 : (toSlice s).step = some 0
      · have := (q2 h0).1
        simp only [Coord.getSlice] at h1
        rw [this] at h1; cases h1
      · obtain ⟨d'', l, q3, q4, q5⟩ := q1 h0
        simp only [Coord.getSlice] at h1
        rw [q3] at h1
        cases h1
        rw [ap r.values hv.length] at q4
        cases q4
        rw [q5, hv.take]; rfl
    | mono vs =>
      have hv := hasVals hc (by simp)
      simp only [Coord.getSlice] at h1
      rw [ap vs rfl] at h1; cases h1
      rw [hv.take]; rfl
    | arr vs =>
      have hv := hasVals hc (by simp)
      simp only [Coord.getSlice] at h1
      rw [ap vs rfl] at h1; cases h1
      rw [hv.take]; rfl
  | values vs =>
    have hnp : ∀ n, c ≠ .part n := by
      rintro n rfl
      simp only [Coord.query] at h
      cases h
    have hv := hasVals hc hnp
    have h' : (c.getMask kind (c.vals.map fun v => decide (v ∈ vs))).map
        (fun d => (d, Indexer.mask (c.vals.map fun v => decide (v ∈ vs)))) = .ok (d, x) := by
      cases c with
      | part n => exact absurd rfl (hnp n)
      | _ => exact h
    obtain ⟨d', h1, h2⟩ := except_map_ok h'
    cases h2
    obtain ⟨hl, hlab⟩ := getMask_labels hc h1
    refine ⟨_, mask_positions _ _ hl, ?_, hlab⟩
    simp only [Survivors]
    rw [hv.filter (p := fun v => decide (v ∈ vs)) fun v => by simp]
    unfold filterPos
    rw [hv.length]
    apply List.filter_congr
    intro i hi
    have := List.mem_range.1 hi
    rw [← hv.length] at this
    simp [List.getD_eq_getElem?_getD, List.getElem?_eq_getElem this]
  | mask m =>
    have hnp : ∀ n, c ≠ .part n := by
      rintro n rfl
      simp only [Coord.query] at h
      cases h
    have h' : (c.getMask kind m).map (fun d => (d, Indexer.mask m)) = .ok (d, x) := by
      cases c with
      | part n => exact absurd rfl (hnp n)
      | _ => exact h
    obtain ⟨d', h1, h2⟩ := except_map_ok h'
    cases h2
    obtain ⟨hl, hlab⟩ := getMask_labels hc h1
    refine ⟨_, mask_positions _ _ hl, ⟨hl, ?_⟩, hlab⟩
    apply List.filter_congr
    intro i hi
    have := List.mem_range.1 hi
    rw [← hl] at this
    rw [Bool.eq_iff_iff, decide_eq_true_eq, List.getD_eq_getElem?_getD, List.getElem?_eq_getElem this]
    simp
  | samples ix =>
    obtain ⟨d', h1, h2⟩ := except_map_ok h
    cases h2
    obtain ⟨hl, hlab⟩ := getMask_labels hc h1
    refine ⟨_, mask_positions _ _ hl, ?_, hlab⟩
    simp only [Survivors]
    apply List.filter_congr
    intro i hi
    have := List.mem_range.1 hi
    rw [Bool.eq_iff_iff, decide_eq_true_eq, List.getD_eq_getElem?_getD, List.getElem?_map,
      List.getElem?_eq_getElem (by simpa using this)]
    simp
  | order vs =>
    have hnp : ∀ n, c ≠ .part n := by
      rintro n rfl
      simp only [Coord.query, Coord.order] at h
      cases h
    have hv := hasVals hc hnp
    obtain ⟨f, y, hf, hy, hm⟩ := C07_order argsort ha kind c hc hnp vs
    change c.order argsort kind vs = _ at h
    have hlt : ∀ i ∈ vs.flatMap f, i < c.length := by
      intro i hi
      obtain ⟨v, _, hi⟩ := List.mem_flatMap.1 hi
      have := mem_positions.1 ((hf v).mem_iff.1 hi)
      rw [← hv.length]
      exact (List.getElem?_eq_some_iff.1 this).1
    have hpos : y.positions c.length = .ok (vs.flatMap f) := by
      unfold Indexer.positions
      rw [hy _ (by simp)]
      congr 1
      have := takeIdx_map_range (f := fun i : ℕ => i) hlt
      simpa using this
    have hlab : takeIdx c.vals (vs.flatMap f) = vs.flatMap fun v => List.replicate (c.vals.count v) v := takeIdx_order hf vs
    refine ⟨vs.flatMap f, ?_, ?_⟩
    · have hxy : x = y := by
        cases c with
        | part n => exact absurd rfl (hnp n)
        | range r =>
          simp only at hm
          rw [hm] at h
          obtain ⟨_, _, h5⟩ := except_map_ok h
          cases h5; rfl
        | mono l =>
          simp only at hm
          obtain ⟨d', h3, h4⟩ := hm
          rw [h3] at h; cases h; rfl
        | arr l =>
          simp only at hm
          obtain ⟨d', h3, h4⟩ := hm
          rw [h3] at h; cases h; rfl
      rw [hxy]; exact hpos
    · refine ⟨⟨f, hf, rfl⟩, ?_⟩
      unfold Carries
      rw [hv.take, hlab]
      cases c with
      | part n => exact absurd rfl (hnp n)
      | range r =>
        simp only at hm
        rw [hm] at h
        obtain ⟨_, h4, h5⟩ := except_map_ok h
        cases h5
        exact Or.inr ⟨h4, rfl⟩
      | mono l =>
        simp only at hm
        obtain ⟨d', h3, h4⟩ := hm
        rw [h3] at h; cases h; exact Or.inl h4
      | arr l =>
        simp only at hm
        obtain ⟨d', h3, h4⟩ := hm
        rw [h3] at h; cases h; exact Or.inl h4
  | orderSamples ix =>
    obtain ⟨jx, rfl⟩ : ∃ jx : List ℕ, ix = jx.map fun i : ℕ => (i : ℤ) := by
      refine ⟨ix.map Int.toNat, ?_⟩
      rw [List.map_map]
      conv_lhs => rw [← List.map_id ix]
      apply List.map_congr_left
      intro i hi
      have := hq i hi
      simp only [id, Function.comp_apply]
      omega
    change c.orderBySamples kind _ = _ at h
    unfold Coord.orderBySamples at h
    have hinds : c.orderSampleInds (jx.map fun i : ℕ => (i : ℤ)) =
        (jx.filter fun i => decide (i < c.length)).map fun i : ℕ => (i : ℤ) := by
      unfold Coord.orderSampleInds
      rw [List.filter_map]
      rfl
    have hlt : ∀ i ∈ jx.filter fun i => decide (i < c.length), i < c.length := fun i hi => by
      simpa using (List.mem_filter.1 hi).2
    have htk : takeInts (List.range c.length) ((jx.filter fun i => decide (i < c.length)).map fun i : ℕ => (i : ℤ)) =
        .ok (jx.filter fun i => decide (i < c.length)) := by
      rw [takeInts_eq _ _ (by simp)]
      congr 1
      have := takeIdx_map_range (f := fun i : ℕ => i) hlt
      simpa using this
    simp only [hinds, htk, bind, Except.bind] at h
    have hmap : (List.map Int.toNat (List.map (fun i : ℕ => (i : ℤ)) jx)) = jx := by
      rw [List.map_map]; simp [Function.comp_def]
    cases hg : c.getInts kind (jx.filter fun i => decide (i < c.length)) with
    | error e => rw [hg] at h; cases h
    | ok d' =>
      rw [hg] at h
      cases h
      refine ⟨jx.filter fun i => decide (i < c.length), ?_, ?_, ?_⟩
      · unfold Indexer.positions
        have := maybeArrayToSlice_apply (List.range c.length) ((jx.filter fun i => decide (i < c.length)).map fun i : ℕ => (i : ℤ))
          (by intro i hi; obtain ⟨j, hj, rfl⟩ := List.mem_map.1 hi; have := hlt j hj; simp only [List.length_range]; omega)
        rw [List.length_range] at this
        rw [this, htk]
      · simp only [Survivors, hmap]
      · cases c with
        | part n =>
          simp only [Coord.getInts, Except.ok.injEq] at hg
          subst hg
          left
          rw [take_part hlt]
        | range r =>
          exact Or.inr ⟨hg, (hasVals hc (by simp)).take _⟩
        | mono l =>
          simp only [Coord.getInts, Except.ok.injEq] at hg
          subst hg
          left
          rw [(hasVals hc (by simp)).take]; rfl
        | arr l =>
          simp only [Coord.getInts, Except.ok.injEq] at hg
          subst hg
          left
          rw [(hasVals hc (by simp)).take]; rfl

end Verif
