import Verif.Proof.Groups
import Mathlib.Data.List.Pairwise
/-! # Lemmas: sorting a patch -/
namespace Verif
open Spec

theorem ints_positions {ps : List ℕ} {n : ℕ} (h : ∀ i ∈ ps, i < n) :
    (Indexer.ints (ps.map fun i : ℕ => (i : ℤ))).positions n = .ok ps := by
  unfold Indexer.positions
  simp only [Indexer.apply]
  rw [takeInts_eq _ _ (by simpa using h)]
  congr 1
  have := takeIdx_map_range (f := fun i : ℕ => i) h
  rw [List.map_id', List.map_id'] at this
  exact this

theorem rev_positions (n : ℕ) : (Indexer.slice ⟨none, none, some (-1)⟩).positions n = .ok (List.range n).reverse :=
  pySlice_reverse _

theorem arrSort_spec {argsort : List ℚ → List ℕ} (ha : IsArgsort argsort) {k : Kind} {c d : Coord} (hc : c.Wf) (hp : ∀ n, c ≠ .part n) {reverse : Bool} {x : Indexer}
    (h : ArrCoord.sort argsort k c.vals reverse = .ok (d, x)) :
    ∃ ps, x.positions c.length = .ok ps ∧ ps.Perm (List.range c.length) ∧ InOrder reverse (takeIdx c.vals ps) ∧ Carries k c d ps := by
  have hv := hasVals hc hp
  obtain ⟨h1, h2⟩ := ha c.vals
  unfold ArrCoord.sort at h
  simp only [bind, Except.bind] at h
  split at h
  · cases h
  · rename_i d' hd'
    cases h
    have hap : (if reverse = true then (argsort c.vals).reverse else argsort c.vals).Perm (List.range c.length) := by
      rw [← hv.length]
      split_ifs
      · exact (List.reverse_perm _).trans h1
      · exact h1
    refine ⟨_, ints_positions fun i hi => List.mem_range.1 (hap.mem_iff.1 hi), hap, ?_, Or.inr ⟨hd', hv.take _⟩⟩
    unfold InOrder
    cases reverse with
    | true =>
      simp only [if_true]
      rw [show takeIdx c.vals (argsort c.vals).reverse = (takeIdx c.vals (argsort c.vals)).reverse from List.filterMap_reverse .., List.pairwise_reverse]
      exact h2
    | false =>
      simp only [Bool.false_eq_true, if_false]
      exact h2

theorem sortCoord_spec {argsort : List ℚ → List ℕ} (ha : IsArgsort argsort) {k : Kind} {c d : Coord} (hc : c.Wf) {reverse : Bool} {x : Indexer}
    (h : CM.sortCoord argsort k c reverse = .ok (d, x)) :
    ∃ ps, x.positions c.length = .ok ps ∧ ps.Perm (List.range c.length) ∧ InOrder reverse (takeIdx c.vals ps) ∧ Carries k c d ps := by
  cases c with
  | part n =>
    cases h
    refine ⟨List.range n, slice_all_positions n, List.Perm.refl _, ?_, Or.inl ?_⟩
    · simp [InOrder, Coord.vals, takeIdx]
    · rw [take_part (ps := List.range n) (fun i hi => List.mem_range.1 hi)]; simp
  | mono vs => exact arrSort_spec ha hc (by simp) h
  | arr vs => exact arrSort_spec ha hc (by simp) h
  | range r =>
    have hv := hasVals hc (by simp)
    obtain ⟨p, h1, h2⟩ := except_map_ok h
    cases h2
    obtain ⟨d', sl, l, e1, e2, e3, _, e5⟩ := C06_sort_range r (BuiltRange.of_valid hc) reverse
    rw [h1] at e1
    cases e1
    have key : ∀ ps, (Indexer.slice sl).positions (Coord.range r).length = .ok ps → l = takeIdx r.values ps := by
      intro ps hps
      have := apply_eq r.values (.slice sl)
      rw [show r.values.length = (Coord.range r).length from hv.length, hps] at this
      have h3 : Indexer.apply (.slice sl) r.values = pySlice r.values sl := rfl
      rw [h3, e2] at this
      cases this; rfl
    have fin : ∀ ps, (Indexer.slice sl).positions (Coord.range r).length = .ok ps → ps.Perm (List.range (Coord.range r).length) →
        ∃ ps, (Indexer.slice sl).positions (Coord.range r).length = .ok ps ∧ ps.Perm (List.range (Coord.range r).length) ∧
          InOrder reverse (takeIdx (Coord.range r).vals ps) ∧ Carries k (.range r) d' ps := by
      intro ps hps hperm
      have hl := key ps hps
      refine ⟨ps, hps, hperm, ?_, Or.inl ?_⟩
      · have : (Coord.range r).vals = r.values := rfl
        rw [this, ← hl]; exact e5
      · rw [hv.take, e3, hl]; rfl
    unfold RangeCoord.sort at h1
    split at h1
    · cases h1
      exact fin _ (slice_all_positions _) (List.Perm.refl _)
    · simp only [bind, Except.bind] at h1
      split at h1
      · cases h1
      · cases h1
        exact fin _ (rev_positions _) (List.reverse_perm _)

theorem getTuple_one {k : Kind} {c : Coord} (hc : c.Wf) {x : Indexer} {ps : List ℕ} (hp : x.positions c.length = .ok ps)
    {ax : ℕ} {c' : MCoord} (h : (MCoord.one k c).getTuple x ax = .ok c') :
    ∃ d, c' = .one k d ∧ Carries k c d ps := by
  cases c with
  | part n =>
    simp only [MCoord.getTuple] at h
    rw [show n = (Coord.part n).length from rfl, hp] at h
    cases h
    exact ⟨_, rfl, Or.inl (take_part (positions_lt hp)).symm⟩
  | range r =>
    have hv := hasVals hc (by simp)
    have h' : (x.apply r.values).bind (fun vs => (getCoordData k vs).map (MCoord.one k)) = .ok c' := h
    rw [apply_eq, show r.values.length = (Coord.range r).length from hv.length, hp] at h'
    obtain ⟨d, h1, h2⟩ := except_map_ok h'
    exact ⟨d, h2.symm, Or.inr ⟨h1, hv.take _⟩⟩
  | mono vs =>
    have hv := hasVals hc (by simp)
    simp only [MCoord.getTuple] at h
    rw [apply_eq, show vs.length = (Coord.mono vs).length from rfl, hp] at h
    cases h
    exact ⟨_, rfl, Or.inl (by rw [hv.take]; rfl)⟩
  | arr vs =>
    have hv := hasVals hc (by simp)
    simp only [MCoord.getTuple] at h
    rw [apply_eq, show vs.length = (Coord.arr vs).length from rfl, hp] at h
    cases h
    exact ⟨_, rfl, Or.inl (by rw [hv.take]; rfl)⟩

theorem sortRelated_rel {m : CM} {dim : String} {x : Indexer} :
    ∀ new n new', m.sortRelated dim x new n = .ok new' → ∃ ds c c', Dict.get? new n = some (ds, c) ∧
      (∃ ds' c0, m.ents.get? n = some (ds', c0) ∧ c.getTuple x (ds'.idxOf dim) = .ok c') ∧ new' = Dict.set new n (ds, c') := by
  intro new n new' h
  unfold CM.sortRelated at h
  split at h
  · rename_i ds c ds' c0 h1 h2
    obtain ⟨c', h3, h4⟩ := except_map_ok h
    exact ⟨ds, c, c', h1, ⟨ds', c0, h2, h3⟩, h4.symm⟩
  · cases h

/-- Applying the collected indexers to the data, one axis after the other. -/
def applyAxes {α} (xs : List (ℕ × Indexer)) (a : Nd α) : Except Err (Nd α) := xs.foldlM (fun a x => a.indexAxis x.1 x.2) a

/-- The state while coordinates are sorted one after the other. -/
structure SInv {α} (m : CM) (a : Nd α) (st : Ents × List (ℕ × Indexer)) (red : String → List ℕ) (touched : String → Prop) : Prop extends
    Core m st.1 red touched where
  data : ∀ b, applyAxes st.2 a = .ok b → ShowsNd red m.dims a b
  perm : ∀ d ∈ m.dims, (red d).Perm (List.range (m.ents.lenOf d))

theorem sortStep_inv {α} {argsort : List ℚ → List ℕ} (ha : IsArgsort argsort) {m : CM} (hm : Regular m) {a : Nd α} {reverse : Bool}
    {st st' : Ents × List (ℕ × Indexer)} {red : String → List ℕ} {touched : String → Prop} (hi : SInv m a st red touched) {name : String}
    (hfree : ∀ d c, m.ents.get? name = some ([d], c) → ¬ touched d)
    (h : CM.sortStep argsort reverse m st name = .ok st') :
    ∃ red' touched', SInv m a st' red' touched' ∧
      (∀ d, touched' d ↔ touched d ∨ ∃ c, m.ents.get? name = some ([d], c)) ∧
      (∀ d, touched d → red' d = red d) ∧
      (∀ d k c, m.ents.get? name = some ([d], .one k c) → InOrder reverse (takeIdx c.vals (red' d))) := by
  unfold CM.sortStep at h
  split at h
  · rename_i d ds k c hent
    obtain ⟨d0, hds, hd, hlen⟩ := hm.one_dim hent (by simp)
    cases hds
    have hwf := hm.classes _ _ _ _ (Dict.mem_of_get? hent)
    simp only [bind, Except.bind] at h
    split at h
    · cases h
    · rename_i r hr
      split at h
      · cases h
      · rename_i new hnew
        cases h
        obtain ⟨ps, hpos, hperm, hord, hlab⟩ := sortCoord_spec ha (d := r.1) (x := r.2) hwf (by rw [hr])
        have hnt : ¬ touched d := hfree d _ hent
        rw [hlen] at hpos hperm
        have hcore := core_step hm hi.toCore hent hd hnt hpos hlab (op := MCoord.getTuple)
          (fun k c ax c' qs h1 h2 h3 => getTuple_one h1 h2 h3) (fun b ax => rfl) sortRelated_rel hnew
        refine ⟨Function.update red d ps, fun e => touched e ∨ e = d, ⟨hcore, ?_, ?_⟩, ?_, ?_, ?_⟩
        · intro b hb
          unfold applyAxes at hb
          simp only [List.foldlM_append] at hb
          cases hb1 : (st.2.foldlM (fun a x => a.indexAxis x.1 x.2) a : Except Err (Nd α)) with
          | error e => rw [hb1] at hb; cases hb
          | ok b1 =>
            rw [hb1] at hb
            simp only [List.foldlM_cons, List.foldlM_nil, bind, Except.bind, pure, Except.pure] at hb
            split at hb
            · cases hb
            · rename_i b2 hb2
              cases hb
              exact index_nd (hi.data b1 hb1) hm.distinct hd (hi.fresh d hd hnt) hpos hb2
        · intro e he
          by_cases hed : e = d
          · subst hed; simp only [Function.update_self]; exact hperm
          · simp only [Function.update_of_ne hed]; exact hi.perm e he
        · intro e
          rw [hent]
          constructor
          · rintro (h | rfl)
            · exact Or.inl h
            · exact Or.inr ⟨_, rfl⟩
          · rintro (h | ⟨c', h⟩)
            · exact Or.inl h
            · cases h; exact Or.inr rfl
        · intro e he
          have : e ≠ d := by rintro rfl; exact hnt he
          simp [this]
        · intro e k' c' h'
          rw [hent] at h'
          cases h'
          simp only [Function.update_self]
          exact hord
  · cases h
  · cases h

theorem sortFold_inv {α} {argsort : List ℚ → List ℕ} (ha : IsArgsort argsort) {m : CM} (hm : Regular m) {a : Nd α} {reverse : Bool} :
    ∀ (names : List String) (st st' : Ents × List (ℕ × Indexer)) (red : String → List ℕ) (touched : String → Prop), SInv m a st red touched →
      (∀ n ∈ names, ∀ d c, m.ents.get? n = some ([d], c) → ¬ touched d) →
      names.Pairwise (fun p q => ∀ d c c', m.ents.get? p = some ([d], c) → m.ents.get? q ≠ some ([d], c')) →
      names.foldlM (CM.sortStep argsort reverse m) st = .ok st' →
      ∃ red' touched', SInv m a st' red' touched' ∧
        (∀ d, touched' d ↔ touched d ∨ ∃ n ∈ names, ∃ c, m.ents.get? n = some ([d], c)) ∧
        (∀ d, touched d → red' d = red d) ∧
        (∀ n ∈ names, ∀ d k c, m.ents.get? n = some ([d], .one k c) → InOrder reverse (takeIdx c.vals (red' d))) := by
  intro names
  induction names with
  | nil =>
    intro st st' red touched hi _ _ h
    cases h
    exact ⟨red, touched, hi, by simp, fun _ _ => rfl, by simp⟩
  | cons p names ih =>
    intro st st' red touched hi hf hp h
    rw [List.foldlM_cons] at h
    cases h1 : CM.sortStep argsort reverse m st p with
    | error e => rw [h1] at h; cases h
    | ok st1 =>
      rw [h1] at h
      rw [List.pairwise_cons] at hp
      obtain ⟨red1, t1, i1, i2, i3, i4⟩ := sortStep_inv ha hm hi (hf p List.mem_cons_self) h1
      have hfree : ∀ q ∈ names, ∀ d c, m.ents.get? q = some ([d], c) → ¬ t1 d := by
        intro q hq d c hd ht
        rcases (i2 d).1 ht with ht | ⟨c', hc'⟩
        · exact hf q (List.mem_cons_of_mem _ hq) d c hd ht
        · exact hp.1 q hq d c' c hc' hd
      obtain ⟨red2, t2, j1, j2, j3, j4⟩ := ih st1 st' red1 t1 i1 hfree hp.2 h
      refine ⟨red2, t2, j1, ?_, ?_, ?_⟩
      · intro d
        rw [j2, i2]
        simp only [List.mem_cons, exists_eq_or_imp, or_assoc]
      · intro d hd
        rw [j3 d ((i2 d).2 (Or.inl hd)), i3 d hd]
      · intro q hq d k c hc
        rcases List.mem_cons.1 hq with rfl | hq
        · rw [j3 d ((i2 d).2 (Or.inr ⟨_, hc⟩))]
          exact i4 d k c hc
        · exact j4 q hq d k c hc

theorem shows_label' {m : CM} (hm : Regular m) {red : String → List ℕ} {touched : String → Prop} {name : String}
    {ds : List String} {c c' : MCoord} (hent : m.ents.get? name = some (ds, c)) (hne : ds ≠ []) (hs : Shows red touched ds c c')
    (hst : StorableAfter m red name)
    (hfresh : ∀ d ∈ m.dims, ¬ touched d → red d = List.range (m.ents.lenOf d))
    (hbound : ∀ d ∈ m.dims, ∀ j ∈ red d, j < m.ents.lenOf d)
    {i : List ℕ} (hi : InRange (m.dims.map fun d => (red d).length) i) :
    labelAt m.dims ds c'.arr i = labelAt m.dims ds c.arr (origin m.dims red i) := by
  have hlen : i.length = m.dims.length := by simpa using inRange_length hi
  have hatt : ∀ d ∈ ds, d ∈ m.dims := hm.wf.attached name ds c (Dict.mem_of_get? hent)
  unfold labelAt
  have horig : (ds.map fun d => (origin m.dims red i).getD (m.dims.idxOf d) 0) =
      ds.map fun d => lookup (red d) (i.getD (m.dims.idxOf d) 0) :=
    List.map_congr_left fun d hd => origin_getD (hatt d hd) hlen
  rw [horig]
  cases c with
  | nd a =>
    obtain ⟨b, rfl, hb, hg⟩ := hs
    simp only [MCoord.arr]
    rw [hg _ (by rw [hb]; exact inRange_map fun d hd => inRange_getD hi (hatt d hd)), zipWith_map_map]
  | one k c =>
    obtain ⟨c', rfl, hc'⟩ := hs
    obtain ⟨d, rfl, hd, hl⟩ := hm.one_dim hent hne
    have hwf := hm.classes _ _ _ _ (Dict.mem_of_get? hent)
    have hsto := hst d k c hent
    have hb : ∀ j ∈ red d, j < c.labels.length := by
      rw [labels_length hwf, hl]; exact hbound d hd
    have hlab : c'.labels = takeIdx c.labels (red d) := by
      by_cases ht : touched d
      · exact ((hc' d rfl).2 ht).labels hsto
      · rw [(hc' d rfl).1 ht, hfresh d hd ht, ← hl, ← labels_length hwf, takeIdx_range_self]
    simp only [MCoord.arr, List.map_cons, List.map_nil, List.getD_cons_zero]
    rw [hlab, takeIdx_getD hb (inRange_getD hi hd)]
    rfl

theorem inOrder_start {reverse : Bool} {c : Coord} (hc : c.Wf) {k : Kind} (h : CM.isSortedAs reverse (.one k c) = true) :
    InOrder reverse (takeIdx c.vals (List.range c.length)) := by
  have hp : ∀ n, c ≠ .part n := by
    rintro n rfl
    cases reverse <;> simp [CM.isSortedAs, Coord.isReverse, Coord.isSorted] at h
  rw [← (hasVals hc hp).length, takeIdx_range_self]
  unfold InOrder
  cases reverse with
  | true => simpa using Wf.ge_of_reverse hc (by simpa [CM.isSortedAs] using h)
  | false => simpa using Wf.le_of_sorted hc (by simpa [CM.isSortedAs] using h)

theorem sort_onePerDim {m : CM} {names : List String} (hv : m.sortValid names = .ok ()) :
    names.Pairwise (fun p q => ∀ d c c', m.ents.get? p = some ([d], c) → m.ents.get? q ≠ some ([d], c')) := by
  unfold CM.sortValid at hv
  simp only at hv
  split_ifs at hv with h1 h2 h3
  by_cases hl : names.length = 1
  · obtain ⟨a, rfl⟩ := List.length_eq_one_iff.1 hl
    simp
  · have h4 := not_and.1 h3 hl
    rw [not_not, List.nodup_flatten] at h4
    have h5 := h4.2
    rw [List.pairwise_map] at h5
    refine h5.imp ?_
    intro p q hd d c c' hp hq
    rw [hp, hq] at hd
    simp at hd

theorem sort_spec {α} {argsort : List ℚ → List ℕ} (ha : IsArgsort argsort) {p q : PatchM α} (hm : Regular p.cm)
    (hd : p.cm.dims ≠ []) (hsh : p.cm.shape = p.data.shape) {names : List String} {reverse : Bool}
    (h : p.sortCoords argsort names reverse = .ok q) :
    ∃ red, Rearranged p q red ∧ (∀ d ∈ p.cm.dims, (red d).Perm (List.range (p.cm.ents.lenOf d))) ∧
      (∀ name ∈ (if names = [] then p.cm.dims else names), ∀ d k c, p.cm.ents.get? name = some ([d], .one k c) →
        InOrder reverse (takeIdx c.vals (red d))) ∧
      (∀ d ∈ p.cm.dims, (∀ name ∈ (if names = [] then p.cm.dims else names), ∀ c, p.cm.ents.get? name ≠ some ([d], c)) →
        red d = List.range (p.cm.ents.lenOf d)) := by
  have hshape : p.data.shape = p.cm.dims.map p.cm.ents.lenOf := by
    rw [← hsh]; unfold CM.shape; rw [if_neg hd]
  unfold PatchM.sortCoords at h
  simp only [bind, Except.bind] at h
  split at h
  · cases h
  rename_i r hr
  unfold CM.sort at hr
  simp only [bind, Except.bind] at hr
  split at hr
  · cases hr
  rename_i s hs
  split at hr
  · cases hr
  rename_i a hap
  cases hr
  simp only at h
  have hq : q = ⟨s.1, a⟩ := by
    unfold PatchM.new at h
    split_ifs at h
    cases h; rfl
  subst hq
  unfold CM.sortCM at hs
  simp only [bind, Except.bind, List.isEmpty_iff] at hs
  generalize (if names = [] then p.cm.dims else names) = names' at hs ⊢
  split at hs
  · cases hs
  rename_i u hv
  have hone := sort_onePerDim hv
  -- what holds once the fold is done
  have main : ∀ (st : Ents × List (ℕ × Indexer)) red touched, SInv p.cm p.data st red touched →
      s = (⟨p.cm.dims, st.1⟩, st.2) → 
      (∀ d, touched d ↔ ∃ n ∈ names'.filter (p.cm.needsSort reverse), ∃ c, p.cm.ents.get? n = some ([d], c)) →
      (∀ n ∈ names'.filter (p.cm.needsSort reverse), ∀ d k c, p.cm.ents.get? n = some ([d], .one k c) →
        InOrder reverse (takeIdx c.vals (red d))) →
      Rearranged p ⟨s.1, a⟩ red ∧ (∀ d ∈ p.cm.dims, (red d).Perm (List.range (p.cm.ents.lenOf d))) ∧
      (∀ name ∈ names', ∀ d k c, p.cm.ents.get? name = some ([d], .one k c) → InOrder reverse (takeIdx c.vals (red d))) ∧
      (∀ d ∈ p.cm.dims, (∀ name ∈ names', ∀ c, p.cm.ents.get? name ≠ some ([d], c)) → red d = List.range (p.cm.ents.lenOf d)) := by
    intro st red touched hi hst ht hord
    subst hst
    obtain ⟨s1, s2⟩ := hi.data a hap
    have hnone : ∀ name, p.cm.ents.get? name = none → st.1.get? name = none := by
      intro name hn
      cases hg : st.1.get? name with
      | none => rfl
      | some v =>
        have : name ∈ st.1.keys := Dict.mem_keys.2 ⟨v, hg⟩
        rw [hi.keys] at this
        obtain ⟨w, hw⟩ := Dict.mem_keys.1 this
        rw [hn] at hw; cases hw
    refine ⟨⟨rfl, ?_, s1, ?_, ?_⟩, hi.perm, ?_, ?_⟩
    · intro name
      cases hc : p.cm.ents.get? name with
      | none => simp only [hnone name hc]
      | some v =>
        obtain ⟨ds, c⟩ := v
        obtain ⟨c', h1⟩ := hi.dims name ds c hc
        simp only [h1, Option.map_some]
    · intro i hii
      refine ⟨?_, s2 i hii⟩
      rw [hshape]
      simp only at hii
      rw [s1] at hii
      exact origin_inRange hi.bound hii
    · intro name hsto i hii
      simp only at hii
      rw [s1] at hii
      unfold label
      cases hc : p.cm.ents.get? name with
      | none => simp only [hnone name hc]
      | some v =>
        obtain ⟨ds, c⟩ := v
        cases ds with
        | nil =>
          obtain ⟨c', h1⟩ := hi.dims name [] c hc
          simp only [h1]
        | cons d ds =>
          obtain ⟨c', h4, h5⟩ := hi.shows name (d :: ds) c hc (by simp)
          simp only [h4]
          rw [shows_label' hm hc (by simp) h5 hsto hi.fresh hi.bound hii]
    · intro name hn d k c hc
      by_cases hns : p.cm.needsSort reverse name = true
      · exact hord name (List.mem_filter.2 ⟨hn, hns⟩) d k c hc
      · obtain ⟨d0, e, hdd, hl⟩ := hm.one_dim hc (by simp)
        cases e
        have hnt : ¬ touched d := by
          rw [ht]
          rintro ⟨n, hn', c', hc'⟩
          obtain ⟨hn1, hn2⟩ := List.mem_filter.1 hn'
          have hne : n ≠ name := by rintro rfl; exact hns hn2
          have hsym : Std.Symm (fun p' q' => ∀ d c c', p.cm.ents.get? p' = some ([d], c) → p.cm.ents.get? q' ≠ some ([d], c')) :=
            ⟨fun a b hab d c c' h1 h2 => hab d c' c h2 h1⟩
          exact hone.forall hn1 hn hne d c' _ hc' hc
        rw [hi.fresh d hdd hnt, ← hl]
        apply inOrder_start (hm.classes _ _ _ _ (Dict.mem_of_get? hc)) (k := k)
        unfold CM.needsSort at hns
        rw [hc] at hns
        simpa using hns
    · intro d hdd hno
      apply hi.fresh d hdd
      rw [ht]
      rintro ⟨n, hn, c, hc⟩
      exact hno n (List.mem_of_mem_filter hn) c hc
  have hstart : SInv p.cm p.data (p.cm.ents, []) (fun d => List.range (p.cm.ents.lenOf d)) (fun _ => False) := by
    refine ⟨core_start hm, ?_, fun d _ => List.Perm.refl _⟩
    intro b hb
    cases hb
    exact showsNd_start hshape
  split at hs
  · rename_i hemp
    cases hs
    refine ⟨_, main (p.cm.ents, []) _ _ hstart rfl ?_ ?_⟩
    · intro d; rw [hemp]; simp
    · rw [hemp]; simp
  · split at hs
    · cases hs
    rename_i st hst
    split at hs
    · cases hs
    rename_i cm hcm
    cases hs
    obtain ⟨red, touched, i1, i2, _, i4⟩ := sortFold_inv ha hm _ _ st _ _ hstart (by simp) (hone.sublist List.filter_sublist) hst
    refine ⟨red, main st red touched i1 ?_ ?_ i4⟩
    · rw [(CM.mk?_ok hcm).1]
    · intro d; rw [i2]; simp

end Verif
