import Verif.Proof.PatchOps
/-! # Lemmas: flipping a patch -/
namespace Verif
open Spec

/-- What has been collected once the dimensions `done` are processed. -/
structure FlipInv (m : CM) (done : List String) (out : Dict CArg) : Prop where
  nodup : out.keys.Nodup
  sound : ∀ n a, out.get? n = some a → ∃ d ∈ done, ∃ ds c c', m.ents.get? n = some (ds, c) ∧ d ∈ ds ∧ a = .nested ds c' ∧
    c.getTuple CM.revSlice (ds.idxOf d) = .ok c'

theorem flipOne_inv {m : CM} {done : List String} {out out' : Dict CArg} {d n : String} (hi : FlipInv m done out) (hd : d ∈ done)
    (hn : ∀ ds c, m.ents.get? n = some (ds, c) → d ∈ ds ∧ (n = d → ds = [d])) (h : CM.flipOne m.ents d out n = .ok out') :
    FlipInv m done out' ∧ (∀ k, (out.get? k).isSome → (out'.get? k).isSome) ∧ (out'.get? n).isSome := by
  unfold CM.flipOne at h
  split at h
  · rename_i ds c hc
    obtain ⟨c', h1, rfl⟩ := except_map_ok h
    obtain ⟨h2, h3⟩ := hn ds c hc
    have hax : (if n = d then 0 else ds.idxOf d) = ds.idxOf d := by
      split_ifs with he
      · rw [h3 he]; simp
      · rfl
    rw [hax] at h1
    refine ⟨⟨Dict.nodup_set hi.nodup _ _, ?_⟩, ?_, ?_⟩
    · intro k a hk
      rw [Dict.get?_set] at hk
      split_ifs at hk with he
      · cases hk
        subst he
        exact ⟨d, hd, ds, c, c', hc, h2, rfl, h1⟩
      · exact hi.sound k a hk
    · intro k hk
      rw [Dict.get?_set]
      split_ifs
      · rfl
      · exact hk
    · rw [Dict.get?_set]; simp
  · cases h

theorem flipInner_inv {m : CM} {done : List String} {d : String} (hd : d ∈ done) (l : List String) :
    ∀ out out' : Dict CArg, FlipInv m done out →
    (∀ n ∈ l, ∀ ds c, m.ents.get? n = some (ds, c) → d ∈ ds ∧ (n = d → ds = [d])) → l.foldlM (CM.flipOne m.ents d) out = .ok out' →
    FlipInv m done out' ∧ (∀ k, (out.get? k).isSome → (out'.get? k).isSome) ∧ ∀ n ∈ l, (out'.get? n).isSome := by
  induction l with
  | nil => intro out out' hi _ h; cases h; exact ⟨hi, fun _ h => h, by simp⟩
  | cons a l ih =>
    intro out out' hi hn h
    rw [List.foldlM_cons] at h
    cases h1 : CM.flipOne m.ents d out a with
    | error e => rw [h1] at h; cases h
    | ok out1 =>
      rw [h1] at h
      obtain ⟨i1, i2, i3⟩ := flipOne_inv hi hd (hn a List.mem_cons_self) h1
      obtain ⟨j1, j2, j3⟩ := ih out1 out' i1 (fun n hn' => hn n (List.mem_cons_of_mem _ hn')) h
      refine ⟨j1, fun k hk => j2 k (i2 k hk), ?_⟩
      intro n hn'
      rcases List.mem_cons.1 hn' with rfl | hn'
      · exact j2 _ i3
      · exact j3 n hn'

theorem flipStep_inv {m : CM} (hm : Regular m) {done : List String} {out out' : Dict CArg} {d : String} (hdm : d ∈ m.dims) (hi : FlipInv m done out)
    (hd : d ∈ done) (h : CM.flipStep m.ents out d = .ok out') :
    FlipInv m done out' ∧ (∀ k, (out.get? k).isSome → (out'.get? k).isSome) ∧
      ∀ n ds c, m.ents.get? n = some (ds, c) → d ∈ ds → (out'.get? n).isSome := by
  unfold CM.flipStep at h
  split at h
  · cases h
  rename_i ds c hc
  split_ifs at h
  simp only [bind, Except.bind] at h
  split at h
  · cases h
  rename_i out1 h1
  have hown : ∀ ds c, m.ents.get? d = some (ds, c) → d ∈ ds ∧ (d = d → ds = [d]) := by
    intro ds c hc
    obtain ⟨c', n, hc', _⟩ := CM.WellFormed.get_dim hm.wf hdm
    rw [hc] at hc'; cases hc'
    simp
  obtain ⟨i1, i2, i3⟩ := flipOne_inv hi hd hown h1
  obtain ⟨j1, j2, j3⟩ := flipInner_inv hd _ _ _ i1 (by
    intro n hn ds c hc
    obtain ⟨⟨pn, pds, pc⟩, hp, rfl⟩ := List.mem_map.1 hn
    obtain ⟨hp1, hp2⟩ := List.mem_filter.1 hp
    have := (Dict.mem_iff (show Dict.keys m.ents |>.Nodup from hm.wf.names) (k := pn) (v := (pds, pc))).1 hp1
    simp only at hc
    rw [hc] at this
    cases this
    simp only [Bool.and_eq_true, bne_iff_ne, List.contains_iff_mem] at hp2
    exact ⟨hp2.1, fun h => absurd h hp2.2⟩) h
  refine ⟨j1, fun k hk => j2 k (i2 k hk), ?_⟩
  intro n ds' c' hn hds
  by_cases he : n = d
  · rw [he]; exact j2 _ i3
  · apply j3
    rw [List.mem_map]
    refine ⟨(n, ds', c'), List.mem_filter.2 ⟨Dict.mem_of_get? hn, ?_⟩, rfl⟩
    simp [hds, he]

theorem FlipInv.mono {m : CM} {l l' : List String} {out : Dict CArg} (h : FlipInv m l out) (hs : ∀ d ∈ l, d ∈ l') : FlipInv m l' out :=
  ⟨h.nodup, fun n a ha => by
    obtain ⟨d, hd, r⟩ := h.sound n a ha
    exact ⟨d, hs d hd, r⟩⟩

theorem flipFold_inv {m : CM} (hm : Regular m) (dims : List String) :
    ∀ (done : List String) (out out' : Dict CArg), (∀ d ∈ dims, d ∈ m.dims) → FlipInv m done out →
      (∀ d ∈ done, ∀ n ds c, m.ents.get? n = some (ds, c) → d ∈ ds → (out.get? n).isSome) →
      dims.foldlM (CM.flipStep m.ents) out = .ok out' →
      FlipInv m (done ++ dims) out' ∧ ∀ d ∈ done ++ dims, ∀ n ds c, m.ents.get? n = some (ds, c) → d ∈ ds → (out'.get? n).isSome := by
  induction dims with
  | nil => intro done out out' _ hi hc h; cases h; simpa using ⟨hi, hc⟩
  | cons a l ih =>
    intro done out out' hd hi hc h
    rw [List.foldlM_cons] at h
    cases h1 : CM.flipStep m.ents out a with
    | error e => rw [h1] at h; cases h
    | ok out1 =>
      rw [h1] at h
      obtain ⟨i1, i2, i3⟩ := flipStep_inv hm (hd a List.mem_cons_self) (hi.mono (l' := done ++ [a]) (fun d hd => by simp [hd])) (by simp) h1
      have := ih (done ++ [a]) out1 out' (fun d h => hd d (List.mem_cons_of_mem _ h)) i1 (by
        intro d hdd n ds c hn hds
        rcases List.mem_append.1 hdd with hdd | hdd
        · exact i2 n (hc d hdd n ds c hn hds)
        · simp at hdd; subst hdd; exact i3 n ds c hn hds) h
      simpa using this

theorem getTuple_valid {k : Kind} {c d : Coord} {x : Indexer} {ax : ℕ} (h : (MCoord.one k c).getTuple x ax = .ok (.one k d)) {r : RangeCoord}
    (hd : d = .range r) : r.Valid := by
  subst hd
  cases c with
  | part n => obtain ⟨_, _, h⟩ := except_map_ok h; cases h
  | mono vs => obtain ⟨_, _, h⟩ := except_map_ok h; cases h
  | arr vs => obtain ⟨_, _, h⟩ := except_map_ok h; cases h
  | range r0 =>
    simp only [MCoord.getTuple, bind, Except.bind] at h
    split at h
    · cases h
    obtain ⟨d, h1, h2⟩ := except_map_ok h
    cases h2
    exact wf_of_data h1 rfl

/-- The coordinate collected for `n` shows the mirrored positions. -/
theorem flip_shows {m : CM} (hm : Regular m) {dims : List String} (ho : AttachedOnce m dims)
    {n d : String} {ds : List String} {c c' : MCoord} (hn : m.ents.get? n = some (ds, c)) (hd : d ∈ ds) (hdd : d ∈ dims)
    (h : c.getTuple CM.revSlice (ds.idxOf d) = .ok c') :
    Shows (mirrored m dims) (· ∈ dims) ds c c' ∧ c'.shape = c.shape := by
  have hne : ds ≠ [] := by rintro rfl; simp at hd
  cases c with
  | one k c =>
    obtain ⟨e, rfl, he, hl⟩ := hm.one_dim hn hne
    simp only [List.mem_singleton] at hd
    subst hd
    have hwf := hm.classes _ _ _ _ (Dict.mem_of_get? hn)
    have hp := rev_positions c.length
    obtain ⟨x, rfl, hC⟩ := getTuple_one hwf hp h
    refine ⟨⟨x, rfl, fun e he => ?_⟩, ?_⟩
    · simp only [List.cons.injEq, and_true] at he
      subst he
      refine ⟨fun h => absurd hdd h, fun _ => ?_⟩
      unfold mirrored lenDim
      rw [if_pos hdd, ← hl]; exact hC
    · rw [one_shape, one_shape, hC.length hwf (positions_lt hp) (fun r hr => getTuple_valid h hr)]; simp
  | nd a =>
    obtain ⟨b, h1, rfl⟩ := except_map_ok h
    have hs : a.shape = ds.map m.ents.lenOf := CM.WellFormed.shape_eq hm.wf (Dict.mem_of_get? hn) hne
    have h2 := index_nd (showsNd_start (f := m.ents.lenOf) hs) (hm.coordDims _ _ _ (Dict.mem_of_get? hn)) hd rfl
      (rev_positions (m.ents.lenOf d)) h1
    have h3 : ShowsNd (mirrored m dims) ds a b := by
      refine showsNd_congr ?_ h2
      intro e he
      unfold mirrored lenDim
      by_cases hed : e = d
      · subst hed; rw [Function.update_self, if_pos hdd]
      · rw [Function.update_of_ne hed, if_neg]
        intro hed'
        exact hed (ho n ds _ hn e he d hd hed' hdd)
    refine ⟨⟨b, rfl, h3⟩, ?_⟩
    show b.shape = a.shape
    rw [h3.1, hs]
    refine List.map_congr_left fun e _ => ?_
    unfold mirrored lenDim; split_ifs <;> simp

theorem flip_spec {α} {p q : PatchM α} (hm : Regular p.cm) (hd : p.cm.dims ≠ []) (hsh : p.cm.shape = p.data.shape)
    {dims : List String} (hne : dims ≠ []) (ho : AttachedOnce p.cm dims) (h : p.flip dims true = .ok q) :
    (∀ d ∈ dims, d ∈ p.cm.dims) ∧ Rearranged p q (mirrored p.cm dims) ∧ Regular q.cm ∧ q.cm.shape = q.data.shape := by
  have hshape : p.data.shape = p.cm.dims.map p.cm.ents.lenOf := by
    rw [← hsh]; unfold CM.shape; rw [if_neg hd]
  unfold PatchM.flip at h
  simp only [List.isEmpty_iff, hne, if_false, if_true] at h
  split at h
  · cases h
  rename_i hmem
  have hmem' : ∀ d ∈ dims, d ∈ p.cm.dims := by
    intro d hd
    by_contra hc
    exact hmem (List.any_eq_true.2 ⟨d, hd, by simp [hc]⟩)
  split at h
  · cases h
  simp only [bind, Except.bind] at h
  split at h
  · cases h
  rename_i a ha
  split at h
  · cases h
  rename_i cm hcm
  obtain ⟨rfl, hs⟩ := new_ok h
  refine ⟨hmem', ?_⟩
  unfold CM.flip at hcm
  simp only [bind, Except.bind] at hcm
  split at hcm
  · cases hcm
  rename_i out hout
  obtain ⟨i1, i2⟩ := flipFold_inv hm dims [] [] out hmem' ⟨by simp [Dict.keys], by simp [Dict.get?_nil]⟩ (by simp) hout
  simp only [List.nil_append] at i1 i2
  set red := mirrored p.cm dims with hred
  have hx : ∀ e ∈ p.cm.dims, (if dims.contains e then CM.revSlice else Indexer.slice {}).positions (p.cm.ents.lenOf e) = .ok (red e) := by
    intro e _
    rw [hred]
    unfold mirrored
    simp only [List.contains_iff_mem]
    split_ifs with he
    · exact rev_positions _
    · exact slice_all_positions _
  obtain ⟨d1, d2⟩ := indexTuple_spec (x := fun e => if dims.contains e then CM.revSlice else Indexer.slice {}) hshape hx ha
  have hkeys : ∀ n ∈ out.keys, ∃ v, p.cm.ents.get? n = some v := by
    intro n hn
    obtain ⟨a, ha⟩ := Dict.mem_keys.1 hn
    obtain ⟨_, _, ds, c, _, h1, _⟩ := i1.sound n a ha
    exact ⟨_, h1⟩
  have hU := update_spec hm.wf i1.nodup (fun n hn => hm.plain _ (Dict.mem_keys.2 (hkeys n hn))) hcm
  have hnest : ∀ r ∈ out, ∃ ds c', r.2 = CArg.nested ds c' ∧ (r.1 ∉ p.cm.dims → ds ≠ [r.1]) := by
    intro r hr
    have := (Dict.mem_iff i1.nodup (k := r.1) (v := r.2)).1 hr
    obtain ⟨_, _, ds, c, c', h1, _, h3, _⟩ := i1.sound _ _ this
    refine ⟨ds, c', h3, fun hnd hds => hnd ?_⟩
    exact hm.wf.attached _ _ _ (Dict.mem_of_get? h1) _ (by rw [hds]; simp)
  have hdn : dropNames out = [] := by
    unfold dropNames
    rw [List.map_eq_nil_iff, List.filter_eq_nil_iff]
    intro r hr
    obtain ⟨ds, c', h1, _⟩ := hnest r hr
    rw [h1]; simp [CArg.isDrop]
  have hdims : cm.dims = p.cm.dims := by
    rw [hU.dims, hdn]
    have : (out.filter fun q => ((argOf q.1 q.2).map Prod.fst == some [q.1]) && !p.cm.dims.contains q.1) = [] := by
      rw [List.filter_eq_nil_iff]
      intro r hr
      obtain ⟨ds, c', h1, h2⟩ := hnest r hr
      rw [h1]
      simp only [argOf, Option.map_some, Bool.and_eq_true, beq_iff_eq, Option.some.injEq, Bool.not_eq_true', not_and, Bool.not_eq_false]
      intro hds
      rw [List.contains_iff_mem]
      by_contra hc
      exact h2 hc hds
    rw [this]; simp
  have hres : ∀ e, ¬ Resized p.cm out e := by
    rintro e ⟨h1, a', ds, c1, ds', c2, h2, h3, h4, h5⟩
    obtain ⟨d, hdd, ds0, c0, c0', g1, g2, rfl, g4⟩ := i1.sound _ _ h2
    rw [h4] at g1; cases g1
    cases h3
    have := (flip_shows hm ho h4 g2 hdd g4).2
    exact h5 (by unfold MCoord.len; rw [this])
  have hii : ∀ i, InRange a.shape i → InRange (p.cm.dims.map fun d => (red d).length) i := by
    intro i hi; rw [← d1]; exact hi
  have hbound : ∀ e ∈ p.cm.dims, ∀ j ∈ red e, j < p.cm.ents.lenOf e := by
    intro e _ j hj
    rw [hred] at hj
    unfold mirrored at hj
    split_ifs at hj with he
    · exact List.mem_range.1 (List.mem_reverse.1 hj)
    · exact List.mem_range.1 hj
  have hfresh : ∀ e ∈ p.cm.dims, ¬ e ∈ dims → red e = List.range (p.cm.ents.lenOf e) := by
    intro e _ he
    rw [hred]; unfold mirrored; rw [if_neg he]; rfl
  have hent : ∀ name ds c, p.cm.ents.get? name = some (ds, c) → ∃ c' x, cm.ents.get? name = some (ds, x) ∧ c'.canon = .ok x ∧
      (ds ≠ [] → Shows red (· ∈ dims) ds c c') := by
    intro name ds c hn
    cases ho' : out.get? name with
    | some a' =>
      obtain ⟨d, hdd, ds0, c0, c0', g1, g2, rfl, g4⟩ := i1.sound _ _ ho'
      rw [hn] at g1; cases g1
      obtain ⟨x, h1, h2⟩ := hU.givenC name _ ds c0' ho' rfl
      exact ⟨c0', x, h2, h1, fun _ => (flip_shows hm ho hn g2 hdd g4).1⟩
    | none =>
      obtain ⟨x, h1, h2⟩ := hU.keptC name ds c ho' hn (fun e he => ⟨by simp [hdn], hres e⟩)
      refine ⟨c, x, h2, h1, fun hne => ?_⟩
      have hnt : ∀ e ∈ ds, ¬ e ∈ dims := by
        intro e he hed
        have := i2 e hed name ds c hn he
        rw [ho'] at this; cases this
      exact shows_self hm hn hne hnt fun e he => hfresh e (hm.wf.attached _ _ _ (Dict.mem_of_get? hn) e he) (hnt e he)
  have hnone : ∀ name, p.cm.ents.get? name = none → cm.ents.get? name = none := by
    intro name hn
    refine hU.none name ?_ hn
    rw [Dict.get?_eq_none]
    intro hk
    obtain ⟨v, hv⟩ := hkeys name hk
    rw [hn] at hv; cases hv
  refine ⟨⟨hdims, ?_, d1, ?_, ?_⟩, ?_, hs⟩
  · intro name
    cases hn : p.cm.ents.get? name with
    | none => simp only [hnone name hn]
    | some v =>
      obtain ⟨c', x, h1, _⟩ := hent name v.1 v.2 hn
      simp only [h1, Option.map_some]
  · intro i hi
    refine ⟨?_, d2 i⟩
    rw [hshape]
    exact origin_inRange hbound (hii i hi)
  · intro name hsto i hi
    unfold label
    cases hn : p.cm.ents.get? name with
    | none => simp only [hnone name hn]
    | some v =>
      obtain ⟨ds, c⟩ := v
      obtain ⟨c', x, h1, h2, h3⟩ := hent name ds c hn
      cases ds with
      | nil => simp only [h1]
      | cons d0 ds =>
        simp only [h1, hdims]
        rw [shows_label hm hn (by simp) (h3 (by simp)) hsto hfresh hbound h2 (hii i hi)]
  · refine update_regular hm i1.nodup (fun n hn => Dict.mem_keys.2 (hkeys n hn)) ?_ hcm hdims
    intro name a' ha'
    obtain ⟨d, hdd, ds0, c0, c0', g1, g2, rfl, g4⟩ := i1.sound _ _ ha'
    refine ⟨_, _, rfl, hm.coordDims _ _ _ (Dict.mem_of_get? g1), ?_⟩
    rintro k r rfl
    cases c0 with
    | nd b => obtain ⟨_, _, h⟩ := except_map_ok g4; cases h
    | one k' c0 =>
      have hwf := hm.classes _ _ _ _ (Dict.mem_of_get? g1)
      obtain ⟨x, hx, _⟩ := getTuple_one hwf (rev_positions c0.length) g4
      cases hx
      exact getTuple_valid g4 rfl

theorem mirrored_lt {m : CM} {dims : List String} {d : String} {k : ℕ} (hk : k < lenDim m d) :
    (mirrored m dims d).getD k 0 = if d ∈ dims then lenDim m d - 1 - k else k := by
  unfold mirrored
  split_ifs
  · rw [List.getD_eq_getElem?_getD, List.getElem?_reverse (by simpa using hk), List.length_range, List.getElem?_range (by omega)]; rfl
  · rw [List.getD_eq_getElem?_getD, List.getElem?_range hk]; rfl

/-- Mirroring twice leads back. -/
theorem origin_mirrored {m m' : CM} {dims : List String} (hl : ∀ d ∈ m.dims, lenDim m' d = lenDim m d) {i : List ℕ}
    (hi : InRange (m.dims.map (lenDim m)) i) : origin m.dims (mirrored m dims) (origin m.dims (mirrored m' dims) i) = i := by
  revert hl hi
  generalize m.dims = l
  intro hl
  unfold origin
  induction l generalizing i with
  | nil => intro hi; cases hi; rfl
  | cons d l ih =>
    intro hi
    cases hi with
    | cons h1 h2 =>
      have e := hl d List.mem_cons_self
      simp only [List.map_cons, List.zipWith_cons_cons]
      rw [ih (fun d h => hl d (List.mem_cons_of_mem _ h)) h2]
      congr 1
      rw [mirrored_lt (m := m') (by rw [e]; exact h1), e]
      split_ifs with hd
      · rw [mirrored_lt (by omega), if_pos hd]; omega
      · rw [mirrored_lt h1, if_neg hd]

end Verif
