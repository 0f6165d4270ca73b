import Verif.Proof.Attrs
import Verif.Proof.GetCoord
namespace Verif
open Spec

theorem combine_ok {models : List AttrSet} {name : String} {conflicts : Conflicts} {drop : List String} {coord : Option CSummary} {r : AttrSet} :
    combineAttrs models name conflicts drop coord = .ok r ↔ ∃ ds a, attrDicts models name drop coord = .ok ds ∧
      handleOthers conflicts ds = .ok (some a) ∧ models ≠ [] ∧ r = a.finish := by
  unfold combineAttrs
  cases hd : attrDicts models name drop coord with
  | error e => simp [bind, Except.bind]
  | ok ds =>
    cases hh : handleOthers conflicts ds with
    | error e => simp [bind, Except.bind, hh]
    | ok f =>
      by_cases hm : models = []
      · simp [bind, Except.bind, hh, hm]
      · cases f with
        | none => simp [bind, Except.bind, hh, hm]
        | some a => simp [bind, Except.bind, hh, hm, eq_comm]

theorem takingPart_ne {models : List AttrSet} {name : String} {drop : List String} (h : takingPart name drop models ≠ []) : models ≠ [] := by
  rintro rfl
  exact h rfl

theorem takingPart_coord {models : List AttrSet} {name : String} {drop : List String} (hn : name ≠ "") {m : AttrSet}
    (hm : m ∈ takingPart name drop models) : ∃ s, coordOf drop m name = some s := by
  have := (List.mem_filter.1 hm).2
  simpa [hn, Option.isSome_iff_exists] using this

/-- The prepared sets are the same exactly if the given sets agree. -/
theorem same_prep {name : String} {drop : List String} {so : Option CSummary}
    (hso : name ≠ "" → so.isSome = true) (hso' : name = "" → so = none) (a b : AttrSet) :
    Same (prep name drop so a) (prep name drop so b) ↔ AgreeAll name drop a b := by
  unfold Same
  simp only [prep_get?, prep_coord]
  constructor
  · rintro ⟨h1, h2⟩
    refine ⟨fun k => h1 k, fun x hx => ?_⟩
    have := h2 x
    by_cases hn : name = ""
    · simpa [hso' hn] using this
    · have hxn : x ≠ name := by
        rcases hx with hx | hx
        · exact absurd hx hn
        · exact hx
      simpa [hxn] using this
  · rintro ⟨h1, h2⟩
    refine ⟨fun k => h1 k, fun x => ?_⟩
    by_cases hn : name = ""
    · simpa [hso' hn] using h2 x (Or.inl hn)
    · by_cases hxn : x = name
      · simp [hxn, hso hn]
      · simpa [hxn] using h2 x (Or.inr hxn)

/-- With participants, the merged coordinate is known exactly if one is merged. -/
theorem so_isSome {models : List AttrSet} {name : String} {drop : List String} {coord so : Option CSummary}
    (hne : takingPart name drop models ≠ [])
    (h : (name = "" ∧ so = none) ∨ (name ≠ "" ∧ ((∃ s, coord = some s ∧ so = some s) ∨
        (coord = none ∧ mergeSummaries (summaries name drop models) = .ok so)))) :
    (name ≠ "" → so.isSome = true) ∧ (name = "" → so = none) := by
  rcases h with ⟨hn, rfl⟩ | ⟨hn, ⟨s, -, rfl⟩ | ⟨-, hm⟩⟩
  · exact ⟨fun h => absurd hn h, fun _ => rfl⟩
  · exact ⟨fun _ => rfl, fun h => absurd h hn⟩
  · refine ⟨fun _ => ?_, fun h => absurd h hn⟩
    cases so with
    | some s => rfl
    | none =>
      rw [merge_none] at hm
      obtain ⟨m, hm'⟩ := List.exists_mem_of_ne_nil _ hne
      obtain ⟨s, hs⟩ := takingPart_coord hn hm'
      have : s ∈ summaries name drop models := List.mem_filterMap.2 ⟨m, (List.mem_filter.1 hm').1, hs⟩
      rw [hm] at this
      simp at this

theorem dicts_exist {models : List AttrSet} {name : String} {drop : List String} {coord : Option CSummary}
    (hne : takingPart name drop models ≠ []) (hmg : name ≠ "" → coord = none → Mergeable (summaries name drop models)) :
    ∃ so, attrDicts models name drop coord = .ok ((takingPart name drop models).map (prep name drop so)) ∧
      (name ≠ "" → so.isSome = true) ∧ (name = "" → so = none) := by
  by_cases hn : name = ""
  · exact ⟨none, attrDicts_ok.2 ⟨none, rfl, Or.inl ⟨hn, rfl⟩⟩, fun h => absurd hn h, fun _ => rfl⟩
  · cases coord with
    | some s => exact ⟨some s, attrDicts_ok.2 ⟨some s, rfl, Or.inr ⟨hn, Or.inl ⟨s, rfl, rfl⟩⟩⟩, fun _ => rfl, fun h => absurd h hn⟩
    | none =>
      have hsne : summaries name drop models ≠ [] := by
        intro h0
        obtain ⟨m, hm'⟩ := List.exists_mem_of_ne_nil _ hne
        obtain ⟨s, hs⟩ := takingPart_coord hn hm'
        have : s ∈ summaries name drop models := List.mem_filterMap.2 ⟨m, (List.mem_filter.1 hm').1, hs⟩
        rw [h0] at this
        simp at this
      obtain ⟨s, hs⟩ := merge_ok hsne (hmg hn rfl)
      exact ⟨some s, attrDicts_ok.2 ⟨some s, rfl, Or.inr ⟨hn, Or.inr ⟨rfl, hs⟩⟩⟩, fun _ => rfl, fun h => absurd h hn⟩

/-- C36, `raise`: merging succeeds exactly if there is something to merge, all sets taking part agree on every attribute
and on every other coordinate, and the merged coordinate (unless it is given) has the same dtype and units everywhere. -/
theorem C36_raise_partial (models : List AttrSet) (name : String) (drop : List String) (coord : Option CSummary) :
    (∃ r, combineAttrs models name .raise drop coord = .ok r) ↔
      takingPart name drop models ≠ [] ∧
      (∀ a ∈ takingPart name drop models, ∀ b ∈ takingPart name drop models, AgreeAll name drop a b) ∧
      (name ≠ "" → coord = none → Mergeable (summaries name drop models)) := by
  constructor
  · rintro ⟨r, h⟩
    obtain ⟨ds, a, hd, hh, hm, rfl⟩ := combine_ok.1 h
    obtain ⟨so, rfl, hso⟩ := attrDicts_ok.1 hd
    have hne : takingPart name drop models ≠ [] := by
      intro h0
      simp [h0, handleOthers] at hh
    obtain ⟨s1, s2⟩ := so_isSome hne hso
    refine ⟨hne, ?_, ?_⟩
    · cases hl : takingPart name drop models with
      | nil => exact absurd hl hne
      | cons m l =>
        rw [hl] at hh
        simp only [List.map_cons, handleOthers] at hh
        split at hh
        · rename_i hall
          have hs : ∀ b ∈ l, Same (prep name drop so m) (prep name drop so b) := by
            intro b hb
            rw [← sameAs_iff]
            exact List.all_eq_true.1 hall _ (List.mem_map_of_mem hb)
          have hs' : ∀ b ∈ m :: l, Same (prep name drop so m) (prep name drop so b) := by
            intro b hb
            rcases List.mem_cons.1 hb with rfl | hb
            · exact same_refl _
            · exact hs b hb
          intro x hx y hy
          rw [← same_prep s1 s2]
          exact same_trans (same_symm (hs' x hx)) (hs' y hy)
        · simp at hh
    · rintro hn rfl
      rcases hso with ⟨h', -⟩ | ⟨-, ⟨s, hs, -⟩ | ⟨-, hmg⟩⟩
      · exact absurd h' hn
      · cases hs
      · cases so with
        | none => simp at s1; exact absurd s1 hn
        | some s => exact (merge_some hmg).2.1
  · rintro ⟨hne, hag, hmg⟩
    obtain ⟨so, hd, s1, s2⟩ := dicts_exist hne hmg
    cases hl : takingPart name drop models with
    | nil => exact absurd hl hne
    | cons m l =>
      refine ⟨(prep name drop so m).finish, combine_ok.2 ⟨_, prep name drop so m, hd, ?_, takingPart_ne hne, rfl⟩⟩
      rw [hl]
      simp only [List.map_cons, handleOthers]
      rw [if_pos]
      rw [List.all_eq_true]
      intro b hb
      obtain ⟨b, hb', rfl⟩ := List.mem_map.1 hb
      rw [sameAs_iff, same_prep s1 s2]
      rw [hl] at hag
      exact hag m (by simp) b (by simp [hb'])

/-- C36, `raise`: the only other outcome is the error for merging attributes (or IndexError for an empty list). -/
theorem C36_raise_error (models : List AttrSet) (name : String) (drop : List String) (coord : Option CSummary) (e : Err)
    (hm : models ≠ []) (h : combineAttrs models name .raise drop coord = .error e) : e = .attributeMergeError := by
  unfold combineAttrs at h
  have h1 : ∀ e, attrDicts models name drop coord = .error e → e = .attributeMergeError := by
    intro e he
    unfold attrDicts at he
    simp only at he
    split at he
    · simp at he
    · have hms : ∀ l e, mergeSummaries l = .error e → e = .attributeMergeError := by
        intro l e hl
        cases l with
        | nil => simp [mergeSummaries] at hl
        | cons a l =>
          simp only [mergeSummaries] at hl
          split at hl
          · injection hl with hl; exact hl.symm
          · simp at hl
      cases coord with
      | some s => simp [bind, Except.bind] at he
      | none =>
        cases hmm : mergeSummaries (List.filterMap (fun a => Dict.get? a.coords name)
          (List.filter (fun a => (Dict.keys a.coords).contains name) (List.map (AttrSet.without drop) models))) with
        | error e' =>
          simp only [bind, Except.bind, hmm, Except.error.injEq] at he
          rw [← he]
          exact hms _ _ hmm
        | ok so =>
          cases so <;> simp only [bind, Except.bind, hmm, reduceCtorEq] at he
  cases hd : attrDicts models name drop coord with
  | error e' =>
    simp [hd, bind, Except.bind] at h
    rw [← h]
    exact h1 _ hd
  | ok ds =>
    have h2 : ∀ e, handleOthers .raise ds = .error e → e = .attributeMergeError := by
      intro e he
      cases ds with
      | nil => simp [handleOthers] at he
      | cons a l =>
        simp only [handleOthers] at he
        split at he
        · simp at he
        · simpa using he.symm
    cases hh : handleOthers .raise ds with
    | error e' =>
      simp [hd, hh, bind, Except.bind] at h
      rw [← h]
      exact h2 _ hh
    | ok f =>
      cases f <;> simp [hd, hh, bind, Except.bind, hm] at h
      exact h.symm

/-- C36, `raise`: the result agrees with every set taking part: its attributes are those of the first one. -/
theorem C36_raise_result (models : List AttrSet) (name : String) (drop : List String) (coord : Option CSummary) (r : AttrSet)
    (h : combineAttrs models name .raise drop coord = .ok r) :
    ∃ m, (takingPart name drop models).head? = some m ∧ (∀ k, k ≠ "dims" → r.plain.get? k = attrOf drop m k) ∧
      (∀ v, attrOf drop m "dims" = some v → r.plain.get? "dims" = some v) ∧
      ∀ x, (name = "" ∨ x ≠ name) → r.coords.get? x = coordOf drop m x := by
  obtain ⟨ds, a, hd, hh, hm, rfl⟩ := combine_ok.1 h
  obtain ⟨so, rfl, hso⟩ := attrDicts_ok.1 hd
  cases hl : takingPart name drop models with
  | nil => rw [hl] at hh; simp [handleOthers] at hh
  | cons m l =>
    obtain ⟨s1, s2⟩ := so_isSome (by rw [hl]; simp) hso
    rw [hl] at hh
    simp only [List.map_cons, handleOthers] at hh
    split at hh
    · simp only [Except.ok.injEq, Option.some.injEq] at hh
      subst hh
      refine ⟨m, rfl, fun k hk => ?_, fun v hv => ?_, fun x hx => ?_⟩
      · rw [finish_get? _ k hk, prep_get?]
      · exact finish_dims _ _ (by rw [prep_get?]; exact hv)
      · rw [finish_coords, prep_coord]
        rcases hx with hx | hx
        · simp [s2 hx]
        · simp [hx]
    · simp at hh

/-- C36, `keep_first`: merging fails only if the merged coordinate cannot be merged, and each attribute is that of the
first set (among those taking part) having it. -/
theorem C36_keep_first_partial (models : List AttrSet) (name : String) (drop : List String) (coord : Option CSummary) (r : AttrSet)
    (h : combineAttrs models name .keepFirst drop coord = .ok r) :
    (∀ k, k ≠ "dims" → r.plain.get? k = (takingPart name drop models).findSome? fun m => attrOf drop m k) ∧
    (∀ v, ((takingPart name drop models).findSome? fun m => attrOf drop m "dims") = some v → r.plain.get? "dims" = some v) ∧
    ∀ l₁ m l₂, takingPart name drop models = l₁ ++ m :: l₂ → (∀ a ∈ l₁, ∀ y, coordOf drop a y = none) →
      (∃ y s, coordOf drop m y = some s) → ∀ x, (name = "" ∨ x ≠ name) → r.coords.get? x = coordOf drop m x := by
  obtain ⟨ds, a, hd, hh, hm, rfl⟩ := combine_ok.1 h
  obtain ⟨so, rfl, hso⟩ := attrDicts_ok.1 hd
  simp only [handleOthers, Except.ok.injEq, Option.some.injEq] at hh
  subst hh
  have hget : ∀ k, (chainMap ((takingPart name drop models).map (prep name drop so))).plain.get? k
      = (takingPart name drop models).findSome? fun m => attrOf drop m k := by
    intro k
    rw [chainMap_get?, List.findSome?_map]
    congr 1
    funext m
    exact prep_get? name drop so m k
  refine ⟨fun k hk => ?_, fun v hv => ?_, ?_⟩
  · rw [finish_get? _ k hk, hget]
  · exact finish_dims _ _ (by rw [hget]; exact hv)
  · rintro l₁ m l₂ hl hnone ⟨y, s, hs⟩ x hx
    obtain ⟨s1, s2⟩ := so_isSome (by rw [hl]; simp) hso
    have hl1 : ∀ b ∈ l₁.map (prep name drop so), b.coords = [] := by
      intro b hb
      obtain ⟨b, hbm, rfl⟩ := List.mem_map.1 hb
      by_cases hn : name = ""
      · rw [s2 hn]
        show (b.without drop).coords = []
        cases hc : (b.without drop).coords with
        | nil => rfl
        | cons p c =>
          have h1 := without_coord drop b p.1
          rw [hnone b hbm p.1, hc, Dict.get?_cons] at h1
          simp at h1
      · have hb' : b ∈ takingPart name drop models := by rw [hl]; simp [hbm]
        obtain ⟨t, ht⟩ := takingPart_coord hn hb'
        rw [hnone b hbm name] at ht
        cases ht
    have hmne : (prep name drop so m).coords ≠ [] := by
      intro h0
      have hy := prep_coord name drop so m y
      rw [h0, Dict.get?_nil] at hy
      split at hy
      · rename_i hc
        rw [← hy] at hc
        simp at hc
      · rw [hs] at hy; cases hy
    rw [finish_coords, hl, List.map_append, List.map_cons, chainMap_coords _ _ _ hl1 hmne, prep_coord]
    rcases hx with hx | hx
    · simp [s2 hx]
    · simp [hx]

/-- C36, `drop`: apart from NaN, an attribute is in the result exactly if all sets taking part have it with that value. -/
theorem C36_drop_partial (models : List AttrSet) (name : String) (drop : List String) (coord : Option CSummary) (r : AttrSet)
    (hp : ∀ m ∈ models, ProperAttrs m) (h : combineAttrs models name .drop drop coord = .ok r) (k : String) (s : String) (hk : k ≠ "dims") :
    r.plain.get? k = some (.val s) ↔ ∀ m ∈ takingPart name drop models, attrOf drop m k = some (.val s) := by
  obtain ⟨ds, a, hd, hh, hm, rfl⟩ := combine_ok.1 h
  obtain ⟨so, rfl, hso⟩ := attrDicts_ok.1 hd
  rw [finish_get? _ k hk]
  cases hl : takingPart name drop models with
  | nil => rw [hl] at hh; simp [handleOthers] at hh
  | cons m l =>
    rw [hl] at hh
    simp only [List.map_cons, handleOthers] at hh
    split at hh
    · rename_i hall
      simp only [Except.ok.injEq, Option.some.injEq] at hh
      subst hh
      rw [prep_get?]
      refine ⟨fun hv b hb => ?_, fun hv => hv m (by simp)⟩
      rcases List.mem_cons.1 hb with rfl | hb
      · exact hv
      · have hs := (sameAs_iff _ _).1 (List.all_eq_true.1 hall _ (List.mem_map_of_mem hb))
        have := hs.1 k
        rw [prep_get?, prep_get?, hv] at this
        cases hb' : attrOf drop b k with
        | none => rw [hb'] at this; exact this.elim
        | some w =>
          rw [hb'] at this
          rcases this with rfl | ⟨h0, -⟩
          · rfl
          · simp [AVal.isNull] at h0
    · simp only [reduceCtorEq, if_false, Except.ok.injEq, Option.some.injEq] at hh
      subst hh
      have hmm : m ∈ models := (List.mem_filter.1 (show m ∈ takingPart name drop models by rw [hl]; simp)).1
      rw [fold_keepEq _ (prep_proper (hp m hmm)).attrs]
      simp only [prep_get?, List.forall_mem_map]
      rw [List.forall_mem_cons]
      refine and_congr Iff.rfl (forall₂_congr fun b _ => ?_)
      constructor
      · rintro ⟨w, hw, he⟩
        rw [hw]
        cases w <;> simp [AVal.pyEq] at he
        rw [he]
      · intro hb
        exact ⟨.val s, hb, by simp [AVal.pyEq]⟩

/-- C36, `drop`: the coordinates are kept if all sets taking part agree on the other coordinates; otherwise there are none. -/
theorem C36_drop_coords (models : List AttrSet) (name : String) (drop : List String) (coord : Option CSummary) (r : AttrSet)
    (h : combineAttrs models name .drop drop coord = .ok r) :
    ((∀ a ∈ takingPart name drop models, ∀ b ∈ takingPart name drop models, ∀ x, (name = "" ∨ x ≠ name) → coordOf drop a x = coordOf drop b x) →
      ∀ m ∈ takingPart name drop models, ∀ x, (name = "" ∨ x ≠ name) → r.coords.get? x = coordOf drop m x) ∧
    ((∃ a ∈ takingPart name drop models, ∃ b ∈ takingPart name drop models, ∃ x, (name = "" ∨ x ≠ name) ∧ coordOf drop a x ≠ coordOf drop b x) →
      r.coords = []) := by
  obtain ⟨ds, a, hd, hh, hm, rfl⟩ := combine_ok.1 h
  obtain ⟨so, rfl, hso⟩ := attrDicts_ok.1 hd
  rw [finish_coords]
  cases hl : takingPart name drop models with
  | nil => rw [hl] at hh; simp [handleOthers] at hh
  | cons m l =>
    obtain ⟨s1, s2⟩ := so_isSome (by rw [hl]; simp) hso
    have hother : ∀ b x, (name = "" ∨ x ≠ name) → (prep name drop so b).coords.get? x = coordOf drop b x := by
      intro b x hx
      rw [prep_coord]
      rcases hx with hx | hx
      · simp [s2 hx]
      · simp [hx]
    have hsame : ∀ b c, coordsEq (prep name drop so b).coords (prep name drop so c).coords = true ↔
        ∀ x, (name = "" ∨ x ≠ name) → coordOf drop b x = coordOf drop c x := by
      intro b c
      rw [coordsEq_iff]
      constructor
      · intro h x hx
        rw [← hother b x hx, ← hother c x hx, h x]
      · intro h x
        by_cases hx : name = "" ∨ x ≠ name
        · rw [hother b x hx, hother c x hx, h x hx]
        · push Not at hx
          rw [prep_coord, prep_coord, if_pos ⟨hx.2, s1 hx.1⟩, if_pos ⟨hx.2, s1 hx.1⟩]
    rw [hl] at hh
    simp only [List.map_cons, handleOthers] at hh
    split at hh
    · rename_i hall
      simp only [Except.ok.injEq, Option.some.injEq] at hh
      subst hh
      have hall' : ∀ b ∈ m :: l, ∀ x, (name = "" ∨ x ≠ name) → coordOf drop m x = coordOf drop b x := by
        intro b hb
        rcases List.mem_cons.1 hb with rfl | hb
        · exact fun _ _ => rfl
        · have hs := (sameAs_iff _ _).1 (List.all_eq_true.1 hall _ (List.mem_map_of_mem hb))
          exact (hsame m b).1 ((coordsEq_iff _ _).2 hs.2)
      constructor
      · intro _ b hb x hx
        rw [hother m x hx, hall' b hb x hx]
      · rintro ⟨b, hb, c, hc, x, hx, hne⟩
        exact absurd ((hall' b hb x hx).symm.trans (hall' c hc x hx)) hne
    · simp only [reduceCtorEq, if_false, Except.ok.injEq, Option.some.injEq] at hh
      subst hh
      obtain ⟨f1, f2⟩ := fold_keepEq_coords (l.map (prep name drop so)) (prep name drop so m)
      constructor
      · intro hag b hb x hx
        rw [f1, hother m x hx, hag m (by simp) b hb x hx]
        intro c hc
        obtain ⟨c, hc', rfl⟩ := List.mem_map.1 hc
        rw [hsame]
        exact hag m (by simp) c (by simp [hc'])
      · rintro ⟨b, hb, c, hc, x, hx, hne⟩
        apply f2
        by_contra hcon
        have hall' : ∀ b ∈ m :: l, ∀ x, (name = "" ∨ x ≠ name) → coordOf drop m x = coordOf drop b x := by
          intro b hb
          rcases List.mem_cons.1 hb with rfl | hb
          · exact fun _ _ => rfl
          · rw [← hsame]
            by_contra hf
            exact hcon ⟨_, List.mem_map_of_mem hb, by simpa using hf⟩
        exact hne ((hall' b hb x hx).symm.trans (hall' c hc x hx))

/-- C36: the merged coordinate. If any set takes part and no summary is given, its limits are the overall minimum and
maximum, its dtype and units those of the parts. With `drop` this needs the sets to agree on the other coordinates. -/
theorem C36_limits_partial (models : List AttrSet) (name : String) (conflicts : Conflicts) (drop : List String) (r : AttrSet)
    (hn : name ≠ "") (hne : takingPart name drop models ≠ []) (h : combineAttrs models name conflicts drop none = .ok r)
    (hc : conflicts = .drop → ∀ a ∈ takingPart name drop models, ∀ b ∈ takingPart name drop models, ∀ x, x ≠ name → coordOf drop a x = coordOf drop b x) :
    ∃ s, r.coords.get? name = some s ∧ Covers (summaries name drop models) s := by
  obtain ⟨ds, a, hd, hh, hm, rfl⟩ := combine_ok.1 h
  obtain ⟨so, rfl, hso⟩ := attrDicts_ok.1 hd
  obtain ⟨s1, s2⟩ := so_isSome hne hso
  cases so with
  | none => simp at s1; exact absurd s1 hn
  | some s =>
    have hcov : Covers (summaries name drop models) s := by
      rcases hso with ⟨h', -⟩ | ⟨-, ⟨t, ht, -⟩ | ⟨-, hmg⟩⟩
      · exact absurd h' hn
      · cases ht
      · exact (merge_some hmg).2.2.1
    refine ⟨s, ?_, hcov⟩
    rw [finish_coords]
    have hset : ∀ m, (prep name drop (some s) m).coords.get? name = some s := by
      intro m
      rw [prep_coord]
      simp
    cases hl : takingPart name drop models with
    | nil => exact absurd hl hne
    | cons m l =>
      rw [hl] at hh
      simp only [List.map_cons] at hh
      cases conflicts with
      | keepFirst =>
        simp only [handleOthers, Except.ok.injEq, Option.some.injEq] at hh
        subst hh
        have hmne : (prep name drop (some s) m).coords ≠ [] := by
          intro h0
          have := hset m
          rw [h0, Dict.get?_nil] at this
          cases this
        have := chainMap_coords [] (l.map (prep name drop (some s))) (prep name drop (some s) m) (by simp) hmne
        rw [List.nil_append] at this
        rw [this, hset]
      | raise =>
        simp only [handleOthers] at hh
        split at hh
        · simp only [Except.ok.injEq, Option.some.injEq] at hh
          subst hh
          exact hset m
        · simp at hh
      | drop =>
        simp only [handleOthers] at hh
        split at hh
        · simp only [Except.ok.injEq, Option.some.injEq] at hh
          subst hh
          exact hset m
        · simp only [reduceCtorEq, if_false, Except.ok.injEq, Option.some.injEq] at hh
          subst hh
          rw [(fold_keepEq_coords _ _).1, hset]
          intro c hcm
          obtain ⟨c, hcm', rfl⟩ := List.mem_map.1 hcm
          rw [coordsEq_iff]
          intro x
          by_cases hx : x = name
          · rw [hx, hset, hset]
          · rw [prep_coord, prep_coord]
            simp only [hx, false_and, if_false]
            rw [hl] at hc
            exact hc rfl m (by simp) c (by simp [hcm']) x hx

/-- C36: a summary that is given is the one in the result (with `keep_first` and `raise`). -/
theorem C36_given (models : List AttrSet) (name : String) (conflicts : Conflicts) (drop : List String) (s : CSummary) (r : AttrSet)
    (hn : name ≠ "") (hne : takingPart name drop models ≠ []) (h : combineAttrs models name conflicts drop (some s) = .ok r)
    (hc : conflicts ≠ .drop) : r.coords.get? name = some s := by
  obtain ⟨ds, a, hd, hh, hm, rfl⟩ := combine_ok.1 h
  obtain ⟨so, rfl, hso⟩ := attrDicts_ok.1 hd
  have : so = some s := by
    rcases hso with ⟨h', -⟩ | ⟨-, ⟨t, ht, ht'⟩ | ⟨h', -⟩⟩
    · exact absurd h' hn
    · rw [ht', ht]
    · cases h'
  subst this
  have hset : ∀ m, (prep name drop (some s) m).coords.get? name = some s := by
    intro m
    rw [prep_coord]
    simp
  rw [finish_coords]
  cases hl : takingPart name drop models with
  | nil => exact absurd hl hne
  | cons m l =>
    rw [hl] at hh
    simp only [List.map_cons] at hh
    cases conflicts with
    | keepFirst =>
      simp only [handleOthers, Except.ok.injEq, Option.some.injEq] at hh
      subst hh
      have hmne : (prep name drop (some s) m).coords ≠ [] := by
        intro h0
        have := hset m
        rw [h0, Dict.get?_nil] at this
        cases this
      have := chainMap_coords [] (l.map (prep name drop (some s))) (prep name drop (some s) m) (by simp) hmne
      rw [List.nil_append] at this
      rw [this, hset]
    | raise =>
      simp only [handleOthers] at hh
      split at hh
      · simp only [Except.ok.injEq, Option.some.injEq] at hh
        subst hh
        exact hset m
      · simp at hh
    | drop => exact absurd rfl hc

/-- C36, `keep_first`: merging fails only if there are no sets at all or the coordinate to merge has different dtypes or units. -/
theorem C36_keep_first_succeeds (models : List AttrSet) (name : String) (drop : List String) (coord : Option CSummary) (hm : models ≠ [])
    (hmg : name ≠ "" → coord = none → Mergeable (summaries name drop models)) :
    ∃ r, combineAttrs models name .keepFirst drop coord = .ok r := by
  by_cases hne : takingPart name drop models = []
  · have : ∃ ds, attrDicts models name drop coord = .ok ds := by
      by_cases hn : name = ""
      · exact ⟨_, attrDicts_ok.2 ⟨none, rfl, Or.inl ⟨hn, rfl⟩⟩⟩
      · cases coord with
        | some s => exact ⟨_, attrDicts_ok.2 ⟨some s, rfl, Or.inr ⟨hn, Or.inl ⟨s, rfl, rfl⟩⟩⟩⟩
        | none =>
          have h0 : summaries name drop models = [] := by
            rw [← filterMap_takingPart name hn, hne]
            rfl
          exact ⟨_, attrDicts_ok.2 ⟨none, rfl, Or.inr ⟨hn, Or.inr ⟨rfl, merge_none.2 h0⟩⟩⟩⟩
    obtain ⟨ds, hd⟩ := this
    exact ⟨_, combine_ok.2 ⟨ds, _, hd, rfl, hm, rfl⟩⟩
  · obtain ⟨so, hd, -, -⟩ := dicts_exist hne hmg
    exact ⟨_, combine_ok.2 ⟨_, _, hd, rfl, hm, rfl⟩⟩

/-- C36, `drop`: merging fails only if no set takes part or the coordinate to merge has different dtypes or units. -/
theorem C36_drop_succeeds (models : List AttrSet) (name : String) (drop : List String) (coord : Option CSummary)
    (hne : takingPart name drop models ≠ []) (hmg : name ≠ "" → coord = none → Mergeable (summaries name drop models)) :
    ∃ r, combineAttrs models name .drop drop coord = .ok r := by
  obtain ⟨so, hd, -, -⟩ := dicts_exist hne hmg
  cases hl : takingPart name drop models with
  | nil => exact absurd hl hne
  | cons m l =>
    rw [hl] at hd
    have : ∃ a, handleOthers .drop ((m :: l).map (prep name drop so)) = .ok (some a) := by
      simp only [List.map_cons, handleOthers]
      split
      · exact ⟨_, rfl⟩
      · simp
    obtain ⟨a, ha⟩ := this
    exact ⟨_, combine_ok.2 ⟨_, _, hd, ha, takingPart_ne hne, rfl⟩⟩

/-! ### The step of the merged coordinate -/

theorem sortQ_getD_mem (l : List ℚ) (i : ℕ) (h : i < l.length) : (sortQ l).getD i 0 ∈ l := by
  have h1 : i < (sortQ l).length := by rw [sortQ_length]; exact h
  rw [List.getD_eq_getElem?_getD, List.getElem?_eq_getElem h1, Option.getD_some]
  exact (sortQ_perm _).mem_iff.1 (List.getElem_mem _)

theorem medianQ_const {l : List ℚ} {p : ℚ} (hne : l ≠ []) (h : ∀ x ∈ l, x = p) : medianQ l = p := by
  have hl : 0 < l.length := List.length_pos_of_ne_nil hne
  have hg : ∀ i, i < l.length → (sortQ l).getD i 0 = p := fun i hi => h _ (sortQ_getD_mem l i hi)
  unfold medianQ
  simp only [sortQ_length]
  split
  · exact hg _ (by omega)
  · rw [hg _ (by omega), hg _ (by omega)]
    ring

theorem merged_step {l : List CSummary} {s : CSummary} (h : mergeSummaries l = .ok (some s)) :
    (∀ q, s.step = some q → (∃ t ∈ l, t.step = some q) ∧ ∃ mid, ∀ t ∈ l, ∀ p, t.step = some p → |p - mid| ≤ 1 / 10 ^ 8 + |mid| / 1000) ∧
    (∀ p, (∀ t ∈ l, t.step = some p) → s.step = some p) := by
  obtain ⟨hne, -, -, hs⟩ := merge_some h
  constructor
  · intro q hq
    rw [hs] at hq
    split at hq
    · rename_i hc
      unfold allDiffsClose at hc
      by_cases h0 : stepsOf l = []
      · rw [if_pos h0] at hc; simp at hc
      · rw [if_neg h0] at hc
        simp only [List.all_eq_true, isClose_iff] at hc
        have hlen : 0 < (stepsOf l).length := List.length_pos_of_ne_nil h0
        have hmem : q ∈ stepsOf l := by
          rw [← Option.some.inj hq]
          exact sortQ_getD_mem _ _ (by omega)
        refine ⟨List.mem_filterMap.1 hmem, medianQ (stepsOf l), fun t ht p hp => ?_⟩
        have := hc p (List.mem_filterMap.2 ⟨t, ht, hp⟩)
        rw [show (1 / 10 ^ 8 : ℚ) + |medianQ (stepsOf l)| / 1000 = 1 / 100000000 + 1 / 1000 * |medianQ (stepsOf l)| by ring]
        exact this
    · cases hq
  · intro p hp
    have hall : ∀ x ∈ stepsOf l, x = p := by
      intro x hx
      obtain ⟨t, ht, hxt⟩ := List.mem_filterMap.1 hx
      rw [hp t ht] at hxt
      exact (Option.some.inj hxt).symm
    have h0 : stepsOf l ≠ [] := by
      obtain ⟨t, ht⟩ := List.exists_mem_of_ne_nil _ hne
      have : p ∈ stepsOf l := List.mem_filterMap.2 ⟨t, ht, hp t ht⟩
      intro h0
      rw [h0] at this
      simp at this
    have hlen : 0 < (stepsOf l).length := List.length_pos_of_ne_nil h0
    rw [hs, if_pos]
    · unfold middleValue
      rw [hall _ (sortQ_getD_mem (stepsOf l) _ (by omega : ((stepsOf l).length - 1) / 2 < (stepsOf l).length))]
    · unfold allDiffsClose
      rw [if_neg h0]
      simp only [List.all_eq_true, isClose_iff]
      intro x hx
      rw [medianQ_const h0 hall, hall x hx, sub_self, abs_zero]
      positivity

/-- C59: the step of the merged coordinate is one of the steps of the parts, all of which (as far as they have one) are
within the tolerance of one value; and if all parts have the same step it is that one. -/
theorem C59_step_partial (models : List AttrSet) (name : String) (conflicts : Conflicts) (drop : List String) (r : AttrSet) (s : CSummary)
    (hn : name ≠ "") (h : combineAttrs models name conflicts drop none = .ok r) (hr : r.coords.get? name = some s) :
    (∀ q, s.step = some q → (∃ t ∈ summaries name drop models, t.step = some q) ∧
      ∃ mid, ∀ t ∈ summaries name drop models, ∀ p, t.step = some p → |p - mid| ≤ 1 / 10 ^ 8 + |mid| / 1000) ∧
    (∀ p, (∀ t ∈ summaries name drop models, t.step = some p) → s.step = some p) := by
  obtain ⟨ds, a, hd, hh, hm, rfl⟩ := combine_ok.1 h
  obtain ⟨so, rfl, hso⟩ := attrDicts_ok.1 hd
  rw [finish_coords] at hr
  cases hl : takingPart name drop models with
  | nil =>
    rw [hl] at hh
    cases conflicts with
    | keepFirst =>
      simp only [List.map_nil, handleOthers, chainMap, Except.ok.injEq, Option.some.injEq] at hh
      subst hh
      cases hr
    | raise => simp [handleOthers] at hh
    | drop => simp [handleOthers] at hh
  | cons m l =>
    obtain ⟨s1, s2⟩ := so_isSome (by rw [hl]; simp) hso
    cases so with
    | none => simp at s1; exact absurd s1 hn
    | some s' =>
      have hset : ∀ m, (prep name drop (some s') m).coords.get? name = some s' := by
        intro m
        rw [prep_coord]
        simp
      have hmne : (prep name drop (some s') m).coords ≠ [] := by
        intro h0
        have := hset m
        rw [h0, Dict.get?_nil] at this
        cases this
      have hss : s' = s := by
        rw [hl] at hh
        simp only [List.map_cons] at hh
        have key : a.coords = (prep name drop (some s') m).coords ∨ a.coords = [] := by
          cases conflicts with
          | keepFirst =>
            simp only [handleOthers, Except.ok.injEq, Option.some.injEq] at hh
            subst hh
            exact Or.inl (chainMap_coords [] _ _ (by simp) hmne)
          | raise =>
            simp only [handleOthers] at hh
            split at hh
            · simp only [Except.ok.injEq, Option.some.injEq] at hh
              subst hh
              exact Or.inl rfl
            · simp at hh
          | drop =>
            simp only [handleOthers] at hh
            split at hh
            · simp only [Except.ok.injEq, Option.some.injEq] at hh
              subst hh
              exact Or.inl rfl
            · simp only [reduceCtorEq, if_false, Except.ok.injEq, Option.some.injEq] at hh
              subst hh
              obtain ⟨f1, f2⟩ := fold_keepEq_coords (l.map (prep name drop (some s'))) (prep name drop (some s') m)
              by_cases hall : ∀ b ∈ l.map (prep name drop (some s')), coordsEq (prep name drop (some s') m).coords b.coords = true
              · exact Or.inl (f1 hall)
              · push Not at hall
                obtain ⟨b, hb, hb'⟩ := hall
                exact Or.inr (f2 ⟨b, hb, by simpa using hb'⟩)
        rcases key with key | key
        · rw [key, hset] at hr
          exact Option.some.inj hr
        · rw [key] at hr; cases hr
      subst hss
      rcases hso with ⟨h', -⟩ | ⟨-, ⟨t, ht, -⟩ | ⟨-, hmg⟩⟩
      · exact absurd h' hn
      · cases ht
      · exact merged_step hmg

/-- A set whose time coordinate runs from 0 to 10. -/
def exTime : CSummary := { dtype := "float64", min := 0, max := 10, step := some 1, units := some "s" }

/-- C36: `raise` ignores sets without the merged coordinate, even if their attributes disagree. -/
theorem C36_raise_violated : ∃ a b r, attrOf [] a "tag" = some (.val "x") ∧ attrOf [] b "tag" = some (.val "y") ∧
    combineAttrs [a, b] "time" .raise [] = .ok r :=
  ⟨⟨[("tag", .val "x")], [("time", exTime)]⟩, ⟨[("tag", .val "y")], []⟩,
    ⟨[("tag", .val "x"), ("dims", .val "time")], [("time", exTime)]⟩, by decide +kernel⟩

/-- C36: if no set has the merged coordinate, `keep_first` forgets every attribute. -/
theorem C36_keep_first_violated : ∃ a, attrOf [] a "tag" = some (.val "x") ∧ combineAttrs [a, a] "time" .keepFirst [] = .ok ⟨[], []⟩ :=
  ⟨⟨[("tag", .val "x")], [("distance", exTime)]⟩, by decide +kernel⟩

/-- C36: with `drop` an attribute that is NaN everywhere is dropped if any other attribute differs, and kept otherwise. -/
theorem C36_nan_violated : ∃ a b r, attrOf [] a "gauge" = some .nan ∧ attrOf [] b "gauge" = some .nan ∧
    combineAttrs [a, b] "" .drop [] = .ok r ∧ attrOf [] r "gauge" = none :=
  ⟨⟨[("gauge", .nan), ("tag", .val "x")], []⟩, ⟨[("gauge", .nan), ("tag", .val "y")], []⟩, ⟨[], []⟩, by decide +kernel⟩

/-- C36: with `drop` the limits of the merged coordinate are lost if another coordinate differs. -/
theorem C36_limits_violated : ∃ a b r, combineAttrs [a, b] "time" .drop [] = .ok r ∧ takingPart "time" [] [a, b] = [a, b] ∧ r.coords = [] :=
  ⟨⟨[], [("time", exTime), ("distance", exTime)]⟩, ⟨[], [("time", exTime), ("distance", { exTime with max := 20 })]⟩, ⟨[], []⟩, by decide +kernel⟩

/-- C59: a part that is not evenly sampled is ignored: the merged coordinate gets the step of the other part. -/
theorem C59_step_violated : ∃ a b r s t, combineAttrs [a, b] "time" .raise [] = .ok r ∧ coordOf [] b "time" = some t ∧ t.step = none ∧
    coordOf [] r "time" = some s ∧ s.step = some 1 :=
  ⟨⟨[], [("time", exTime)]⟩, ⟨[], [("time", { exTime with min := 11, max := 20, step := none })]⟩,
    ⟨[("dims", .val "time")], [("time", { exTime with max := 20 })]⟩, { exTime with max := 20 },
    { exTime with min := 11, max := 20, step := none }, by decide +kernel⟩

/-- Two parts of a record, which differ in their `tag`. -/
def exAttrs : List AttrSet :=
  [⟨[("dims", .val "time"), ("tag", .val "x"), ("station", .val "s")], [("time", exTime)]⟩,
   ⟨[("dims", .val "time"), ("tag", .val "y"), ("station", .val "s"), ("network", .val "n")], [("time", { exTime with min := 11, max := 20 })]⟩]

/-- The hypotheses are met: the parts cannot be merged as they are, but can without `tag` and `network`. -/
example : combineAttrs exAttrs "time" .raise [] = .error .attributeMergeError ∧
    combineAttrs exAttrs "time" .raise ["tag", "network"] = .ok ⟨[("dims", .val "time"), ("station", .val "s")], [("time", { exTime with max := 20 })]⟩ ∧
    combineAttrs exAttrs "time" .keepFirst [] =
      .ok ⟨[("dims", .val "time"), ("tag", .val "x"), ("station", .val "s"), ("network", .val "n")], [("time", { exTime with max := 20 })]⟩ ∧
    combineAttrs exAttrs "time" .drop [] = .ok ⟨[("dims", .val "time"), ("station", .val "s")], [("time", { exTime with max := 20 })]⟩ := by
  decide +kernel

example : (∀ m ∈ exAttrs, ProperAttrs m) ∧ takingPart "time" [] exAttrs = exAttrs ∧ Mergeable (summaries "time" [] exAttrs) := by
  refine ⟨?_, by decide +kernel, ?_⟩
  · intro m hm
    simp only [exAttrs, List.mem_cons, List.not_mem_nil, or_false] at hm
    rcases hm with rfl | rfl <;> exact ⟨by decide +kernel, by decide +kernel⟩
  · rw [← mergeable_iff]
    decide +kernel

end Verif
