import Verif.Spec.Attrs
import Verif.Proof.Dict
import Verif.Props.Equality
namespace Verif
open Spec

theorem without_get? (drop : List String) (m : AttrSet) (k : String) : (m.without drop).plain.get? k = attrOf drop m k := by
  unfold AttrSet.without attrOf
  simp only
  rw [Dict.get?_filter m.plain (fun k => !drop.contains k) k]
  by_cases h : k ∈ drop <;> simp [h]

theorem without_coord (drop : List String) (m : AttrSet) (x : String) : (m.without drop).coords.get? x = coordOf drop m x := by
  unfold AttrSet.without coordOf
  by_cases h : "coords" ∈ drop <;> simp [h, Dict.get?_nil]

theorem without_proper {drop : List String} {m : AttrSet} (h : ProperAttrs m) : ProperAttrs (m.without drop) := by
  constructor
  · exact Dict.nodup_filter h.attrs _
  · unfold AttrSet.without
    by_cases hc : "coords" ∈ drop
    · simp [hc, Dict.keys]
    · simp [hc, h.coords]

/-- What the merge works on. -/
def prep (name : String) (drop : List String) (so : Option CSummary) (m : AttrSet) : AttrSet :=
  match so with
  | none => m.without drop
  | some s => ⟨(m.without drop).plain, (m.without drop).coords.set name s⟩

theorem prep_get? (name : String) (drop : List String) (so : Option CSummary) (m : AttrSet) (k : String) :
    (prep name drop so m).plain.get? k = attrOf drop m k := by
  cases so <;> exact without_get? drop m k

theorem prep_coord (name : String) (drop : List String) (so : Option CSummary) (m : AttrSet) (x : String) :
    (prep name drop so m).coords.get? x = if x = name ∧ so.isSome then so else coordOf drop m x := by
  cases so with
  | none => simp [prep, without_coord]
  | some s =>
    simp only [prep, Dict.get?_set, without_coord, Option.isSome_some, and_true]
    

theorem prep_proper {name : String} {drop : List String} {so : Option CSummary} {m : AttrSet} (h : ProperAttrs m) :
    ProperAttrs (prep name drop so m) := by
  cases so with
  | none => exact without_proper h
  | some s => exact ⟨(without_proper h).attrs, Dict.nodup_set (without_proper h).coords name s⟩

theorem filterMap_takingPart (name : String) (hn : name ≠ "") (drop : List String) (models : List AttrSet) :
    summaries name drop (takingPart name drop models) = summaries name drop models := by
  unfold summaries takingPart
  rw [List.filterMap_filter]
  congr 1
  funext m
  cases h : coordOf drop m name <;> simp [hn]

theorem contains_coord (name : String) (drop : List String) (m : AttrSet) :
    (Dict.keys (m.without drop).coords).contains name = (coordOf drop m name).isSome := by
  rw [Bool.eq_iff_iff, List.contains_iff_mem, Dict.mem_keys, without_coord, Option.isSome_iff_exists]

theorem attrDicts_ok {models : List AttrSet} {name : String} {drop : List String} {coord : Option CSummary} {ds : List AttrSet} :
    attrDicts models name drop coord = .ok ds ↔ ∃ so, ds = (takingPart name drop models).map (prep name drop so) ∧
      ((name = "" ∧ so = none) ∨ (name ≠ "" ∧ ((∃ s, coord = some s ∧ so = some s) ∨
        (coord = none ∧ mergeSummaries (summaries name drop models) = .ok so)))) := by
  unfold attrDicts
  simp only
  by_cases hn : name = ""
  · rw [if_pos hn]
    constructor
    · intro h
      refine ⟨none, ?_, Or.inl ⟨hn, rfl⟩⟩
      simp only [Except.ok.injEq] at h
      rw [← h]
      have : takingPart name drop models = models := by unfold takingPart; simp [hn]
      rw [this]
      rfl
    · rintro ⟨so, h, ⟨-, rfl⟩ | ⟨hn', -⟩⟩
      · have : takingPart name drop models = models := by unfold takingPart; simp [hn]
        rw [this] at h
        rw [h]
        rfl
      · exact absurd hn hn'
  · rw [if_neg hn]
    have hf : (models.map (AttrSet.without drop)).filter (fun a => (Dict.keys a.coords).contains name)
        = (takingPart name drop models).map (AttrSet.without drop) := by
      rw [List.filter_map]
      unfold takingPart
      congr 1
      apply List.filter_congr
      intro m _
      simp only [Function.comp_apply]
      rw [contains_coord]
      simp [hn]
    have hs : ((takingPart name drop models).map (AttrSet.without drop)).filterMap (fun a => Dict.get? a.coords name) = summaries name drop models := by
      rw [List.filterMap_map, ← filterMap_takingPart name hn]
      unfold summaries
      congr 1
      funext m
      exact without_coord drop m name
    rw [hf, hs]
    have hmap : ∀ s : CSummary, ((takingPart name drop models).map (AttrSet.without drop)).map (fun a => (⟨a.plain, a.coords.set name s⟩ : AttrSet))
        = (takingPart name drop models).map (prep name drop (some s)) := by
      intro s
      rw [List.map_map]
      rfl
    have hmap0 : (takingPart name drop models).map (AttrSet.without drop) = (takingPart name drop models).map (prep name drop none) := rfl
    cases coord with
    | some s =>
      simp only [Except.bind, bind, hmap]
      constructor
      · intro h
        exact ⟨some s, by simpa using h.symm, Or.inr ⟨hn, Or.inl ⟨s, rfl, rfl⟩⟩⟩
      · rintro ⟨so, h, ⟨h', -⟩ | ⟨-, ⟨t, ht, rfl⟩ | ⟨h', -⟩⟩⟩
        · exact absurd h' hn
        · cases ht; rw [h]
        · cases h'
    | none =>
      cases hm : mergeSummaries (summaries name drop models) with
      | error e =>
        simp [bind, Except.bind, hn]
      | ok so =>
        cases so with
        | none =>
          simp only [hmap0, bind, Except.bind]
          constructor
          · intro h
            exact ⟨none, by simpa using h.symm, Or.inr ⟨hn, Or.inr ⟨by trivial, rfl⟩⟩⟩
          · rintro ⟨so, h, ⟨h', -⟩ | ⟨-, ⟨t, ht, rfl⟩ | ⟨-, h'⟩⟩⟩
            · exact absurd h' hn
            · cases ht
            · cases h'; rw [h]
        | some s =>
          simp only [hmap, bind, Except.bind]
          constructor
          · intro h
            exact ⟨some s, by simpa using h.symm, Or.inr ⟨hn, Or.inr ⟨by trivial, rfl⟩⟩⟩
          · rintro ⟨so, h, ⟨h', -⟩ | ⟨-, ⟨t, ht, rfl⟩ | ⟨-, h'⟩⟩⟩
            · exact absurd h' hn
            · cases ht
            · cases h'; rw [h]

/-! ### Summaries -/

theorem allSame_iff {α : Type} [DecidableEq α] (l : List α) : allSame l = true ↔ ∀ a ∈ l, ∀ b ∈ l, a = b := by
  cases l with
  | nil => simp [allSame]
  | cons x l =>
    simp only [allSame, List.all_eq_true, decide_eq_true_eq]
    constructor
    · intro h a ha b hb
      have : ∀ c ∈ x :: l, c = x := by
        intro c hc
        rcases List.mem_cons.1 hc with rfl | hc
        · rfl
        · exact h c hc
      rw [this a ha, this b hb]
    · intro h c hc
      exact h c (by simp [hc]) x (by simp)

theorem mergeable_iff (l : List CSummary) :
    (allSame (l.map CSummary.dtype) = true ∧ allSame (unitsOf l) = true) ↔ Mergeable l := by
  rw [allSame_iff, allSame_iff]
  unfold unitsOf
  constructor
  · rintro ⟨h1, h2⟩
    refine ⟨fun s hs t ht => h1 _ (List.mem_map_of_mem hs) _ (List.mem_map_of_mem ht), fun s hs t ht u v hu hv => ?_⟩
    exact h2 _ (List.mem_filterMap.2 ⟨s, hs, hu⟩) _ (List.mem_filterMap.2 ⟨t, ht, hv⟩)
  · rintro ⟨h1, h2⟩
    constructor
    · intro a ha b hb
      obtain ⟨s, hs, rfl⟩ := List.mem_map.1 ha
      obtain ⟨t, ht, rfl⟩ := List.mem_map.1 hb
      exact h1 s hs t ht
    · intro a ha b hb
      obtain ⟨s, hs, hu⟩ := List.mem_filterMap.1 ha
      obtain ⟨t, ht, hv⟩ := List.mem_filterMap.1 hb
      exact h2 s hs t ht a b hu hv

theorem foldl_least (l : List CSummary) (m : ℚ) :
    (l.foldl (fun m t => if t.min < m then t.min else m) m ≤ m ∧ ∀ t ∈ l, l.foldl (fun m t => if t.min < m then t.min else m) m ≤ t.min) ∧
    (l.foldl (fun m t => if t.min < m then t.min else m) m = m ∨ ∃ t ∈ l, l.foldl (fun m t => if t.min < m then t.min else m) m = t.min) := by
  induction l generalizing m with
  | nil => simp
  | cons a l ih =>
    rw [List.foldl_cons]
    obtain ⟨⟨h1, h2⟩, h3⟩ := ih (if a.min < m then a.min else m)
    refine ⟨⟨le_trans h1 ?_, ?_⟩, ?_⟩
    · split <;> linarith
    · intro t ht
      rcases List.mem_cons.1 ht with rfl | ht
      · refine le_trans h1 ?_
        split <;> linarith
      · exact h2 t ht
    · rcases h3 with h3 | ⟨t, ht, h3⟩
      · rw [h3]
        split
        · exact Or.inr ⟨a, by simp, rfl⟩
        · exact Or.inl rfl
      · exact Or.inr ⟨t, by simp [ht], h3⟩

theorem foldl_greatest (l : List CSummary) (m : ℚ) :
    (m ≤ l.foldl (fun m t => if m < t.max then t.max else m) m ∧ ∀ t ∈ l, t.max ≤ l.foldl (fun m t => if m < t.max then t.max else m) m) ∧
    (l.foldl (fun m t => if m < t.max then t.max else m) m = m ∨ ∃ t ∈ l, l.foldl (fun m t => if m < t.max then t.max else m) m = t.max) := by
  induction l generalizing m with
  | nil => simp
  | cons a l ih =>
    rw [List.foldl_cons]
    obtain ⟨⟨h1, h2⟩, h3⟩ := ih (if m < a.max then a.max else m)
    refine ⟨⟨le_trans ?_ h1, ?_⟩, ?_⟩
    · split <;> linarith
    · intro t ht
      rcases List.mem_cons.1 ht with rfl | ht
      · refine le_trans ?_ h1
        split <;> linarith
      · exact h2 t ht
    · rcases h3 with h3 | ⟨t, ht, h3⟩
      · rw [h3]
        split
        · exact Or.inr ⟨a, by simp, rfl⟩
        · exact Or.inl rfl
      · exact Or.inr ⟨t, by simp [ht], h3⟩

theorem merge_some {l : List CSummary} {s : CSummary} (h : mergeSummaries l = .ok (some s)) :
    l ≠ [] ∧ Mergeable l ∧ Covers l s ∧
      s.step = if allDiffsClose (stepsOf l) then some (middleValue (stepsOf l)) else none := by
  cases l with
  | nil => simp [mergeSummaries] at h
  | cons a l =>
    simp only [mergeSummaries] at h
    split at h
    · simp at h
    rename_i hc
    have hm : Mergeable (a :: l) := by
      rw [← mergeable_iff]
      simpa using hc
    simp only [Except.ok.injEq, Option.some.injEq] at h
    have hm' := (mergeable_iff _).2 hm
    obtain ⟨⟨h1, h2⟩, h3⟩ := foldl_least l a.min
    obtain ⟨⟨g1, g2⟩, g3⟩ := foldl_greatest l a.max
    subst h
    refine ⟨by simp, hm, ⟨?_, ?_, ?_, ?_, ?_, ?_⟩, rfl⟩
    · intro t ht
      rcases List.mem_cons.1 ht with rfl | ht
      · exact h1
      · exact h2 t ht
    · rcases h3 with h3 | ⟨t, ht, h3⟩
      · exact ⟨a, by simp, h3⟩
      · exact ⟨t, by simp [ht], h3⟩
    · intro t ht
      rcases List.mem_cons.1 ht with rfl | ht
      · exact g1
      · exact g2 t ht
    · rcases g3 with g3 | ⟨t, ht, g3⟩
      · exact ⟨a, by simp, g3⟩
      · exact ⟨t, by simp [ht], g3⟩
    · exact fun t ht => hm.dtype a (by simp) t ht
    · intro u
      constructor
      · intro hu
        have := List.mem_of_mem_head? (Option.mem_def.2 hu)
        obtain ⟨t, ht, hv⟩ := List.mem_filterMap.1 this
        exact ⟨t, ht, hv⟩
      · rintro ⟨t, ht, hu⟩
        simp only
        have hmem : u ∈ unitsOf (a :: l) := List.mem_filterMap.2 ⟨t, ht, hu⟩
        cases hu' : unitsOf (a :: l) with
        | nil => rw [hu'] at hmem; simp at hmem
        | cons v us =>
          have hv : v ∈ unitsOf (a :: l) := by rw [hu']; simp
          have := (allSame_iff _).1 ((mergeable_iff _).2 hm).2 v hv u hmem
          simp [this]

theorem merge_ok {l : List CSummary} (hl : l ≠ []) (hm : Mergeable l) : ∃ s, mergeSummaries l = .ok (some s) := by
  cases l with
  | nil => exact absurd rfl hl
  | cons a l =>
    simp only [mergeSummaries]
    rw [if_neg]
    · exact ⟨_, rfl⟩
    · have := (mergeable_iff (a :: l)).2 hm
      simpa using this

theorem merge_none {l : List CSummary} : mergeSummaries l = .ok none ↔ l = [] := by
  cases l with
  | nil => simp [mergeSummaries]
  | cons a l =>
    simp only [mergeSummaries]
    split <;> simp

/-! ### The other attributes -/

theorem coordsEq_iff (a b : Dict CSummary) : coordsEq a b = true ↔ ∀ x, a.get? x = b.get? x := by
  unfold coordsEq
  rw [Bool.and_eq_true, sameSet_iff, List.all_eq_true]
  simp only [decide_eq_true_eq]
  constructor
  · rintro ⟨h1, h2⟩ x
    by_cases hx : x ∈ a.keys
    · exact h2 x hx
    · have hb : x ∉ b.keys := fun h => hx ((h1 x).2 h)
      rw [Dict.get?_eq_none.2 hx, Dict.get?_eq_none.2 hb]
  · intro h
    refine ⟨fun x => ?_, fun x _ => h x⟩
    rw [Dict.mem_keys, Dict.mem_keys, h x]

/-- Two sets agree on everything. -/
def Same (a b : AttrSet) : Prop :=
  (∀ k, match a.plain.get? k, b.plain.get? k with
    | none, none => True
    | some v, some w => SameAttr v w
    | _, _ => False) ∧ ∀ x, a.coords.get? x = b.coords.get? x

theorem sameAs_iff (a b : AttrSet) : a.sameAs b = true ↔ Same a b := by
  unfold AttrSet.sameAs Same
  rw [Bool.and_eq_true, coordsEq_iff, attrsEqual_iff]
  refine and_congr ?_ Iff.rfl
  constructor
  · rintro ⟨h1, h2⟩ k
    have := h1 k
    cases ha : a.plain.get? k <;> cases hb : b.plain.get? k <;> simp_all
    exact h2 k _ _ ha hb
  · intro h
    constructor
    · intro k
      have := h k
      cases ha : a.plain.get? k <;> cases hb : b.plain.get? k <;> simp_all
    · intro k v w hv hw
      have := h k
      rw [hv, hw] at this
      exact this

theorem sameAttr_symm {v w : AVal} (h : SameAttr v w) : SameAttr w v := by
  rcases h with rfl | ⟨h1, h2⟩
  · exact Or.inl rfl
  · exact Or.inr ⟨h2, h1⟩

theorem sameAttr_trans {u v w : AVal} (h : SameAttr u v) (h' : SameAttr v w) : SameAttr u w := by
  rcases h with rfl | ⟨h1, h2⟩
  · exact h'
  · rcases h' with rfl | ⟨h3, h4⟩
    · exact Or.inr ⟨h1, h2⟩
    · exact Or.inr ⟨h1, h4⟩

theorem same_symm {a b : AttrSet} (h : Same a b) : Same b a := by
  refine ⟨fun k => ?_, fun x => (h.2 x).symm⟩
  have := h.1 k
  cases ha : a.plain.get? k <;> cases hb : b.plain.get? k <;> simp_all
  exact sameAttr_symm this

theorem same_trans {a b c : AttrSet} (h : Same a b) (h' : Same b c) : Same a c := by
  refine ⟨fun k => ?_, fun x => (h.2 x).trans (h'.2 x)⟩
  have h1 := h.1 k
  have h2 := h'.1 k
  cases ha : a.plain.get? k <;> cases hb : b.plain.get? k <;> cases hc : c.plain.get? k <;> simp_all
  exact sameAttr_trans h1 h2

theorem same_refl (a : AttrSet) : Same a a := by
  refine ⟨fun k => ?_, fun x => rfl⟩
  cases ha : a.plain.get? k <;> simp [SameAttr]

theorem chainMap_get? (l : List AttrSet) (k : String) : (chainMap l).plain.get? k = l.findSome? fun a => a.plain.get? k := by
  induction l with
  | nil => rfl
  | cons a l ih =>
    simp only [chainMap, List.findSome?_cons]
    rw [Dict.get?_append, Dict.get?_filter _ (fun k => !(Dict.keys a.plain).contains k), ih]
    cases ha : a.plain.get? k with
    | some v => simp
    | none =>
      have : k ∉ Dict.keys a.plain := Dict.get?_eq_none.1 ha
      simp [this]

theorem chainMap_coords (l₁ l₂ : List AttrSet) (a : AttrSet) (h : ∀ b ∈ l₁, b.coords = []) (ha : a.coords ≠ []) :
    (chainMap (l₁ ++ a :: l₂)).coords = a.coords := by
  induction l₁ with
  | nil => simp [chainMap, ha]
  | cons b l ih =>
    simp only [List.cons_append, chainMap]
    rw [if_pos (h b (by simp))]
    exact ih fun c hc => h c (by simp [hc])

theorem keepEq_get? {a : AttrSet} (ha : (Dict.keys a.plain).Nodup) (b : AttrSet) (k : String) (v : AVal) :
    (keepEq a b).plain.get? k = some v ↔ a.plain.get? k = some v ∧ ∃ w, b.plain.get? k = some w ∧ v.pyEq w = true := by
  have hn : (Dict.keys (keepEq a b).plain).Nodup := Dict.nodup_filter ha _
  rw [← Dict.mem_iff hn, ← Dict.mem_iff ha]
  simp only [keepEq, List.mem_filter]
  refine and_congr Iff.rfl ?_
  cases b.plain.get? k <;> simp

theorem pyEq_trans {u v w : AVal} (h : u.pyEq v = true) (h' : u.pyEq w = true) : v.pyEq w = true := by
  cases u <;> cases v <;> cases w <;> simp_all [AVal.pyEq]

theorem fold_keepEq (l : List AttrSet) {a : AttrSet} (ha : (Dict.keys a.plain).Nodup) (k : String) (v : AVal) :
    (l.foldl keepEq a).plain.get? k = some v ↔
      a.plain.get? k = some v ∧ ∀ b ∈ l, ∃ w, b.plain.get? k = some w ∧ v.pyEq w = true := by
  induction l generalizing a with
  | nil => simp
  | cons b l ih =>
    rw [List.foldl_cons, ih (Dict.nodup_filter ha _), keepEq_get? ha]
    simp only [List.mem_cons, forall_eq_or_imp, and_assoc]

theorem fold_keepEq_coords (l : List AttrSet) (a : AttrSet) :
    ((∀ b ∈ l, coordsEq a.coords b.coords = true) → (l.foldl keepEq a).coords = a.coords) ∧
    ((∃ b ∈ l, coordsEq a.coords b.coords = false) → (l.foldl keepEq a).coords = []) := by
  induction l generalizing a with
  | nil => simp
  | cons b l ih =>
    rw [List.foldl_cons]
    have hk : (keepEq a b).coords = if coordsEq a.coords b.coords then a.coords else [] := rfl
    obtain ⟨i1, i2⟩ := ih (keepEq a b)
    rw [hk] at i1 i2
    constructor
    · intro h
      rw [if_pos (h b (by simp))] at i1
      exact i1 fun c hc => h c (by simp [hc])
    · rintro ⟨c, hc, hf⟩
      by_cases hb : coordsEq a.coords b.coords = true
      · rw [if_pos hb] at i2
        rcases List.mem_cons.1 hc with rfl | hc
        · rw [hb] at hf; simp at hf
        · exact i2 ⟨c, hc, hf⟩
      · rw [if_neg hb] at i1 i2
        by_cases hall : ∀ b ∈ l, coordsEq [] b.coords = true
        · exact i1 hall
        · push Not at hall
          obtain ⟨d, hd, hd'⟩ := hall
          exact i2 ⟨d, hd, by simpa using hd'⟩

theorem finish_get? (a : AttrSet) (k : String) (hk : k ≠ "dims") : a.finish.plain.get? k = a.plain.get? k := by
  unfold AttrSet.finish
  split
  · rfl
  · simp only
    rw [Dict.get?_append, Dict.get?_cons]
    simp [Ne.symm hk, Dict.get?_nil]

theorem finish_dims (a : AttrSet) (v : AVal) (h : a.plain.get? "dims" = some v) : a.finish.plain.get? "dims" = some v := by
  unfold AttrSet.finish
  have : "dims" ∈ Dict.keys a.plain := Dict.mem_keys.2 ⟨v, h⟩
  rw [if_pos (by simp [this])]
  exact h

theorem finish_coords (a : AttrSet) : a.finish.coords = a.coords := by
  unfold AttrSet.finish
  split <;> rfl

end Verif
