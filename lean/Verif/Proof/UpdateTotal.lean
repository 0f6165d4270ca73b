import Verif.Proof.UpdateDim
/-! # When updating coordinates succeeds -/
namespace Verif
open Spec

theorem mapM_exists {α β : Type} {f : α → Except Err β} : ∀ {l : List α}, (∀ x ∈ l, ∃ y, f x = .ok y) → ∃ r, l.mapM f = .ok r
  | [], _ => ⟨[], rfl⟩
  | a :: l, h => by
    obtain ⟨y, hy⟩ := h a (by simp)
    obtain ⟨r, hr⟩ := mapM_exists (l := l) fun x hx => h x (by simp [hx])
    exact ⟨y :: r, by rw [List.mapM_cons, hy, hr]; rfl⟩

theorem parseArg_ok {dims : List String} {name : String} {a : CArg} {ds : List String} {c x : MCoord} (h : argOf name a = some (ds, c))
    (hx : c.canon = .ok x) (hd : ∀ d ∈ ds, d ∈ dims) : parseArg dims name a = .ok (ds, x) := by
  cases a with
  | drop => cases h
  | value q => cases h
  | simple c' =>
    cases h
    simp only [parseArg, if_pos (hd name (by simp)), hx]
    rfl
  | nested ds' c' =>
    cases h
    simp only [parseArg]
    rw [if_pos, hx]
    · rfl
    · rw [Bool.or_eq_true]; left
      rw [List.all_eq_true]
      intro d h; simpa using hd d h

theorem coordDimMap_total {coords : Dict CArg} {dims : List String} (hk : coords.keys.Nodup)
    (h : ∀ name a, coords.get? name = some a → ∃ ds c x, argOf name a = some (ds, c) ∧ c.canon = .ok x ∧ ∀ d ∈ ds, d ∈ dims) :
    ∃ e, coordDimMap coords dims = .ok (e, dims) ∧ Dict.keys e = coords.keys ∧
      ∀ name a ds c, coords.get? name = some a → argOf name a = some (ds, c) → ∃ x, c.canon = .ok x ∧ Dict.get? e name = some (ds, x) := by
  obtain ⟨e, he⟩ := Dict.mapM_total (d := coords) (f := fun p => parseArg dims p.1 p.2) (by
    rintro ⟨name, a⟩ hp
    obtain ⟨ds, c, x, h1, h2, h3⟩ := h name a (Dict.get?_of_mem hk hp)
    exact ⟨_, parseArg_ok h1 h2 h3⟩)
  have hg : ∀ name a ds c, coords.get? name = some a → argOf name a = some (ds, c) →
      ∃ x, c.canon = .ok x ∧ Dict.get? e name = some (ds, x) := by
    intro name a ds c h1 h2
    obtain ⟨v, v1, v2⟩ := mapM_get?' (f := fun p => parseArg dims p.1 p.2) he name h1
    obtain ⟨ds', c', x, g1, g2, g3⟩ := h name a h1
    rw [h2] at g1; cases g1
    simp only at v2
    rw [parseArg_ok h2 g2 g3] at v2
    cases v2
    exact ⟨x, g2, v1⟩
  have hke : Dict.keys e = coords.keys := Dict.mapM_keys (f := fun p => parseArg dims p.1 p.2) he
  refine ⟨e, ?_, hke, hg⟩
  unfold coordDimMap
  rw [he]
  simp only [bind, Except.bind, pure, Except.pure]
  have : (e.filter fun p => p.2.1 == [p.1] && !dims.contains p.1) = [] := by
    rw [List.filter_eq_nil_iff]
    rintro ⟨name, ds, c⟩ hp
    simp only [Bool.and_eq_true, Bool.not_eq_true', List.contains_eq_mem, decide_eq_false_iff_not, beq_iff_eq, not_and, not_not]
    rintro rfl
    have hn : Dict.get? e name = some ([name], c) := Dict.get?_of_mem (by rw [hke]; exact hk) hp
    obtain ⟨a, ha⟩ := Dict.mem_keys.1 (by rw [← hke]; exact Dict.mem_keys.2 ⟨_, hn⟩ : name ∈ coords.keys)
    obtain ⟨ds', c', x, g1, g2, g3⟩ := h name a ha
    obtain ⟨x', _, w⟩ := hg name a ds' c' ha g1
    rw [hn] at w; cases w
    exact g3 name (by simp)
  rw [this]
  simp

/-- An update without names to drop succeeds if the coordinates given can be read, are attached to dimensions, those of dimensions
to themselves, and have the shapes of their dimensions after the update; and if the other coordinates can be read. -/
theorem update_total {m : CM} (hw : WellFormed m) {kw : Dict CArg} (hk : kw.keys.Nodup)
    (hplain : ∀ name ∈ kw.keys, matchesPrefixSuffix m.dims name = false) (hf : Fits m kw)
    (hr : ∀ name ds c, m.ents.get? name = some (ds, c) → ∃ x, c.canon = .ok x) : ∃ m', m.update kw = .ok m' := by
  have hpl : ∀ p ∈ kw, matchesPrefixSuffix m.dims p.1 = false := fun p hp => hplain _ (List.mem_map_of_mem hp)
  have e1 : kw.filter (fun p => matchesPrefixSuffix m.dims p.1) = [] := by
    rw [List.filter_eq_nil_iff]; intro p hp; rw [hpl p hp]; simp
  have e2 : kw.filter (fun p => !matchesPrefixSuffix m.dims p.1) = kw := by
    rw [List.filter_eq_self]; intro p hp; rw [hpl p hp]; rfl
  have hnd : ∀ p ∈ kw, p.2.isDrop = false := by
    rintro ⟨name, a⟩ hp
    obtain ⟨ds, c, x, h1, _⟩ := hf name a (Dict.get?_of_mem hk hp)
    cases a <;> first | rfl | cases h1
  have e3 : kw.filter (fun p => p.2.isDrop) = [] := by
    rw [List.filter_eq_nil_iff]; intro p hp; rw [hnd p hp]; simp
  have e4 : kw.filter (fun p => !p.2.isDrop) = kw := by
    rw [List.filter_eq_self]; intro p hp; rw [hnd p hp]; rfl
  obtain ⟨e, he, hek, heg⟩ := coordDimMap_total (dims := m.dims) hk fun name a ha => by
    obtain ⟨ds, c, x, h1, h2, h3, _⟩ := hf name a ha
    exact ⟨ds, c, x, h1, h2, h3⟩
  have hekn : (Dict.keys e).Nodup := by rw [hek]; exact hk
  have hget_e : ∀ name v, Dict.get? e name = some v → ∃ a c, kw.get? name = some a ∧ argOf name a = some (v.1, c) ∧ c.canon = .ok v.2 ∧
      (name ∈ m.dims → v.1 = [name]) := by
    intro name v hv
    obtain ⟨a, ha⟩ := Dict.mem_keys.1 (by rw [← hek]; exact Dict.mem_keys.2 ⟨_, hv⟩ : name ∈ kw.keys)
    obtain ⟨ds, c, x, h1, h2, h3, h4, h5⟩ := hf name a ha
    obtain ⟨x', w1, w2⟩ := heg name a ds c ha h1
    rw [hv] at w2; cases w2
    exact ⟨a, c, ha, h1, w1, h4⟩
  obtain ⟨ind, hind⟩ := mapM_exists (f := m.dimChange) (l := e) (by
    rintro ⟨name, ds, c⟩ hp
    obtain ⟨a, c', _, _, _, h4⟩ := hget_e name _ (Dict.get?_of_mem hekn hp)
    unfold CM.dimChange
    by_cases hd : name ∈ m.dims
    · have := h4 hd
      simp only at this
      subst this
      simp only [hd, not_true_eq_false, if_false, List.length_singleton, ne_eq]
      split_ifs
      · exact ⟨_, rfl⟩
      · exact ⟨_, rfl⟩
    · simp only [hd, not_false_eq_true, if_true]
      exact ⟨_, rfl⟩)
  obtain ⟨coords, hco, hD⟩ := dropCoords_spec hw ind.flatten
  -- which coordinates are dropped
  have hlenE : ∀ d v, Dict.get? e d = some v → v.2.len = newLen m kw d := by
    intro d v hv
    obtain ⟨a, c, h1, h2, h3, _⟩ := hget_e d v hv
    unfold newLen
    rw [h1]; simp only; rw [h2]; simp only
    exact SameValues.len (canon_same h3)
  have hflat : ∀ name, name ∈ ind.flatten ↔ ∃ ds c, m.ents.get? name = some (ds, c) ∧ ∃ d ∈ ds, newLen m kw d ≠ m.ents.lenOf d := by
    intro name
    rw [List.mem_flatten]
    constructor
    · rintro ⟨l, hl, hn⟩
      obtain ⟨⟨d, v⟩, hp, hf'⟩ := mapM_mem_out hind hl
      unfold CM.dimChange at hf'
      by_cases a1 : d ∈ m.dims
      · simp only [a1, not_true_eq_false, if_false] at hf'
        split_ifs at hf' with a2 a3
        · cases hf'; cases hn
        cases hf'
        obtain ⟨⟨n, ds, c⟩, hq, rfl⟩ := List.mem_map.1 hn
        rw [List.mem_filter] at hq
        refine ⟨ds, c, Dict.get?_of_mem hw.names hq.1, d, by simpa using hq.2, ?_⟩
        rw [← hlenE d v (Dict.get?_of_mem hekn hp)]
        exact a3
      · simp only [a1, not_false_eq_true, if_true] at hf'
        cases hf'; cases hn
    · rintro ⟨ds, c, hc, d, hd, hne⟩
      have hdm : d ∈ m.dims := hw.attached _ _ _ (Dict.mem_of_get? hc) d hd
      have hkd : d ∈ kw.keys := by
        by_contra hcon
        apply hne
        unfold newLen
        rw [Dict.get?_eq_none.2 hcon]
      obtain ⟨v, hv⟩ := Dict.mem_keys.1 (by rw [hek]; exact hkd : d ∈ Dict.keys e)
      obtain ⟨l, hl, hf'⟩ := mapM_mem_in hind (Dict.mem_of_get? hv)
      refine ⟨l, hl, ?_⟩
      unfold CM.dimChange at hf'
      rw [← hlenE d v hv] at hne
      simp only [hdm, not_true_eq_false, if_false, hne] at hf'
      split_ifs at hf'
      cases hf'
      exact List.mem_map.2 ⟨(name, ds, c), List.mem_filter.2 ⟨Dict.mem_of_get? hc, by simpa using hd⟩, rfl⟩
  have hkept : ∀ name ds c, coords.ents.get? name = some (ds, c) → m.ents.get? name = some (ds, c) ∧ ∀ d ∈ ds, newLen m kw d = m.ents.lenOf d := by
    intro name ds c hc
    cases hm : m.ents.get? name with
    | none => rw [hD.none name hm] at hc; cases hc
    | some v =>
      obtain ⟨ds', c'⟩ := v
      by_cases hb : name ∈ ind.flatten ∨ ∃ d ∈ ds', d ∈ ind.flatten
      · rw [hD.gone name ds' c' hm hb] at hc; cases hc
      · push Not at hb
        rw [hD.kept name ds' c' hm hb.1 hb.2] at hc
        cases hc
        refine ⟨rfl, fun d hd => ?_⟩
        by_contra hcon
        exact hb.1 ((hflat name).2 ⟨ds, c, hm, d, hd, hcon⟩)
  have hstay : ∀ d ∈ m.dims, newLen m kw d = m.ents.lenOf d → coords.ents.get? d = m.ents.get? d := by
    intro d hd heq
    obtain ⟨c, n, hc, _⟩ := CM.WellFormed.get_dim hw hd
    have hnot : d ∉ ind.flatten := by
      rw [hflat]
      rintro ⟨ds, c', h1, d', h2, h3⟩
      rw [hc] at h1; cases h1
      simp only [List.mem_singleton] at h2
      subst h2
      exact h3 heq
    rw [hc]
    refine hD.kept d _ _ hc hnot ?_
    intro d' hd'
    simp only [List.mem_singleton] at hd'
    subst hd'; exact hnot
  set out := (CM.nested coords.ents).update kw with hout
  have houtk : (Dict.keys out).Nodup := by
    apply Dict.nodup_update
    rw [CM.nested_keys]
    exact (CM.dropCoords_wf hco hw).1.names
  have hget : ∀ name, Dict.get? out name = (Dict.get? kw name).or (Dict.get? (CM.nested coords.ents) name) := by
    intro name
    rw [hout, Dict.get?_update _ _ hk]
  have hargs : ∀ name a, Dict.get? out name = some a → ∃ ds c x, argOf name a = some (ds, c) ∧ c.canon = .ok x ∧ (∀ d ∈ ds, d ∈ m.dims) ∧
      (name ∈ m.dims → ds = [name]) ∧ (ds = [] ∨ ds.map (newLen m kw) = x.shape) := by
    intro name a ha
    rw [hget] at ha
    cases hx : Dict.get? kw name with
    | some a' =>
      rw [hx] at ha; cases ha
      obtain ⟨ds, c, x, h1, h2, h3, h4, h5⟩ := hf name a hx
      refine ⟨ds, c, x, h1, h2, h3, h4, ?_⟩
      rw [(canon_same h2).1]; exact h5
    | none =>
      rw [hx, Option.none_or, get?_nested] at ha
      cases hy : Dict.get? coords.ents name with
      | none => rw [hy] at ha; cases ha
      | some v =>
        rw [hy] at ha
        obtain ⟨ds, c⟩ := v
        cases ha
        obtain ⟨y1, y2⟩ := hkept name ds c hy
        obtain ⟨x, hx'⟩ := hr name ds c y1
        refine ⟨ds, c, x, rfl, hx', hw.attached _ _ _ (Dict.mem_of_get? y1), ?_, ?_⟩
        · intro hd
          obtain ⟨c', _, hc', _⟩ := CM.WellFormed.get_dim hw hd
          rw [y1] at hc'; cases hc'; rfl
        · by_cases h0 : ds = []
          · exact Or.inl h0
          · right
            rw [(canon_same hx').1, CM.WellFormed.shape_eq hw (Dict.mem_of_get? y1) h0]
            exact List.map_congr_left fun d hd => y2 d hd
  obtain ⟨e', he', hek', heg'⟩ := coordDimMap_total (dims := m.dims) houtk fun name a ha => by
    obtain ⟨ds, c, x, h1, h2, h3, _⟩ := hargs name a ha
    exact ⟨ds, c, x, h1, h2, h3⟩
  have hget_e' : ∀ name v, Dict.get? e' name = some v → (∀ d ∈ v.1, d ∈ m.dims) ∧
      (name ∈ m.dims → v.1 = [name]) ∧ (v.1 = [] ∨ v.1.map (newLen m kw) = v.2.shape) := by
    intro name v hv
    obtain ⟨a, ha⟩ := Dict.mem_keys.1 (by rw [← hek']; exact Dict.mem_keys.2 ⟨_, hv⟩ : name ∈ Dict.keys out)
    obtain ⟨ds, c, x, h1, h2, h3, h4, h5⟩ := hargs name a ha
    obtain ⟨x', w1, w2⟩ := heg' name a ds c ha h1
    rw [h2] at w1; cases w1
    rw [hv] at w2; cases w2
    exact ⟨h3, h4, h5⟩
  have hdimE : ∀ d ∈ m.dims, ∃ c, Dict.get? e' d = some ([d], c) := by
    intro d hd
    have hin : d ∈ Dict.keys out := by
      rw [Dict.mem_keys]
      cases hx : Dict.get? kw d with
      | some a => exact ⟨a, by rw [hget, hx]; rfl⟩
      | none =>
        obtain ⟨c, n, hc, _⟩ := CM.WellFormed.get_dim hw hd
        have : newLen m kw d = m.ents.lenOf d := by unfold newLen; rw [hx]
        have := hstay d hd this
        rw [hc] at this
        exact ⟨_, by rw [hget, hx, Option.none_or, get?_nested, this]; rfl⟩
    obtain ⟨v, hv⟩ := Dict.mem_keys.1 (by rw [hek']; exact hin : d ∈ Dict.keys e')
    have := (hget_e' d v hv).2.1 hd
    exact ⟨v.2, by rw [hv, ← this]⟩
  have hlenE' : ∀ d ∈ m.dims, Ents.lenOf e' d = newLen m kw d := by
    intro d hd
    obtain ⟨c, hc⟩ := hdimE d hd
    have := (hget_e' d _ hc).2.2
    simp only [List.cons_ne_self, List.map_cons, List.map_nil, false_or] at this
    unfold Ents.lenOf
    rw [hc]
    simp only [MCoord.len]
    rw [← this]; rfl
  refine ⟨⟨m.dims, e'⟩, ?_⟩
  unfold CM.update
  simp only [e1, e2, e3, e4]
  simp only [bind, Except.bind, he, hind, List.map_nil, List.nil_append, hco, List.foldlM_nil, pure, Except.pure]
  have : (m.dims.filter fun d => !([] : List String).contains d) = m.dims := by simp
  rw [this]
  unfold getCoordManager
  simp only [bind, Except.bind]
  rw [← hout, he']
  refine CM.mk?_of hdimE ?_
  rintro ⟨name, v⟩ hp
  obtain ⟨g1, _, g3⟩ := hget_e' name v (Dict.get?_of_mem (by rw [hek']; exact houtk) hp)
  refine ⟨g1, g3.imp_right fun h => ?_⟩
  rw [← h]
  exact List.map_congr_left fun d hd => hlenE' d (g1 d hd)

end Verif
