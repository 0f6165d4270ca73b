import Verif.Proof.SelectGroup
import Verif.Proof.SelectValid
/-! # Lemmas: what `drop_coords` and `update` do to the coordinates -/
namespace Verif
open Spec

theorem mem_dimDrop {m : CM} (hw : WellFormed m) {names : List String} {name : String} {ds : List String} {c : MCoord}
    (h : m.ents.get? name = some (ds, c)) :
    name ∈ (m.ents.filter fun p => p.2.1.any fun d => names.contains d).map Prod.fst ↔ ∃ d ∈ ds, d ∈ names := by
  constructor
  · intro hm
    obtain ⟨⟨n, ds', c'⟩, hp, rfl⟩ := List.mem_map.1 hm
    rw [List.mem_filter] at hp
    have := Dict.get?_of_mem hw.names hp.1
    rw [h] at this; cases this
    simpa using hp.2
  · intro hd
    refine List.mem_map.2 ⟨(name, ds, c), List.mem_filter.2 ⟨Dict.mem_of_get? h, ?_⟩, rfl⟩
    simpa using hd

theorem dropCoords_spec {m : CM} (hw : WellFormed m) (names : List String) :
    ∃ m', m.dropCoords names = .ok m' ∧ Dropped m m' names := by
  by_cases hany : (names.any fun n => m.ents.keys.contains n) = true
  · have hdims : (m.dims.filter fun d => !((m.ents.filter fun p => p.2.1.any fun d => names.contains d).map Prod.fst).contains d)
        = m.dims.filter (· ∉ names) := by
      apply List.filter_congr
      intro d hd
      obtain ⟨c, _, hc, _⟩ := CM.WellFormed.get_dim hw hd
      have := mem_dimDrop (names := names) hw hc
      by_cases hn : d ∈ names
      · have h1 := this.2 ⟨d, by simp, hn⟩
        rw [List.contains_iff_mem.2 h1]; simp [hn]
      · have h1 : ¬ _ := fun h => hn (by obtain ⟨x, hx, hx'⟩ := this.1 h; simp at hx; exact hx ▸ hx')
        rw [← List.contains_iff_mem, Bool.not_eq_true] at h1
        rw [h1]; simp [hn]
    have hfil : (m.ents.filter fun p => !(((m.ents.filter fun p => p.2.1.any fun d => names.contains d).map Prod.fst).contains p.1 || names.contains p.1))
        = m.ents.filter fun p => !(p.2.1.any (fun d => names.contains d) || names.contains p.1) := by
      apply List.filter_congr
      rintro ⟨name, ds, c⟩ hp
      have := mem_dimDrop (names := names) hw (Dict.get?_of_mem hw.names hp)
      congr 2
      rw [Bool.eq_iff_iff]
      rw [List.contains_iff_mem, this]
      simp
    have hk : ∀ name ds c, m.ents.get? name = some (ds, c) → name ∉ names → (∀ d ∈ ds, d ∉ names) →
        Dict.get? (m.ents.filter fun p => !(p.2.1.any (fun d => names.contains d) || names.contains p.1)) name = some (ds, c) := by
      intro name ds c h1 h2 h3
      apply Dict.get?_of_mem (Dict.nodup_filter hw.names _)
      refine List.mem_filter.2 ⟨Dict.mem_of_get? h1, ?_⟩
      simp [h2]
      exact h3
    have hr : ∀ name v, Dict.get? (m.ents.filter fun p => !(p.2.1.any (fun d => names.contains d) || names.contains p.1)) name = some v →
        m.ents.get? name = some v ∧ name ∉ names ∧ (∀ d ∈ v.1, d ∉ names) := by
      intro name v h
      have := Dict.mem_of_get? h
      rw [List.mem_filter] at this
      refine ⟨Dict.get?_of_mem hw.names this.1, ?_⟩
      have h2 := this.2
      simp at h2
      exact ⟨h2.2, h2.1⟩
    refine ⟨⟨m.dims.filter (· ∉ names), m.ents.filter fun p => !(p.2.1.any (fun d => names.contains d) || names.contains p.1)⟩, ?_, ?_⟩
    · unfold CM.dropCoords
      rw [if_pos hany]
      simp only
      rw [hdims, hfil]
      apply CM.mk?_of
      · intro d hd
        rw [List.mem_filter] at hd
        obtain ⟨c, _, hc, _⟩ := CM.WellFormed.get_dim hw hd.1
        have hn : d ∉ names := by simpa using hd.2
        exact ⟨c, hk d _ c hc hn (by simpa using hn)⟩
      · rintro ⟨name, ds, c⟩ hp
        rw [List.mem_filter] at hp
        have hp2 := hp.2
        simp at hp2
        refine ⟨?_, ?_⟩
        · intro d hd
          rw [List.mem_filter]
          exact ⟨hw.attached name ds c hp.1 d hd, by simpa using hp2.1 d hd⟩
        · by_cases hne : ds = []
          · exact Or.inl hne
          · right
            rw [CM.WellFormed.shape_eq hw hp.1 hne]
            apply List.map_congr_left
            intro d hd
            have hdn := hp2.1 d hd
            obtain ⟨c', _, hc', _⟩ := CM.WellFormed.get_dim hw (hw.attached name ds c hp.1 d hd)
            unfold Ents.lenOf
            rw [hc', hk d _ c' hc' hdn (by simpa using hdn)]
    · refine ⟨rfl, ?_, hk, ?_⟩
      · intro name ds c h1 h2
        cases hx : Dict.get? (m.ents.filter fun p => !(p.2.1.any (fun d => names.contains d) || names.contains p.1)) name with
        | none => rfl
        | some v =>
          obtain ⟨a1, a2, a3⟩ := hr name v hx
          rw [h1] at a1; cases a1
          rcases h2 with h2 | ⟨d, hd, hd'⟩
          · exact absurd h2 a2
          · exact absurd hd' (a3 d hd)
      · intro name h1
        cases hx : Dict.get? (m.ents.filter fun p => !(p.2.1.any (fun d => names.contains d) || names.contains p.1)) name with
        | none => rfl
        | some v => rw [(hr name v hx).1] at h1; cases h1
  · have hno : ∀ n ∈ names, n ∉ m.ents.keys := by
      intro n hn hc
      exact hany (List.any_eq_true.2 ⟨n, hn, by simpa using hc⟩)
    have hdn : ∀ d ∈ m.dims, d ∉ names := by
      intro d hd hn
      obtain ⟨c, _, hc, _⟩ := CM.WellFormed.get_dim hw hd
      exact hno d hn (Dict.mem_keys.2 ⟨_, hc⟩)
    refine ⟨m, by unfold CM.dropCoords; rw [if_neg hany], ?_, ?_, ?_, fun _ h => h⟩
    · symm
      rw [List.filter_eq_self]
      intro d hd
      simpa using hdn d hd
    · intro name ds c h1 h2
      rcases h2 with h2 | ⟨d, hd, hd'⟩
      · exact absurd (Dict.mem_keys.2 ⟨_, h1⟩) (hno _ h2)
      · exact absurd hd' (hdn d (hw.attached name ds c (Dict.mem_of_get? h1) d hd))
    · intro name ds c h1 _ _; exact h1

theorem canon_same {c x : MCoord} (h : c.canon = .ok x) : SameValues c x := by
  cases c with
  | nd a => cases h; exact ⟨rfl, fun _ => rfl⟩
  | one k c =>
    refine ⟨by rw [canon_length h]; rfl, fun hs => ?_⟩
    have hl := canon_length h
    obtain ⟨d, rfl, h2, _⟩ := canon_one h
    have h3 := h2 (hs k c rfl)
    have hl' : d.length = c.length := by simpa [MCoord.shape, MCoord.arr] using hl
    show (⟨[d.length], fun i => d.labels.getD (i.getD 0 0) none⟩ : Nd (Option ℚ)) = ⟨[c.length], fun i => c.labels.getD (i.getD 0 0) none⟩
    rw [h3, hl']

theorem parseArg_arg {dims : List String} {name : String} {a : CArg} {r : List String × MCoord}
    (h : parseArg dims name a = .ok r) : ∃ c c', argOf name a = some (r.1, c) ∧ c.canon = .ok c' ∧ r = (r.1, c') := by
  cases a with
  | drop => cases h
  | value q => cases h
  | simple c =>
    unfold parseArg at h
    simp only at h
    split at h
    · obtain ⟨c', h1, rfl⟩ := except_map_ok h
      exact ⟨c, c', rfl, h1, rfl⟩
    · cases h
  | nested ds c =>
    obtain ⟨c', h1, rfl⟩ := parseArg_nested h
    exact ⟨c, c', rfl, h1, rfl⟩

theorem SameValues.len {c c' : MCoord} (h : SameValues c c') : c'.len = c.len := by
  unfold MCoord.len; rw [h.1]

theorem mapM_forall₂ {α β : Type} {f : α → Except Err β} : ∀ {l : List α} {r : List β}, l.mapM f = .ok r →
    List.Forall₂ (fun a b => f a = .ok b) l r
  | [], r, h => by cases h; exact .nil
  | a :: l, r, h => by
    rw [List.mapM_cons] at h
    cases h1 : f a with
    | error x => rw [h1] at h; cases h
    | ok x =>
      rw [h1] at h
      cases h2 : l.mapM f with
      | error y => rw [h2] at h; cases h
      | ok e' =>
        rw [h2] at h
        cases h
        exact .cons h1 (mapM_forall₂ h2)

theorem mapM_mem_out {α β : Type} {f : α → Except Err β} {l : List α} {r : List β} (h : l.mapM f = .ok r) {b : β} (hb : b ∈ r) :
    ∃ a ∈ l, f a = .ok b := by
  have := mapM_forall₂ h
  clear h
  induction this with
  | nil => cases hb
  | cons h1 _ ih =>
    rcases List.mem_cons.1 hb with rfl | hb
    · exact ⟨_, List.mem_cons_self, h1⟩
    · obtain ⟨a, ha, e⟩ := ih hb; exact ⟨a, List.mem_cons_of_mem _ ha, e⟩

theorem mapM_mem_in {α β : Type} {f : α → Except Err β} {l : List α} {r : List β} (h : l.mapM f = .ok r) {a : α} (ha : a ∈ l) :
    ∃ b ∈ r, f a = .ok b := by
  have := mapM_forall₂ h
  clear h
  induction this with
  | nil => cases ha
  | cons h1 _ ih =>
    rcases List.mem_cons.1 ha with rfl | ha
    · exact ⟨_, List.mem_cons_self, h1⟩
    · obtain ⟨a, ha, e⟩ := ih ha; exact ⟨a, List.mem_cons_of_mem _ ha, e⟩

theorem newDims_eq {dims : List String} : ∀ {kw : Dict CArg} {e : Ents},
    ((kw.filter fun p => !p.2.isDrop).mapM fun p => (parseArg dims p.1 p.2).map fun x => (p.1, x)) = .ok e →
    (e.filter fun p => p.2.1 == [p.1] && !dims.contains p.1).map Prod.fst =
        (kw.filter fun p => ((argOf p.1 p.2).map Prod.fst == some [p.1]) && !dims.contains p.1).map Prod.fst
  | [], e, h => by cases h; rfl
  | (n, a) :: kw, e, h => by
    by_cases hd : a.isDrop = true
    · rw [List.filter_cons_of_neg (by simp [hd])] at h
      rw [newDims_eq h, List.filter_cons_of_neg]
      cases a <;> first | (cases hd; done) | simp [argOf]
    · rw [List.filter_cons_of_pos (by simp [hd]), List.mapM_cons] at h
      cases h1 : (parseArg dims n a).map fun x => (n, x) with
      | error x => simp only [h1] at h; cases h
      | ok x =>
        simp only [h1] at h
        cases h2 : ((kw.filter fun p => !p.2.isDrop).mapM fun p => (parseArg dims p.1 p.2).map fun x => (p.1, x)) with
        | error y => rw [h2] at h; cases h
        | ok e' =>
          rw [h2] at h
          cases h
          obtain ⟨v, h3, rfl⟩ := except_map_ok h1
          obtain ⟨c, c', p1, p2, p3⟩ := parseArg_arg h3
          have := newDims_eq h2
          have hc : ((argOf n a).map Prod.fst == some [n]) = (v.1 == [n]) := by rw [p1]; rfl
          rw [List.filter_cons, List.filter_cons]
          simp only [hc]
          split_ifs
          · rw [List.map_cons, List.map_cons, this]
          · exact this

/-- `Updated`, with the very coordinates that are stored. -/
structure UpdatedC (m m' : CM) (kw : Dict CArg) : Prop extends Updated m m' kw where
  givenC : ∀ name a ds c, kw.get? name = some a → argOf name a = some (ds, c) →
    ∃ c', c.canon = .ok c' ∧ m'.ents.get? name = some (ds, c')
  keptC : ∀ name ds c, kw.get? name = Option.none → m.ents.get? name = some (ds, c) →
    (∀ d ∈ ds, d ∉ dropNames kw ∧ ¬ Resized m kw d) → ∃ c', c.canon = .ok c' ∧ m'.ents.get? name = some (ds, c')

theorem update_spec {m m' : CM} (hw : WellFormed m) {kw : Dict CArg} (hk : kw.keys.Nodup)
    (hplain : ∀ name ∈ kw.keys, matchesPrefixSuffix m.dims name = false) (h : m.update kw = .ok m') : UpdatedC m m' kw := by
  have hpl : ∀ p ∈ kw, matchesPrefixSuffix m.dims p.1 = false := fun p hp => hplain _ (List.mem_map_of_mem hp)
  have e1 : kw.filter (fun p => matchesPrefixSuffix m.dims p.1) = [] := by
    rw [List.filter_eq_nil_iff]; intro p hp; rw [hpl p hp]; simp
  have e2 : kw.filter (fun p => !matchesPrefixSuffix m.dims p.1) = kw := by
    rw [List.filter_eq_self]; intro p hp; rw [hpl p hp]; rfl
  unfold CM.update at h
  simp only [e1, e2] at h
  simp only [bind, Except.bind] at h
  set add := kw.filter fun p => !p.2.isDrop with hadd
  have haddk : (Dict.keys add).Nodup := Dict.nodup_filter hk _
  have hget_add : ∀ name a, Dict.get? add name = some a ↔ Dict.get? kw name = some a ∧ a.isDrop = false := by
    intro name a
    rw [← Dict.mem_iff haddk, hadd, List.mem_filter, Dict.mem_iff hk]
    simp
  have hdrop : ∀ name, name ∈ dropNames kw ↔ ∃ a, Dict.get? kw name = some a ∧ a.isDrop = true := by
    intro name
    unfold dropNames
    constructor
    · intro hn
      obtain ⟨⟨n, a⟩, hp, rfl⟩ := List.mem_map.1 hn
      rw [List.mem_filter] at hp
      exact ⟨a, Dict.get?_of_mem hk hp.1, hp.2⟩
    · rintro ⟨a, h1, h2⟩
      exact List.mem_map.2 ⟨(name, a), List.mem_filter.2 ⟨Dict.mem_of_get? h1, h2⟩, rfl⟩
  split at h
  · cases h
  rename_i r hr
  split at h
  · cases h
  rename_i ind hind
  split at h
  · cases h
  rename_i coords hcoords
  simp only [List.foldlM_nil, pure, Except.pure] at h
  change getCoordManager _ (r.2.filter fun d => !(dropNames kw).contains d) = _ at h
  change m.dropCoords (dropNames kw ++ ind.flatten) = _ at hcoords
  obtain ⟨c1, _, c3, c4⟩ := CM.coordDimMap_spec (e := r.1) (dims' := r.2) hr haddk
  have hrk : (Dict.keys r.1).Nodup := by rw [c1]; exact haddk
  -- what the arguments parse to
  have hparse : ∀ name v, Dict.get? r.1 name = some v → ∃ a c, Dict.get? kw name = some a ∧ a.isDrop = false ∧
      argOf name a = some (v.1, c) ∧ c.canon = .ok v.2 := by
    intro name v hv
    obtain ⟨a, ha1, ha2⟩ := Dict.mapM_get? (f := fun p => parseArg m.dims p.1 p.2) c4 name hv
    obtain ⟨c, c', p1, p2, p3⟩ := parseArg_arg ha2
    obtain ⟨k1, k2⟩ := (hget_add name a).1 ha1
    rw [p3]
    exact ⟨a, c, k1, k2, p1, p2⟩
  have hparse' : ∀ name a ds c, Dict.get? kw name = some a → argOf name a = some (ds, c) →
      ∃ c', c.canon = .ok c' ∧ Dict.get? r.1 name = some (ds, c') := by
    intro name a ds c h1 h2
    have h3 : Dict.get? add name = some a := (hget_add name a).2 ⟨h1, by cases a <;> first | rfl | cases h2⟩
    obtain ⟨v, hv1, hv2⟩ := mapM_get?' (f := fun p => parseArg m.dims p.1 p.2) c4 name h3
    obtain ⟨c0, c', p1, p2, p3⟩ := parseArg_arg hv2
    rw [h2] at p1
    cases p1
    exact ⟨c', p2, by rw [hv1, p3]⟩
  -- which coordinates are lost because a dimension changed
  have hresized : ∀ d, Resized m kw d ↔ d ∈ m.dims ∧ ∃ v, Dict.get? r.1 d = some v ∧ v.2.len ≠ m.ents.lenOf d := by
    intro d
    constructor
    · rintro ⟨hd, a, ds, c, ds', c', h1, h2, h3, h4⟩
      obtain ⟨x, hx1, hx2⟩ := hparse' d a ds c h1 h2
      refine ⟨hd, _, hx2, ?_⟩
      unfold Ents.lenOf
      rw [h3]
      simp only
      rw [SameValues.len (canon_same hx1)]
      exact h4
    · rintro ⟨hd, v, hv, hne⟩
      obtain ⟨a, c, k1, k2, k3, k4⟩ := hparse d v hv
      obtain ⟨c', n, hc', _⟩ := CM.WellFormed.get_dim hw hd
      refine ⟨hd, a, _, c, _, c', k1, k3, hc', ?_⟩
      rw [SameValues.len (canon_same k4)] at hne
      unfold Ents.lenOf at hne
      rw [hc'] at hne
      exact hne
  have hflat : ∀ name, name ∈ ind.flatten ↔ ∃ ds c, m.ents.get? name = some (ds, c) ∧ ∃ d ∈ ds, Resized m kw d := by
    intro name
    rw [List.mem_flatten]
    constructor
    · rintro ⟨l, hl, hn⟩
      obtain ⟨⟨d, v⟩, hp, hf⟩ := mapM_mem_out hind hl
      unfold CM.dimChange at hf
      by_cases a1 : d ∈ m.dims
      · simp only [a1, not_true_eq_false, if_false] at hf
        split_ifs at hf with a2 a3
        · cases hf; cases hn
        cases hf
        obtain ⟨⟨n, ds, c⟩, hq, rfl⟩ := List.mem_map.1 hn
        rw [List.mem_filter] at hq
        refine ⟨ds, c, Dict.get?_of_mem hw.names hq.1, d, by simpa using hq.2, ?_⟩
        exact (hresized d).2 ⟨a1, v, Dict.get?_of_mem hrk hp, a3⟩
      · simp only [a1, not_false_eq_true, if_true] at hf
        cases hf; cases hn
    · rintro ⟨ds, c, hc, d, hd, hres⟩
      obtain ⟨hdm, v, hv, hne⟩ := (hresized d).1 hres
      obtain ⟨l, hl, hf⟩ := mapM_mem_in hind (Dict.mem_of_get? hv)
      refine ⟨l, hl, ?_⟩
      unfold CM.dimChange at hf
      simp only [hdm, not_true_eq_false, if_false, hne] at hf
      split_ifs at hf
      cases hf
      exact List.mem_map.2 ⟨(name, ds, c), List.mem_filter.2 ⟨Dict.mem_of_get? hc, by simpa using hd⟩, rfl⟩
  have hflatd : ∀ d ∈ m.dims, (d ∈ dropNames kw ++ ind.flatten ↔ d ∈ dropNames kw ∨ Resized m kw d) := by
    intro d hd
    rw [List.mem_append, hflat]
    obtain ⟨c, n, hc, _⟩ := CM.WellFormed.get_dim hw hd
    constructor
    · rintro (h | ⟨ds, c', h1, d', h2, h3⟩)
      · exact Or.inl h
      · rw [hc] at h1; cases h1
        simp at h2; subst h2
        exact Or.inr h3
    · rintro (h | h)
      · exact Or.inl h
      · exact Or.inr ⟨_, _, hc, d, by simp, h⟩
  obtain ⟨coords', hco, hD⟩ := dropCoords_spec hw (dropNames kw ++ ind.flatten)
  rw [hcoords] at hco; cases hco
  -- the merged dictionary
  set out := (CM.nested coords.ents).update add with hout
  have hget : ∀ name, Dict.get? out name = (Dict.get? add name).or (Dict.get? (CM.nested coords.ents) name) := by
    intro name
    rw [hout, Dict.get?_update _ _ haddk]
  have houtk : (Dict.keys out).Nodup := by
    apply Dict.nodup_update
    rw [CM.nested_keys]
    exact (CM.dropCoords_wf hcoords hw).1.names
  have hkept : ∀ name ds c, coords.ents.get? name = some (ds, c) → m.ents.get? name = some (ds, c) ∧ name ∉ dropNames kw ∧
      ∀ d ∈ ds, d ∉ dropNames kw ∧ ¬ Resized m kw d := by
    intro name ds c hc
    cases hm : m.ents.get? name with
    | none => rw [hD.none name hm] at hc; cases hc
    | some v =>
      obtain ⟨ds', c'⟩ := v
      by_cases hb : name ∈ dropNames kw ++ ind.flatten ∨ ∃ d ∈ ds', d ∈ dropNames kw ++ ind.flatten
      · rw [hD.gone name ds' c' hm hb] at hc; cases hc
      · push Not at hb
        rw [hD.kept name ds' c' hm hb.1 hb.2] at hc
        cases hc
        refine ⟨rfl, fun hx => hb.1 (List.mem_append_left _ hx), fun d hd => ?_⟩
        have := hb.2 d hd
        rw [hflatd d (hw.attached name ds c (Dict.mem_of_get? hm) d hd), not_or] at this
        exact this
  unfold getCoordManager at h
  simp only [bind, Except.bind] at h
  split at h
  · cases h
  rename_i r2 hr2
  obtain ⟨d1, _, d3, d4⟩ := CM.coordDimMap_spec (e := r2.1) (dims' := r2.2) hr2 houtk
  have hr2k : (Dict.keys r2.1).Nodup := by rw [d1]; exact houtk
  obtain ⟨rfl, _⟩ := CM.mk?_ok h
  have hr2dims : r2.2 = r.2.filter fun d => !(dropNames kw).contains d := by
    rw [d3]
    have : (r2.1.filter fun p => p.2.1 == [p.1] && !(r.2.filter fun d => !(dropNames kw).contains d).contains p.1) = [] := by
      rw [List.filter_eq_nil_iff]
      rintro ⟨name, ds, c⟩ hp
      simp only [Bool.and_eq_true, Bool.not_eq_true', List.contains_eq_mem, decide_eq_false_iff_not, beq_iff_eq, not_and, not_not]
      intro hds'
      subst hds'
      obtain ⟨a, ha1, ha2⟩ := Dict.mapM_get? (f := fun p => parseArg (r.2.filter fun d => !(dropNames kw).contains d) p.1 p.2) d4 name (Dict.get?_of_mem hr2k hp)
      obtain ⟨c0, c', p1, p2, p3⟩ := parseArg_arg ha2
      simp only at p1
      rw [hget] at ha1
      cases hx : Dict.get? add name with
      | some a' =>
        rw [hx] at ha1
        cases ha1
        obtain ⟨k1, k2⟩ := (hget_add name a).1 hx
        obtain ⟨c2, q1, q2⟩ := hparse' name a _ _ k1 p1
        rw [List.mem_filter]
        have hnd : name ∉ dropNames kw := by
          intro hh
          obtain ⟨a', x1, x2⟩ := (hdrop name).1 hh
          rw [k1] at x1; cases x1; rw [k2] at x2; cases x2
        refine ⟨?_, by simpa using hnd⟩
        rw [c3]
        by_cases hdm : name ∈ m.dims
        · exact List.mem_append_left _ hdm
        · apply List.mem_append_right
          refine List.mem_map.2 ⟨(name, [name], c2), List.mem_filter.2 ⟨Dict.mem_of_get? q2, ?_⟩, rfl⟩
          simp [hdm]
      | none =>
        rw [hx, Option.none_or, get?_nested] at ha1
        cases hy : Dict.get? coords.ents name with
        | none => rw [hy] at ha1; cases ha1
        | some v =>
          rw [hy] at ha1
          obtain ⟨ds, cc⟩ := v
          cases ha1
          cases p1
          obtain ⟨y1, y2, y3⟩ := hkept name _ _ hy
          rw [List.mem_filter]
          refine ⟨?_, by simpa using y2⟩
          rw [c3]
          exact List.mem_append_left _ (hw.attached name _ _ (Dict.mem_of_get? y1) name (by simp))
    rw [this]; simp
  have hout_some : ∀ name a ds c, Dict.get? out name = some a → argOf name a = some (ds, c) →
      ∃ c', c.canon = .ok c' ∧ Dict.get? r2.1 name = some (ds, c') := by
    intro name a ds c h1 h2
    obtain ⟨v, hv1, hv2⟩ := mapM_get?' (f := fun p => parseArg (r.2.filter fun d => !(dropNames kw).contains d) p.1 p.2) d4 name h1
    obtain ⟨c0, c', p1, p2, p3⟩ := parseArg_arg hv2
    simp only at p1
    rw [h2] at p1
    cases p1
    exact ⟨c', p2, by rw [hv1, p3]⟩
  have hout_none : ∀ name, Dict.get? out name = none → Dict.get? r2.1 name = none := by
    intro name hn
    rw [Dict.get?_eq_none, d1, ← Dict.get?_eq_none, hn]
  have hadd_none : ∀ name, Dict.get? kw name = none → Dict.get? add name = none := by
    intro name hn
    cases hx : Dict.get? add name with
    | none => rfl
    | some a => rw [((hget_add name a).1 hx).1] at hn; cases hn
  have hgiv : ∀ name a ds c, Dict.get? kw name = some a → argOf name a = some (ds, c) →
      ∃ c', c.canon = .ok c' ∧ Dict.get? r2.1 name = some (ds, c') := by
    intro name a ds c h1 h2
    apply hout_some name a ds c _ h2
    rw [hget, (hget_add name a).2 ⟨h1, by cases a <;> first | rfl | cases h2⟩]; rfl
  have hkp : ∀ name ds c, Dict.get? kw name = Option.none → m.ents.get? name = some (ds, c) →
      (∀ d ∈ ds, d ∉ dropNames kw ∧ ¬ Resized m kw d) → ∃ c', c.canon = .ok c' ∧ Dict.get? r2.1 name = some (ds, c') := by
    intro name ds c h1 h2 h3
    have hnn : name ∉ dropNames kw := by
      intro hh
      obtain ⟨a, x1, x2⟩ := (hdrop name).1 hh
      rw [h1] at x1; cases x1
    have hdn : ∀ d ∈ ds, d ∉ dropNames kw ++ ind.flatten := by
      intro d hd
      rw [hflatd d (hw.attached name ds c (Dict.mem_of_get? h2) d hd), not_or]
      exact h3 d hd
    have hni : name ∉ dropNames kw ++ ind.flatten := by
      rw [List.mem_append, not_or]
      refine ⟨hnn, ?_⟩
      rw [hflat]
      rintro ⟨ds', c', x1, d, x2, x3⟩
      rw [h2] at x1; cases x1
      exact (h3 d x2).2 x3
    have hy := hD.kept name ds c h2 hni hdn
    exact hout_some name (.nested ds c) ds c (by rw [hget, hadd_none name h1, Option.none_or, get?_nested, hy]; rfl) rfl
  refine ⟨⟨?_, ?_, ?_, ?_, ?_, ?_⟩, hgiv, hkp⟩
  · simp only
    rw [hr2dims, c3]
    have hnew : (r.1.filter fun p => p.2.1 == [p.1] && !m.dims.contains p.1).map Prod.fst =
        (kw.filter fun p => ((argOf p.1 p.2).map Prod.fst == some [p.1]) && !m.dims.contains p.1).map Prod.fst := by
      exact newDims_eq c4
    rw [hnew]
    apply List.filter_congr
    intro d _
    simp
  · intro name a ds c h1 h2
    obtain ⟨c', x1, x2⟩ := hgiv name a ds c h1 h2
    exact ⟨c', canon_same x1, x2⟩
  · intro name hn
    apply hout_none
    rw [hget]
    obtain ⟨a, a1, a2⟩ := (hdrop name).1 hn
    cases hx : Dict.get? add name with
    | some a' =>
      obtain ⟨k1, k2⟩ := (hget_add name a').1 hx
      rw [a1] at k1; cases k1; rw [a2] at k2; cases k2
    | none =>
      rw [Option.none_or, get?_nested]
      cases hy : Dict.get? coords.ents name with
      | none => rfl
      | some v => exact absurd hn (hkept name v.1 v.2 hy).2.1
  · intro name ds c h1 h2 ⟨d, hd, hd'⟩
    apply hout_none
    rw [hget, hadd_none name h1, Option.none_or, get?_nested]
    cases hy : Dict.get? coords.ents name with
    | none => rfl
    | some v =>
      obtain ⟨y1, y2, y3⟩ := hkept name v.1 v.2 hy
      rw [h2] at y1; cases y1
      rcases hd' with hd' | hd'
      · exact absurd hd' (y3 d hd).1
      · exact absurd hd' (y3 d hd).2
  · intro name ds c h1 h2 h3
    obtain ⟨c', x1, x2⟩ := hkp name ds c h1 h2 h3
    exact ⟨c', canon_same x1, x2⟩
  · intro name h1 h2
    apply hout_none
    rw [hget, hadd_none name h1, Option.none_or, get?_nested, hD.none name h2]; rfl

end Verif
