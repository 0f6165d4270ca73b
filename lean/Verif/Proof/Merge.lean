import Verif.Model.Merge
import Verif.Spec.Merge
import Verif.Proof.Concat
import Verif.Props.Concat
import Verif.Props.CoordLimits
/-! # Lemmas: merging patches -/
namespace Verif
open Spec

/-! ### Coordinates present in all managers -/

/-- All managers have the name, attached to these dimensions. -/
def Shared (ms : List CM) (name : String) (ds : List String) : Prop := ∀ n ∈ ms, ∃ c, n.ents.get? name = some (ds, c)

theorem not_unshared {ms : List CM} (hw : ∀ m ∈ ms, WellFormed m) {m : CM} (hm : m ∈ ms) {name : String} {ds : List String} {c : MCoord}
    (h : m.ents.get? name = some (ds, c)) : name ∉ unshared ms ↔ Shared ms name ds := by
  unfold unshared Shared
  simp only [List.mem_flatMap, List.mem_map, List.mem_filter, Bool.not_eq_true', Prod.exists, not_exists, not_and]
  constructor
  · intro hx n hn
    have := hx m hm name ds c
    by_contra hc
    refine this ⟨Dict.mem_of_get? h, ?_⟩ rfl
    rw [← Bool.not_eq_true, List.all_eq_true]
    intro hall
    have h1 := hall n hn
    simp only [decide_eq_true_iff] at h1
    cases hg : n.ents.get? name with
    | none => rw [hg] at h1; cases h1
    | some v =>
      rw [hg] at h1
      obtain ⟨ds', c'⟩ := v
      simp at h1; subst h1
      exact hc ⟨c', hg⟩
  · rintro hs n hn name' ds' c' ⟨h1, h2⟩ rfl
    rw [← Bool.not_eq_true, List.all_eq_true] at h2
    apply h2
    intro n' hn'
    have h3 := Dict.get?_of_mem (hw n hn).names h1
    obtain ⟨c2, h4⟩ := hs n hn
    rw [h3] at h4; cases h4
    obtain ⟨c3, h5⟩ := hs n' hn'
    simp [h5]

/-- What is left of a manager when the coordinates which are not shared are dropped. -/
structure Reduced (ms : List CM) (m m' : CM) : Prop where
  reg : Regular m'
  dims : m'.dims = m.dims
  get : ∀ name ds c, m'.ents.get? name = some (ds, c) ↔ m.ents.get? name = some (ds, c) ∧ Shared ms name ds

theorem reduced {ms : List CM} (hr : ∀ m ∈ ms, Regular m) {dims : List String} (hd : ∀ m ∈ ms, m.dims = dims) {m m' : CM} (hm : m ∈ ms)
    (h : m.dropCoords (unshared ms) = .ok m') : Reduced ms m m' := by
  have hw : ∀ m ∈ ms, WellFormed m := fun m hm => (hr m hm).wf
  have hdim : ∀ d ∈ m.dims, d ∉ unshared ms := by
    intro d hdm
    obtain ⟨c, n, h1, _⟩ := CM.WellFormed.get_dim (hw m hm) hdm
    rw [not_unshared hw hm h1]
    intro n hn
    obtain ⟨c', _, h2, _⟩ := CM.WellFormed.get_dim (hw n hn) (d := d) (by rw [hd n hn, ← hd m hm]; exact hdm)
    exact ⟨c', h2⟩
  obtain ⟨m2, h1, hD⟩ := dropCoords_spec (hw m hm) (unshared ms)
  rw [h] at h1; cases h1
  obtain ⟨h2, h3⟩ := dropped_regular (hr m hm) h hD hdim
  refine ⟨h2, h3, fun name ds c => ?_⟩
  constructor
  · intro hg
    cases hx : m.ents.get? name with
    | none => rw [hD.none name hx] at hg; cases hg
    | some v =>
      obtain ⟨ds', c'⟩ := v
      by_cases hb : name ∈ unshared ms ∨ ∃ d ∈ ds', d ∈ unshared ms
      · rw [hD.gone name ds' c' hx hb] at hg; cases hg
      · push Not at hb
        rw [hD.kept name ds' c' hx hb.1 hb.2] at hg
        cases hg
        exact ⟨rfl, (not_unshared hw hm hx).1 hb.1⟩
  · rintro ⟨hg, hs⟩
    refine hD.kept name ds c hg ((not_unshared hw hm hg).2 hs) ?_
    intro d hdd
    exact hdim d ((hw m hm).attached name ds c (Dict.mem_of_get? hg) d hdd)

/-! ### Order -/

theorem sortByMin_ordered {dim : String} {ms ms' : List CM} (h : sortByMin dim ms = .ok ms')
    (ho : ms.Pairwise fun m n => ∀ a b, ((m.ents.get? dim).bind fun c => c.2.lowest) = some a →
      ((n.ents.get? dim).bind fun c => c.2.lowest) = some b → a ≤ b) : ms' = ms := by
  unfold sortByMin at h
  simp only [bind, Except.bind, pure, Except.pure] at h
  split at h
  · cases h
  rename_i keyed hk
  cases h
  have hF : List.Forall₂ (fun m k => ((m.ents.get? dim).bind fun c => c.2.lowest) = some k.1 ∧ k.2 = m) ms keyed := by
    refine (mapM_forall₂ hk).imp ?_
    intro m k hmk
    split at hmk
    · rename_i a ha; cases hmk; exact ⟨ha, rfl⟩
    · cases hmk
  have hsnd : keyed.map Prod.snd = ms := by
    clear hk ho
    induction hF with
    | nil => rfl
    | cons h _ ih => simp [h.2, ih]
  have hp : keyed.Pairwise fun a b => a.1 ≤ b.1 := by
    clear hk hsnd
    induction hF with
    | nil => exact List.Pairwise.nil
    | @cons m k l l' h hF ih =>
      rw [List.pairwise_cons] at ho ⊢
      refine ⟨fun b hb => ?_, ih ho.2⟩
      obtain ⟨n, hn, hn2⟩ := forall₂_mem_right hF hb
      exact ho.1 n hn _ _ h.1 hn2.1
  rw [hp.insertionSort_eq, hsnd]

/-! ### The merged manager -/

theorem mapM_names {β : Type} {f : String × List String × MCoord → Except Err β} {g : β → Option String}
    (hg : ∀ e b n, f e = .ok b → g b = some n → n = e.1) :
    ∀ {l : Ents} {r : List β}, l.mapM f = .ok r → (r.filterMap g).Sublist (l.map Prod.fst)
  | [], r, h => by simp [pure, Except.pure] at h; subst h; simp
  | e :: l, r, h => by
    rw [List.mapM_cons] at h
    simp only [bind, Except.bind] at h
    split at h
    · cases h
    rename_i b hb
    split at h
    · cases h
    rename_i r' hr
    cases h
    have ih := mapM_names hg hr
    rw [List.filterMap_cons]
    split
    · exact ih.cons _
    · rename_i n hn
      rw [hg _ _ _ hb hn]
      exact ih.cons_cons _

/-- What is known about the manager merged from managers which share all their coordinates. -/
structure MCM (dropConf : Bool) (dim : String) (ms : List CM) (m0 cm : CM) : Prop where
  wf : WellFormed cm
  dims : cm.dims = m0.dims
  own : ∃ cs c x, (ms.mapM fun m => coordOf m dim) = .ok cs ∧ joinCoords cs = .ok c ∧ c.canon = .ok x ∧ cm.ents.get? dim = some ([dim], x)
  kept : ∀ name ds c, m0.ents.get? name = some (ds, c) → dim ∉ ds →
    (∀ m ∈ ms, ∃ c', m.ents.get? name = some (ds, c') ∧ SameCoord c c') → ∃ x, c.canon = .ok x ∧ cm.ents.get? name = some (ds, x)
  only : ∀ name ds x, cm.ents.get? name = some (ds, x) → dim ∉ ds →
    ∃ c, m0.ents.get? name = some (ds, c) ∧ c.canon = .ok x ∧ ∀ m ∈ ms, ∃ c', m.ents.get? name = some (ds, c') ∧ SameCoord c c'
  attached : ∀ name ds x, cm.ents.get? name = some (ds, x) → dim ∈ ds → ∀ m ∈ ms, ∃ ds' c', m.ents.get? name = some (ds', c') ∧ dim ∈ ds'
  strict : dropConf = false → ∀ name ds c, m0.ents.get? name = some (ds, c) → dim ∉ ds → Shared ms name ds →
    ∀ m ∈ ms, ∃ c', m.ents.get? name = some (ds, c') ∧ SameCoord c c'


theorem keepCoord_ok {dropConf : Bool} {ms : List CM} {e : String × List String × MCoord} {o : Option (String × CArg)}
    (h : keepCoord dropConf ms e = .ok o) :
    (o = some (e.1, .nested e.2.1 e.2.2) ∧ ∀ m ∈ ms, ∃ ds c', m.ents.get? e.1 = some (ds, c') ∧ SameCoord e.2.2 c') ∨
    (o = none ∧ dropConf = true ∧ (∀ m ∈ ms, e.1 ∉ m.dims) ∧ ¬ ∀ m ∈ ms, ∃ ds c', m.ents.get? e.1 = some (ds, c') ∧ SameCoord e.2.2 c') := by
  unfold keepCoord at h
  have key : (ms.all fun n => match n.ents.get? e.1 with
    | some (_, d) => e.2.2.modelEq d
    | none => false) = true ↔ ∀ m ∈ ms, ∃ ds c', m.ents.get? e.1 = some (ds, c') ∧ SameCoord e.2.2 c' := by
    rw [List.all_eq_true]
    refine forall₂_congr fun m _ => ?_
    cases hg : m.ents.get? e.1 with
    | none => simp
    | some v =>
      obtain ⟨ds, c'⟩ := v
      simp only [modelEq_iff]
      constructor
      · intro h; exact ⟨ds, c', rfl, h⟩
      · rintro ⟨_, _, h1, h2⟩; cases h1; exact h2
  split at h
  · rename_i hc
    cases h
    exact Or.inl ⟨rfl, key.1 hc⟩
  · rename_i hc
    split at h
    · rename_i h2
      cases h
      rw [Bool.and_eq_true, Bool.not_eq_true', ← Bool.not_eq_true, List.any_eq_true] at h2
      refine Or.inr ⟨rfl, h2.1, fun m hm hd => h2.2 ⟨m, hm, by simpa using hd⟩, fun h3 => hc (key.2 h3)⟩
    · cases h

theorem mergeCoord_ok {dim : String} {ms : List CM} {e : String × List String × MCoord} {r : String × CArg}
    (h : mergeCoord dim ms e = .ok r) :
    ∃ cs c, (ms.mapM fun m => coordOf m dim) = .ok cs ∧ joinCoords cs = .ok c ∧ r = (e.1, .nested [dim] c) := by
  unfold mergeCoord at h
  simp only [bind, Except.bind] at h
  split at h
  · cases h
  rename_i cs hcs
  split at h
  · cases h
  obtain ⟨c, h1, h2⟩ := except_map_ok h
  exact ⟨cs, c, hcs, h1, h2.symm⟩

theorem mergeSorted_spec {dropConf : Bool} {dim : String} {dims : List String} {m0 : CM} {l : List CM} {cm : CM}
    (hr : ∀ m ∈ m0 :: l, Regular m) (hd : ∀ m ∈ m0 :: l, m.dims = dims) (hdim : dim ∈ dims)
    (hs : ∀ name ds c, m0.ents.get? name = some (ds, c) → Shared (m0 :: l) name ds)
    (h : mergeSorted dropConf dim dims (m0 :: l) = .ok cm) : MCM dropConf dim (m0 :: l) m0 cm := by
  have hw := (hr m0 (by simp)).wf
  have hd0 := hd m0 (by simp)
  simp only [mergeSorted, bind, Except.bind] at h
  split at h
  · cases h
  rename_i kept hkept
  split at h
  · cases h
  rename_i merged hmerged
  set ms := m0 :: l with hms
  have hkF := mapM_forall₂ hkept
  have hmF := mapM_forall₂ hmerged
  set coords : Dict CArg := kept.filterMap id ++ merged with hcoords
  -- members
  have hmem : ∀ name a, (name, a) ∈ coords ↔
      (∃ e ∈ m0.ents, dim ∉ e.2.1 ∧ keepCoord dropConf ms e = .ok (some (name, a))) ∨ (∃ e ∈ m0.ents, dim ∈ e.2.1 ∧ mergeCoord dim ms e = .ok (name, a)) := by
    intro name a
    rw [hcoords, List.mem_append, List.mem_filterMap]
    constructor
    · rintro (⟨o, ho, he⟩ | hm)
      · simp at he; subst he
        obtain ⟨e, he, hf⟩ := mapM_mem_out hkept ho
        rw [List.mem_filter] at he
        exact Or.inl ⟨e, he.1, by simpa using he.2, hf⟩
      · obtain ⟨e, he, hf⟩ := mapM_mem_out hmerged hm
        rw [List.mem_filter] at he
        exact Or.inr ⟨e, he.1, by simpa using he.2, hf⟩
    · rintro (⟨e, he, h1, h2⟩ | ⟨e, he, h1, h2⟩)
      · left
        obtain ⟨b, hb, hb2⟩ := mapM_mem_in hkept (a := e) (List.mem_filter.2 ⟨he, by simpa using h1⟩)
        rw [h2] at hb2; cases hb2
        exact ⟨_, hb, rfl⟩
      · right
        obtain ⟨b, hb, hb2⟩ := mapM_mem_in hmerged (a := e) (List.mem_filter.2 ⟨he, by simpa using h1⟩)
        rw [h2] at hb2; cases hb2
        exact hb
  have hkeep1 : ∀ e b n, keepCoord dropConf ms e = .ok b → (b.map Prod.fst : Option String) = some n → n = e.1 := by
    intro e b n h1 h2
    rcases keepCoord_ok h1 with ⟨rfl, _⟩ | ⟨rfl, _⟩
    · simpa using h2.symm
    · cases h2
  have hmer1 : ∀ e b n, mergeCoord dim ms e = .ok b → some b.1 = some n → n = e.1 := by
    intro e b n h1 h2
    obtain ⟨_, _, _, _, rfl⟩ := mergeCoord_ok h1
    simpa using h2.symm
  have hnd : coords.keys.Nodup := by
    have s1 := mapM_names hkeep1 hkept
    have s2 := mapM_names (g := fun b : String × CArg => some b.1) hmer1 hmerged
    have e1 : (kept.filterMap fun b => b.map Prod.fst) = (kept.filterMap id).map Prod.fst := by
      rw [List.map_filterMap]; rfl
    have e2 : (merged.filterMap fun b => some b.1) = merged.map Prod.fst := by
      rw [List.filterMap_eq_map']
    rw [e1] at s1; rw [e2] at s2
    show (List.map Prod.fst coords).Nodup
    rw [hcoords, List.map_append, List.nodup_append]
    have n1 : ((m0.ents.filter fun e => !e.2.1.contains dim).map Prod.fst).Nodup := Dict.nodup_filter hw.names _
    have n2 : ((m0.ents.filter fun e => e.2.1.contains dim).map Prod.fst).Nodup := Dict.nodup_filter hw.names _
    refine ⟨n1.sublist s1, n2.sublist s2, ?_⟩
    rintro a ha b hb rfl
    have ha := s1.subset ha
    have hb := s2.subset hb
    simp only [List.mem_map, List.mem_filter] at ha hb
    obtain ⟨⟨n, ds, c⟩, ⟨ha1, ha2⟩, rfl⟩ := ha
    obtain ⟨⟨n', ds', c'⟩, ⟨hb1, hb2⟩, hn⟩ := hb
    simp only at hn; subst hn
    have g1 := Dict.get?_of_mem hw.names ha1
    have g2 := Dict.get?_of_mem hw.names hb1
    rw [g1] at g2; cases g2
    simp only [hb2] at ha2
    cases ha2
  -- the manager
  obtain ⟨hwf, _⟩ := CM.getCoordManager_wf h hnd
  obtain ⟨e, dims', hcdm, hcm⟩ : ∃ e dims', coordDimMap coords dims = .ok (e, dims') ∧ CM.mk? dims' e = .ok cm := by
    unfold getCoordManager at h
    simp only [bind, Except.bind] at h
    split at h
    · cases h
    rename_i r hr'
    exact ⟨r.1, r.2, hr', h⟩
  obtain ⟨rfl, _, _⟩ := CM.mk?_ok hcm
  obtain ⟨hke, _, hdims', hmap⟩ := CM.coordDimMap_spec hcdm hnd
  have hto : ∀ name ds c, (name, CArg.nested ds c) ∈ coords → ∃ x, c.canon = .ok x ∧ Dict.get? e name = some (ds, x) := by
    intro name ds c hm
    obtain ⟨v, h1, h2⟩ := mapM_get?' (f := fun p => parseArg dims p.1 p.2) hmap name (Dict.get?_of_mem hnd hm)
    obtain ⟨x, h3, rfl⟩ := parseArg_nested h2
    exact ⟨x, h3, h1⟩
  have hnest : ∀ name a, (name, a) ∈ coords → ∃ ds c, a = .nested ds c := by
    intro name a hm
    rcases (hmem name a).1 hm with ⟨e, _, _, h2⟩ | ⟨e, _, _, h2⟩
    · rcases keepCoord_ok h2 with ⟨h3, _⟩ | ⟨h3, _⟩
      · cases h3; exact ⟨_, _, rfl⟩
      · cases h3
    · obtain ⟨_, _, _, _, h3⟩ := mergeCoord_ok h2
      cases h3; exact ⟨_, _, rfl⟩
  have hfrom : ∀ name ds x, Dict.get? e name = some (ds, x) → ∃ c, (name, CArg.nested ds c) ∈ coords ∧ c.canon = .ok x := by
    intro name ds x hg
    obtain ⟨a, h1, h2⟩ := Dict.mapM_get? (f := fun p => parseArg dims p.1 p.2) hmap name hg
    have h3 := Dict.mem_of_get? h1
    obtain ⟨ds', c, rfl⟩ := hnest name a h3
    obtain ⟨c', h4, h5⟩ := parseArg_nested h2
    cases h5
    exact ⟨c, h3, h4⟩
  have hkm : ∀ name ds c, m0.ents.get? name = some (ds, c) → dim ∉ ds → ∃ o, keepCoord dropConf ms (name, ds, c) = .ok o := by
    intro name ds c hg hnd'
    obtain ⟨b, _, hb2⟩ := mapM_mem_in hkept (a := (name, ds, c)) (List.mem_filter.2 ⟨Dict.mem_of_get? hg, by simpa using hnd'⟩)
    exact ⟨b, hb2⟩
  obtain ⟨c0, n0, hc0, _⟩ := CM.WellFormed.get_dim hw (d := dim) (by rw [hd0]; exact hdim)
  obtain ⟨b0, hb0, hb1⟩ := mapM_mem_in hmerged (a := (dim, [dim], c0)) (List.mem_filter.2 ⟨Dict.mem_of_get? hc0, by simp⟩)
  obtain ⟨cs, cj, hcs, hcj, rfl⟩ := mergeCoord_ok hb1
  have hsame : ∀ name ds c, m0.ents.get? name = some (ds, c) →
      ((∀ m ∈ ms, ∃ ds' c', m.ents.get? name = some (ds', c') ∧ SameCoord c c') ↔ ∀ m ∈ ms, ∃ c', m.ents.get? name = some (ds, c') ∧ SameCoord c c') := by
    intro name ds c hg
    refine forall₂_congr fun m hm => ?_
    obtain ⟨c1, h1⟩ := hs name ds c hg m hm
    constructor
    · rintro ⟨ds', c', h2, h3⟩; rw [h1] at h2; cases h2; exact ⟨_, h1, h3⟩
    · rintro ⟨c', h2, h3⟩; exact ⟨_, _, h2, h3⟩
  refine ⟨hwf, ?_, ?_, ?_, ?_, ?_, ?_⟩
  · show dims' = _
    rw [hdims', hd0]
    have : (e.filter fun p => p.2.1 == [p.1] && !dims.contains p.1) = [] := by
      rw [List.filter_eq_nil_iff]
      rintro ⟨name, ds, x⟩ hp hc
      simp at hc
      obtain ⟨rfl, hc2⟩ := hc
      have hg := Dict.get?_of_mem (by rw [hke]; exact hnd) hp
      obtain ⟨c, h1, h2⟩ := hfrom _ _ _ hg
      rcases (hmem _ _).1 h1 with ⟨⟨n, ds, c'⟩, h3, _, h5⟩ | ⟨_, _, _, h5⟩
      · rcases keepCoord_ok h5 with ⟨h6, _⟩ | ⟨h6, _⟩
        · simp only [Option.some.injEq, Prod.mk.injEq, CArg.nested.injEq] at h6
          obtain ⟨rfl, rfl, rfl⟩ := h6
          apply hc2
          rw [← hd0]
          exact hw.attached _ _ _ h3 _ (by simp)
        · cases h6
      · obtain ⟨_, _, _, _, h6⟩ := mergeCoord_ok h5
        simp only [Prod.mk.injEq, CArg.nested.injEq, List.cons.injEq, and_true] at h6
        exact hc2 (h6.2.1 ▸ hdim)
    rw [this]; simp
  · obtain ⟨x, h1, h2⟩ := hto dim [dim] cj ((hmem _ _).2 (Or.inr ⟨_, Dict.mem_of_get? hc0, by simp, hb1⟩))
    exact ⟨cs, cj, x, hcs, hcj, h1, h2⟩
  · intro name ds c hg hnd' hall
    obtain ⟨o, ho⟩ := hkm name ds c hg hnd'
    rcases keepCoord_ok ho with ⟨rfl, _⟩ | ⟨rfl, _, _, h3⟩
    · exact hto name ds c ((hmem _ _).2 (Or.inl ⟨_, Dict.mem_of_get? hg, hnd', ho⟩))
    · exact absurd ((hsame name ds c hg).2 hall) h3
  · intro name ds x hg hnd'
    obtain ⟨c, h1, h2⟩ := hfrom name ds x hg
    rcases (hmem _ _).1 h1 with ⟨⟨n, ds', c'⟩, h3, _, h5⟩ | ⟨_, _, _, h5⟩
    · rcases keepCoord_ok h5 with ⟨h6, h7⟩ | ⟨h6, _⟩
      · simp only [Option.some.injEq, Prod.mk.injEq, CArg.nested.injEq] at h6
        obtain ⟨rfl, rfl, rfl⟩ := h6
        have hg' := Dict.get?_of_mem hw.names h3
        exact ⟨c, hg', h2, (hsame name ds c hg').1 h7⟩
      · cases h6
    · obtain ⟨_, _, _, _, h6⟩ := mergeCoord_ok h5
      cases h6
      exact absurd (by simp) hnd'
  · intro name ds x hg hdd
    obtain ⟨c, h1, h2⟩ := hfrom name ds x hg
    rcases (hmem _ _).1 h1 with ⟨⟨n, ds', c'⟩, h3, h4, h5⟩ | ⟨⟨n, ds', c'⟩, h3, h4, h5⟩
    · rcases keepCoord_ok h5 with ⟨h6, h7⟩ | ⟨h6, _⟩
      · cases h6; exact absurd hdd h4
      · cases h6
    · obtain ⟨_, _, _, _, h6⟩ := mergeCoord_ok h5
      simp only [Prod.mk.injEq] at h6
      obtain ⟨rfl, _⟩ := h6
      intro m hm
      obtain ⟨c2, hc2⟩ := hs name ds' c' (Dict.get?_of_mem hw.names h3) m hm
      exact ⟨ds', c2, hc2, h4⟩
  · intro hdc name ds c hg hnd' _
    obtain ⟨o, ho⟩ := hkm name ds c hg hnd'
    rcases keepCoord_ok ho with ⟨_, h3⟩ | ⟨_, h3, _⟩
    · exact (hsame name ds c hg).1 h3
    · rw [hdc] at h3; cases h3

/-- The merged manager in terms of the managers given. -/
theorem mergeManagers_spec {dropConf : Bool} {dim : String} {m0 : CM} {l : List CM} {cm : CM}
    (hr : ∀ m ∈ m0 :: l, Regular m) (hdim : dim ∈ m0.dims)
    (ho : (m0 :: l).Pairwise fun m n => ∀ a b, ((m.ents.get? dim).bind fun c => c.2.lowest) = some a →
      ((n.ents.get? dim).bind fun c => c.2.lowest) = some b → a ≤ b)
    (h : mergeManagers dropConf dim (m0 :: l) = .ok cm) : MCM dropConf dim (m0 :: l) m0 cm ∧ ∀ m ∈ m0 :: l, m.dims = m0.dims := by
  simp only [mergeManagers] at h
  split at h
  · cases h
  rename_i hdims
  have hd : ∀ m ∈ m0 :: l, m.dims = m0.dims := by
    intro m hm
    by_contra hc
    exact hdims (List.any_eq_true.2 ⟨m, hm, by simpa using hc⟩)
  refine ⟨?_, hd⟩
  simp only [bind, Except.bind] at h
  split at h
  · cases h
  rename_i ms' hms'
  split at h
  · cases h
  rename_i sorted hsorted
  set ms := m0 :: l with hms
  have hF : List.Forall₂ (Reduced ms) ms ms' := forall₂_mono_mem (mapM_forall₂ hms') fun a ha b hb => reduced hr hd ha hb
  have hdget : ∀ m ∈ ms, ∀ m', Reduced ms m m' → m'.ents.get? dim = m.ents.get? dim := by
    intro m hm m' hR
    obtain ⟨c, _, h1, _⟩ := CM.WellFormed.get_dim (hr m hm).wf (d := dim) (by rw [hd m hm]; exact hdim)
    rw [h1]
    refine (hR.get dim [dim] c).2 ⟨h1, fun n hn => ?_⟩
    obtain ⟨c', _, h2, _⟩ := CM.WellFormed.get_dim (hr n hn).wf (d := dim) (by rw [hd n hn]; exact hdim)
    exact ⟨c', h2⟩
  have hso : sorted = ms' := by
    refine sortByMin_ordered hsorted ?_
    have : ∀ {ls ls' : List CM}, List.Forall₂ (Reduced ms) ls ls' → (∀ m ∈ ls, m ∈ ms) →
      (ls.Pairwise fun m n => ∀ a b, ((m.ents.get? dim).bind fun c => c.2.lowest) = some a →
      ((n.ents.get? dim).bind fun c => c.2.lowest) = some b → a ≤ b) → ls'.Pairwise fun m n => ∀ a b, ((m.ents.get? dim).bind fun c => c.2.lowest) = some a →
      ((n.ents.get? dim).bind fun c => c.2.lowest) = some b → a ≤ b := by
      intro ls ls' hF hsub hp
      induction hF with
      | nil => exact List.Pairwise.nil
      | @cons a b la lb hab hF ih =>
        rw [List.pairwise_cons] at hp ⊢
        refine ⟨fun n' hn' => ?_, ih (fun m hm => hsub m (by simp [hm])) hp.2⟩
        obtain ⟨n, hn, hn2⟩ := forall₂_mem_right hF hn'
        rw [hdget a (hsub a (by simp)) b hab, hdget n (hsub n (by simp [hn])) n' hn2]
        exact hp.1 n hn
    exact this hF (fun _ h => h) ho
  subst hso
  match sorted, hF, h with
  | [], hF, h => cases h
  | b :: lb, hF, h =>
    have hab : Reduced ms m0 b := by
      have h1 : List.Forall₂ (Reduced ms) (m0 :: l) (b :: lb) := hF
      cases h1; assumption
    have hms0 : m0 ∈ ms := by rw [hms]; simp
    have hrm : ∀ m' ∈ b :: lb, ∃ m ∈ ms, Reduced ms m m' := fun m' hm' => forall₂_mem_right hF hm'
    have hrm' : ∀ m ∈ ms, ∃ m' ∈ b :: lb, Reduced ms m m' := fun m hm => by
      obtain ⟨m', h1, h2⟩ := forall₂_mem_right hF.flip hm
      exact ⟨m', h1, h2⟩
    have hshare : ∀ name ds, Shared (b :: lb) name ds ↔ Shared ms name ds := by
      intro name ds
      constructor
      · intro hs m hm
        obtain ⟨m', h1, h2⟩ := hrm' m hm
        obtain ⟨c, hc⟩ := hs m' h1
        exact ⟨c, ((h2.get _ _ _).1 hc).1⟩
      · intro hs m' hm'
        obtain ⟨m, h1, h2⟩ := hrm m' hm'
        obtain ⟨c, hc⟩ := hs m h1
        exact ⟨c, (h2.get _ _ _).2 ⟨hc, hs⟩⟩
    have hall : ∀ name ds c, (∀ m' ∈ b :: lb, ∃ c', m'.ents.get? name = some (ds, c') ∧ SameCoord c c') ↔
        ∀ m ∈ ms, ∃ c', m.ents.get? name = some (ds, c') ∧ SameCoord c c' := by
      intro name ds c
      constructor
      · intro hs m hm
        obtain ⟨m', h1, h2⟩ := hrm' m hm
        obtain ⟨c, hc, hc2⟩ := hs m' h1
        exact ⟨c, ((h2.get _ _ _).1 hc).1, hc2⟩
      · intro hs m' hm'
        obtain ⟨m, h1, h2⟩ := hrm m' hm'
        obtain ⟨c, hc, hc2⟩ := hs m h1
        exact ⟨c, (h2.get _ _ _).2 ⟨hc, fun n hn => let ⟨c1, h3, _⟩ := hs n hn; ⟨c1, h3⟩⟩, hc2⟩
    have hM := mergeSorted_spec (m0 := b) (l := lb) (dims := m0.dims) (dim := dim)
      (fun m' hm' => let ⟨_, _, h⟩ := hrm m' hm'; h.reg)
      (fun m' hm' => let ⟨m, h1, h⟩ := hrm m' hm'; by rw [h.dims, hd m h1]) hdim
      (fun name ds c hg => (hshare name ds).2 ((hab.get _ _ _).1 hg).2) h
    refine ⟨hM.wf, by rw [hM.dims, hab.dims], ?_, ?_, ?_, ?_, ?_⟩
    · obtain ⟨cs, c, x, h1, h2⟩ := hM.own
      refine ⟨cs, c, x, ?_, h2⟩
      rw [← h1]
      have : ∀ {ls ls' : List CM}, List.Forall₂ (Reduced ms) ls ls' → (∀ m ∈ ls, m ∈ ms) → (ls.mapM fun m => coordOf m dim) = ls'.mapM fun m => coordOf m dim := by
        intro ls ls' hF hsub
        induction hF with
        | nil => rfl
        | @cons a b la lb hab hF ih =>
          rw [List.mapM_cons, List.mapM_cons, ih fun m hm => hsub m (by simp [hm])]
          have : coordOf a dim = coordOf b dim := by unfold coordOf; rw [hdget a (hsub a (by simp)) b hab]
          rw [this]
      exact this hF fun _ h => h
    · intro name ds c hg hnd hs
      refine hM.kept name ds c ((hab.get _ _ _).2 ⟨hg, fun n hn => let ⟨c1, h3, _⟩ := hs n hn; ⟨c1, h3⟩⟩) hnd ((hall _ _ _).2 hs)
    · intro name ds x hg hnd
      obtain ⟨c, h1, h2, h3⟩ := hM.only name ds x hg hnd
      exact ⟨c, ((hab.get _ _ _).1 h1).1, h2, (hall _ _ _).1 h3⟩
    · intro name ds x hg hdd m hm
      obtain ⟨m', h1, h2⟩ := hrm' m hm
      obtain ⟨ds', c', h3, h4⟩ := hM.attached name ds x hg hdd m' h1
      exact ⟨ds', c', ((h2.get _ _ _).1 h3).1, h4⟩
    · intro hdc name ds c hg hnd hs
      exact (hall _ _ _).1 (hM.strict hdc name ds c ((hab.get _ _ _).2 ⟨hg, hs⟩) hnd ((hshare _ _).2 hs))

/-! ### Data -/

variable {α : Type}

/-- `r` is the arrays of `l` one after the other. -/
structure Laid (axis : ℕ) (l : List (Nd α)) (r : Nd α) : Prop where
  len : r.shape.getD axis 0 = (l.map fun b => b.shape.getD axis 0).sum
  alike : ∀ b ∈ l, axis < b.shape.length ∧ Nd.Alike axis b r
  get : ∀ (j : ℕ) b, l[j]? = some b → ∀ i, InRange b.shape i →
      InRange r.shape (i.set axis (i.getD axis 0 + ((l.take j).map fun b => b.shape.getD axis 0).sum)) ∧
      r.get (i.set axis (i.getD axis 0 + ((l.take j).map fun b => b.shape.getD axis 0).sum)) = b.get i

theorem concat_laid {axis : ℕ} {l : List (Nd α)} {r : Nd α} (h : Nd.concat axis l = .ok r) : Laid axis l r :=
  let ⟨h1, h2, h3⟩ := Nd.concat_spec h
  ⟨h1, h2, h3⟩

theorem alike_trans {axis : ℕ} {a b c : Nd α} (h1 : Nd.Alike axis a b) (h2 : Nd.Alike axis a c) : Nd.Alike axis b c :=
  ⟨by rw [h2.1, h1.1], fun k hk => by rw [h2.2 k hk, h1.2 k hk]⟩

theorem grow_spec (junk : α) {axis stop : ℕ} {b : Buffer α} (hax : axis < b.arr.shape.length) :
    Nd.Alike axis b.arr (b.grow junk axis stop) ∧ stop ≤ (b.grow junk axis stop).shape.getD axis 0 ∧
    ∀ i, i.getD axis 0 < b.off → (b.grow junk axis stop).get i = b.arr.get i := by
  unfold Buffer.grow
  split
  · refine ⟨⟨by simp, fun k hk => ?_⟩, ?_, fun i hi => ?_⟩
    · simp only; rw [getD_set', if_neg (by tauto)]
    · simp only; rw [getD_set', if_pos ⟨rfl, hax⟩]
    · simp only; rw [if_pos hi]
  · rename_i h
    exact ⟨⟨rfl, fun _ _ => rfl⟩, by omega, fun _ _ => rfl⟩

theorem put_spec {junk : α} {axis : ℕ} {b b' : Buffer α} {d : Nd α} (hax : axis < b.arr.shape.length) (hd : Nd.Alike axis b.arr d)
    (h : b.put junk axis d = .ok b') :
    Nd.Alike axis b.arr b'.arr ∧ b'.off = b.off + d.shape.getD axis 0 ∧ b'.off ≤ b'.arr.shape.getD axis 0 ∧
    (∀ i, i.getD axis 0 < b.off → b'.arr.get i = b.arr.get i) ∧
    ∀ i, InRange d.shape i → b'.arr.get (i.set axis (i.getD axis 0 + b.off)) = d.get i := by
  simp only [Buffer.put] at h
  split at h
  · cases h
    obtain ⟨g1, g2, g3⟩ := grow_spec junk (stop := b.off + d.shape.getD axis 0) hax
    refine ⟨g1, rfl, g2, fun i hi => ?_, fun i hi => ?_⟩
    · simp only
      rw [if_neg (by omega), g3 i hi]
    · simp only
      rw [inRange_iff] at hi
      have hil : axis < i.length := by rw [hi.1, hd.1]; exact hax
      have hv : (i.set axis (i.getD axis 0 + b.off)).getD axis 0 = i.getD axis 0 + b.off := by
        rw [getD_set', if_pos ⟨rfl, hil⟩]
      have hlt := hi.2 axis (by rw [hd.1]; exact hax)
      rw [hv, if_pos (by omega), List.set_set, Nat.add_sub_cancel]
      congr 1
      apply List.ext_getElem?
      intro k
      rw [List.getElem?_zipWith]
      by_cases hk : k < i.length
      · have hk' : k < d.shape.length := by rw [← hi.1]; exact hk
        have h1 := hi.2 k hk'
        rw [List.getD_eq_getElem?_getD, List.getD_eq_getElem?_getD, List.getElem?_eq_getElem hk, List.getElem?_eq_getElem hk'] at h1
        simp only [Option.getD_some] at h1
        have h2 : (i.set axis (i.getD axis 0))[k]? = some i[k] := by
          rw [List.getElem?_set]
          split
          · rename_i he; subst he
            rw [List.getD_eq_getElem?_getD, List.getElem?_eq_getElem hil]; rfl
          · exact List.getElem?_eq_getElem hk
        rw [h2, List.getElem?_eq_getElem hk', List.getElem?_eq_getElem hk]
        simp only [Option.some.injEq]
        split
        · omega
        · rfl
      · rw [List.getElem?_eq_none (l := i) (by omega), List.getElem?_eq_none (l := d.shape) (by rw [← hi.1]; omega)]
  · cases h

theorem fold_put {junk : α} {axis : ℕ} : ∀ {l : List (Nd α)} {b b' : Buffer α}, axis < b.arr.shape.length → (∀ d ∈ l, Nd.Alike axis b.arr d) →
    b.off ≤ b.arr.shape.getD axis 0 →
    l.foldlM (Buffer.put junk axis) b = .ok b' →
    Nd.Alike axis b.arr b'.arr ∧ b'.off = b.off + (l.map fun d => d.shape.getD axis 0).sum ∧ b'.off ≤ b'.arr.shape.getD axis 0 ∧
    (∀ i, i.getD axis 0 < b.off → b'.arr.get i = b.arr.get i) ∧
    ∀ (j : ℕ) d, l[j]? = some d → ∀ i, InRange d.shape i →
      b'.arr.get (i.set axis (i.getD axis 0 + (b.off + ((l.take j).map fun d => d.shape.getD axis 0).sum))) = d.get i
  | [], b, b', _, _, ho, h => by
    simp [pure, Except.pure] at h; subst h
    exact ⟨⟨rfl, fun _ _ => rfl⟩, by simp, ho, fun _ _ => rfl, fun j d hj => by simp at hj⟩
  | d :: l, b, b', hax, hal, ho, h => by
    rw [List.foldlM_cons] at h
    simp only [bind, Except.bind] at h
    split at h
    · cases h
    rename_i b1 hb1
    obtain ⟨h1, h2, h3, h4, h5⟩ := put_spec hax (hal d (by simp)) hb1
    obtain ⟨g1, g2, g3, g4, g5⟩ := fold_put (l := l) (by rw [h1.1]; exact hax) (fun d' hd' => alike_trans h1 (hal d' (by simp [hd']))) h3 h
    refine ⟨⟨by rw [g1.1, h1.1], fun k hk => by rw [g1.2 k hk, h1.2 k hk]⟩, ?_, g3, fun i hi => ?_, ?_⟩
    · rw [g2, h2]; simp; omega
    · rw [g4 i (by omega), h4 i hi]
    · intro j d' hj i hi
      cases j with
      | zero =>
        simp at hj; subst hj
        have hil : axis < i.length := by rw [(inRange_iff.1 hi).1, (hal d (by simp)).1]; exact hax
        have hlt := (inRange_iff.1 hi).2 axis (by rw [(hal d (by simp)).1]; exact hax)
        simp only [List.take_zero, List.map_nil, List.sum_nil, Nat.add_zero]
        rw [g4 _ (by rw [getD_set', if_pos ⟨rfl, hil⟩]; omega), h5 i hi]
      | succ j =>
        have := g5 j d' (by simpa using hj) i hi
        rw [h2] at this
        simp only [List.take_succ_cons, List.map_cons, List.sum_cons]
        rw [← Nat.add_assoc b.off]
        exact this

theorem stream_laid {junk : α} {axis samples : ℕ} {a : Nd α} {l : List (Nd α)} {r : Nd α} (hax : axis < a.shape.length)
    (hal : ∀ b ∈ a :: l, Nd.Alike axis a b) (h : streamData junk axis samples (a :: l) = .ok r) : Laid axis (a :: l) r := by
  simp only [streamData, bind, Except.bind, pure, Except.pure] at h
  split at h
  · cases h
  rename_i b' hb'
  cases h
  have h0 : Nd.Alike axis a (⟨a.shape.set axis samples, fun _ => junk⟩ : Nd α) :=
    ⟨by simp, fun k hk => by simp only; rw [getD_set', if_neg (by tauto)]⟩
  obtain ⟨g1, g2, g3, g4, g5⟩ := fold_put (b := ⟨⟨a.shape.set axis samples, fun _ => junk⟩, 0⟩) (by simpa using hax)
    (fun d hd => alike_trans h0 (hal d hd)) (Nat.zero_le _) hb'
  simp only [Nat.zero_add] at g2 g5
  have hblen : b'.arr.shape.length = a.shape.length := by rw [g1.1]; simp
  have hra : Nd.Alike axis a (⟨b'.arr.shape.set axis b'.off, b'.arr.get⟩ : Nd α) := by
    refine ⟨by simpa using hblen, fun k hk => ?_⟩
    simp only; rw [getD_set', if_neg (by tauto), g1.2 k hk]; simp only; rw [getD_set', if_neg (by tauto)]
  have hrl : (b'.arr.shape.set axis b'.off).getD axis 0 = b'.off := by rw [getD_set', if_pos ⟨rfl, by omega⟩]
  refine ⟨by simp only; rw [hrl, g2], fun b hb => ⟨by rw [(hal b hb).1]; exact hax, alike_trans (hal b hb) hra⟩, ?_⟩
  intro j b hj i hi
  refine ⟨?_, g5 j b hj i hi⟩
  have hb := List.mem_of_getElem? hj
  rw [inRange_iff] at hi ⊢
  have hbl := (hal b hb).1
  refine ⟨by simp [hi.1, hbl, hblen], fun k hk => ?_⟩
  have hk' : k < a.shape.length := by simpa [hblen] using hk
  have hik := hi.2 k (by omega)
  by_cases hka : k = axis
  · subst hka
    simp only
    rw [hrl, getD_set', if_pos ⟨rfl, by rw [hi.1, hbl]; exact hax⟩, g2]
    have hsum : ((((a :: l).take j).map fun d => d.shape.getD k 0).sum) + b.shape.getD k 0 ≤ (((a :: l).map fun d => d.shape.getD k 0).sum) := by
      obtain ⟨hj1, hj2⟩ := List.getElem?_eq_some_iff.1 hj
      conv_rhs => rw [← List.take_append_drop j (a :: l), List.map_append, List.sum_append]
      rw [List.drop_eq_getElem_cons hj1, hj2]
      simp only [List.map_cons, List.sum_cons]
      omega
    omega
  · have hra2 := hra.2 k hka
    simp only at hra2 ⊢
    rw [hra2, getD_set', if_neg (by tauto), ← (hal b hb).2 k hka]
    exact hik

/-! ### The merged patch -/

/-- What the proofs need of the patches to merge. -/
structure SoundM (p : PatchM α) : Prop where
  reg : Regular p.cm
  dims : p.cm.dims ≠ []
  shape : p.cm.shape = p.data.shape

theorem SoundM.shape_eq {p : PatchM α} (h : SoundM p) : p.data.shape = p.cm.dims.map (lenDim p.cm) := by
  rw [← h.shape]; unfold CM.shape; rw [if_neg h.dims]; rfl

/-- What is known about the manager of the merged patch, apart from its coordinate of the dimension. -/
structure RestCM (dim : String) (ps : List (PatchM α)) (p0 : PatchM α) (cm : CM) : Prop where
  wf : WellFormed cm
  dims : cm.dims = p0.cm.dims
  kept : ∀ name ds c, p0.cm.ents.get? name = some (ds, c) → dim ∉ ds → Agreed ps name ds c → ∃ x, c.canon = .ok x ∧ cm.ents.get? name = some (ds, x)
  only : ∀ name ds x, cm.ents.get? name = some (ds, x) → dim ∉ ds → ∃ c, p0.cm.ents.get? name = some (ds, c) ∧ Agreed ps name ds c
  attached : ∀ name ds x, cm.ents.get? name = some (ds, x) → dim ∈ ds → ∀ p ∈ ps, ∃ ds' c', p.cm.ents.get? name = some (ds', c') ∧ dim ∈ ds'

theorem MCM.rest {dropConf : Bool} {dim : String} {ps : List (PatchM α)} {p0 : PatchM α} {cm : CM}
    (h : MCM dropConf dim (ps.map PatchM.cm) p0.cm cm) : RestCM dim ps p0 cm := by
  have key : ∀ name ds c, (∀ m ∈ ps.map PatchM.cm, ∃ c', m.ents.get? name = some (ds, c') ∧ SameCoord c c') ↔ Agreed ps name ds c := by
    intro name ds c; unfold Agreed; simp
  refine ⟨h.wf, h.dims, fun name ds c h1 h2 h3 => h.kept name ds c h1 h2 ((key _ _ _).2 h3), ?_, fun name ds x h1 h2 p hp => h.attached name ds x h1 h2 p.cm (List.mem_map_of_mem hp)⟩
  intro name ds x h1 h2
  obtain ⟨c, h3, _, h4⟩ := h.only name ds x h1 h2
  exact ⟨c, h3, (key _ _ _).1 h4⟩

theorem merged_of {dim : String} {ps : List (PatchM α)} {p0 : PatchM α} (hp0 : ps[0]? = some p0) (hs : ∀ p ∈ ps, SoundM p)
    (hdims : ∀ p ∈ ps, p.cm.dims = p0.cm.dims) (hdim : dim ∈ p0.cm.dims) {cm : CM} {data : Nd α}
    (hL : Laid (p0.cm.dims.idxOf dim) (ps.map PatchM.data) data) (hR : RestCM dim ps p0 cm) (hsh : cm.shape = data.shape) :
    Merged dim ps ⟨cm, data⟩ := by
  set dims := p0.cm.dims with hdd
  have hlens : ∀ r ∈ ps, r.data.shape.getD (dims.idxOf dim) 0 = lenDim r.cm dim := by
    intro r hr
    rw [(hs r hr).shape_eq, hdims r hr, getD_map_len hdim]
  have hcmd : cm.dims = dims := hR.dims
  have hshape : data.shape = cm.dims.map (lenDim cm) := by
    rw [← hsh]; unfold CM.shape; rw [if_neg (by rw [hcmd]; intro hc; rw [hc] at hdim; cases hdim)]; rfl
  have hbefore : ∀ j, samplesBefore dim ps j = (((ps.map PatchM.data).take j).map fun b => b.shape.getD (dims.idxOf dim) 0).sum := by
    intro j
    unfold samplesBefore
    rw [← List.map_take, List.map_map]
    congr 1
    refine List.map_congr_left fun r hr => ?_
    exact (hlens r (List.mem_of_mem_take hr)).symm
  refine ⟨fun p hp => by rw [hdims p hp]; exact hcmd, hshape, ?_, ?_, ?_, ?_, ?_, ?_, hR.attached⟩
  · have h1 := hL.len
    rw [hshape, hcmd, getD_map_len hdim, List.map_map] at h1
    rw [h1]
    congr 1
    exact List.map_congr_left fun r hr => hlens r hr
  · intro r hr e he hne
    rw [hdims r hr] at he
    obtain ⟨a1, a2, a3⟩ := hL.alike r.data (List.mem_map_of_mem hr)
    have := a3 (dims.idxOf e) (fun hc => hne ((List.idxOf_inj he).1 hc))
    rw [hshape, (hs r hr).shape_eq, hdims r hr, hcmd, getD_map_len he, getD_map_len he] at this
    exact this
  · intro j r hj i hi
    have h1 := hL.get j r.data (by rw [List.getElem?_map, hj]; rfl) i hi
    simp only [movedAlong, hcmd]
    rw [hbefore j]
    exact h1
  · intro p hp name ds c hg hnd ha
    rw [hp0] at hp; cases hp
    obtain ⟨x, h1, h2⟩ := hR.kept name ds c hg hnd ha
    exact ⟨x, h2, canon_same h1⟩
  · intro p hp name ds x hg hnd
    rw [hp0] at hp; cases hp
    exact hR.only name ds x hg hnd
  · intro p hp name ds c hg hnd ha hst i off hil
    rw [hp0] at hp; cases hp
    obtain ⟨x, h1, h2⟩ := hR.kept name ds c hg hnd ha
    have h3 := (canon_same h1).2 hst
    unfold label
    simp only [h2, hg]
    cases ds with
    | nil => rfl
    | cons d0 ds =>
      simp only [h3, hcmd]
      congr 1
      unfold labelAt
      congr 1
      refine List.map_congr_left fun d hd => ?_
      have hne : d ≠ dim := fun hc => hnd (hc ▸ hd)
      have hdm : d ∈ dims := (hs _ (List.mem_of_getElem? hp0)).reg.wf.attached _ _ _ (Dict.mem_of_get? hg) d hd
      rw [moved_getD hdm (by rw [← hcmd]; exact hil), if_neg hne, Nat.add_zero]

/-! ### The coordinate of the dimension -/

theorem lowest_isMin {k : Kind} {c : Coord} (hc : c.Wf) {a : ℚ} (h : (MCoord.one k c).lowest = some a) : IsMin c.vals a := by
  have key : ∀ l : List ℚ, (match l with | [] => none | v :: l => some (l.foldl min v)) = some a → IsMin l a := by
    intro l hl
    cases l with
    | nil => cases hl
    | cons v l =>
      simp only [Option.some.injEq] at hl
      have := foldl_min_isMin (l := v :: l) (by simp)
      rw [← hl]
      simpa using this
  cases c with
  | range r =>
    simp only [MCoord.lowest, Option.some.injEq] at h
    subst h
    have hv : r.Valid := hc
    show IsMin r.values _
    have hl1 : (1 : ℚ) ≤ r.len := by exact_mod_cast hv.len_pos
    rw [hv.values_eq, hv.cmin_eq]
    unfold progression
    constructor
    · rw [List.mem_map]
      rcases le_total r.start (r.start + (r.len - 1) * r.step) with h | h
      · exact ⟨0, List.mem_range.2 hv.len_pos, by rw [min_eq_left h]; simp⟩
      · refine ⟨r.len - 1, List.mem_range.2 (by have := hv.len_pos; omega), ?_⟩
        rw [min_eq_right h, Nat.cast_sub hv.len_pos]; simp
    · intro x hx
      rw [List.mem_map] at hx
      obtain ⟨i, hi, rfl⟩ := hx
      have h1 : ((i : ℕ) : ℚ) ≤ r.len - 1 := by
        have := List.mem_range.1 hi
        have : (i : ℚ) + 1 ≤ r.len := by exact_mod_cast this
        linarith
      have h0 : (0 : ℚ) ≤ i := Nat.cast_nonneg i
      rcases le_total 0 r.step with hs | hs
      · exact (min_le_left _ _).trans (by nlinarith)
      · exact (min_le_right _ _).trans (by nlinarith)
  | part n => simp only [MCoord.lowest, Coord.vals] at h; cases h
  | mono vs => exact key vs h
  | arr vs => exact key vs h

theorem isMin_unique {l : List ℚ} {a b : ℚ} (ha : IsMin l a) (hb : IsMin l b) : a = b :=
  le_antisymm (ha.2 b hb.1) (hb.2 a ha.1)

theorem ordered_of {dim : String} {ps : List (PatchM α)} (hs : ∀ p ∈ ps, SoundM p) (h : InMinOrder dim ps) :
    (ps.map PatchM.cm).Pairwise fun m n => ∀ a b, ((m.ents.get? dim).bind fun c => c.2.lowest) = some a →
      ((n.ents.get? dim).bind fun c => c.2.lowest) = some b → a ≤ b := by
  rw [List.pairwise_map]
  have key : ∀ p ∈ ps, ∀ a, ((p.cm.ents.get? dim).bind fun c => c.2.lowest) = some a → IsMin (labelsAlong dim p) a := by
    intro p hp a ha
    unfold labelsAlong
    cases hg : p.cm.ents.get? dim with
    | none => rw [hg] at ha; cases ha
    | some v =>
      obtain ⟨ds, c⟩ := v
      rw [hg] at ha
      cases c with
      | nd _ => cases ha
      | one k c => exact lowest_isMin ((hs p hp).reg.classes _ _ _ _ (Dict.mem_of_get? hg)) ha
  refine h.imp_of_mem fun {p q} hp hq => ?_
  rintro ⟨a, b, h1, h2, h3⟩ a' b' ha hb
  rw [isMin_unique (key p hp a' ha) h1, isMin_unique (key q hq b' hb) h2]
  exact h3

/-- Every patch's own coordinate, among those joined. -/
theorem own_members {dim : String} {dims : List String} {ps : List (PatchM α)} (hs : ∀ p ∈ ps, SoundM p) (hdims : ∀ p ∈ ps, p.cm.dims = dims) (hdim : dim ∈ dims)
    {cs : List MCoord} (hcs : ((ps.map PatchM.cm).mapM fun m => coordOf m dim) = .ok cs) (hone : ∀ c ∈ cs, ∃ k x, c = .one k x) :
    cs.length = ps.length ∧ ∀ (j : ℕ) r, ps[j]? = some r → ∃ kr cr, cs[j]? = some (.one kr cr) ∧ r.cm.ents.get? dim = some ([dim], .one kr cr) ∧ cr.Wf ∧
        lenDim r.cm dim = cr.length := by
  have hF := mapM_forall₂ hcs
  have hl := hF.length_eq
  rw [List.length_map] at hl
  refine ⟨hl.symm, fun j r hj => ?_⟩
  have hrg := List.mem_of_getElem? hj
  obtain ⟨hj1, hj2⟩ := List.getElem?_eq_some_iff.1 hj
  have hcj : coordOf r.cm dim = .ok cs[j] := by
    have := hF.get (i := j) (by simpa using hj1) (by omega)
    simpa [hj2] using this
  obtain ⟨kr, cr, hcr⟩ := hone cs[j] (List.getElem_mem _)
  rw [hcr] at hcj
  obtain ⟨g1, g2⟩ := coord_at (hs r hrg).reg (by rw [hdims r hrg]; exact hdim) hcj
  refine ⟨kr, cr, ?_, g1, (hs r hrg).reg.classes _ _ _ _ (Dict.mem_of_get? g1), g2⟩
  rw [List.getElem?_eq_getElem (by omega), hcr]

theorem joined_vals {dim : String} {dims : List String} {ps : List (PatchM α)} (hs : ∀ p ∈ ps, SoundM p) (hdims : ∀ p ∈ ps, p.cm.dims = dims) (hdim : dim ∈ dims)
    {cs : List MCoord} (hcs : ((ps.map PatchM.cm).mapM fun m => coordOf m dim) = .ok cs) (hone : ∀ c ∈ cs, ∃ k x, c = .one k x) :
    cs.flatMap vals1 = joinedLabels dim ps := by
  obtain ⟨hl, hmem⟩ := own_members hs hdims hdim hcs hone
  unfold joinedLabels
  rw [List.flatMap_def, List.flatMap_def]
  congr 1
  apply List.ext_getElem?
  intro j
  rw [List.getElem?_map, List.getElem?_map]
  cases hj : ps[j]? with
  | none =>
    rw [List.getElem?_eq_none_iff] at hj
    rw [List.getElem?_eq_none (by omega)]; rfl
  | some r =>
    obtain ⟨kr, cr, h1, h2, _⟩ := hmem j r hj
    rw [h1]
    simp only [Option.map_some, labelsAlong, h2, vals1]

theorem ownLabels_of {dim : String} {dims : List String} {ps : List (PatchM α)} (hs : ∀ p ∈ ps, SoundM p) (hdims : ∀ p ∈ ps, p.cm.dims = dims) (hdim : dim ∈ dims)
    {cs : List MCoord} (hcs : ((ps.map PatchM.cm).mapM fun m => coordOf m dim) = .ok cs) (hone : ∀ c ∈ cs, ∃ k x, c = .one k x)
    {cm : CM} {data : Nd α} (hcmd : cm.dims = dims) {k : Kind} {y : Coord} (hx2 : cm.ents.get? dim = some ([dim], .one k y)) (hy : y.labels = cs.flatMap labels1) :
    OwnLabels dim ps ⟨cm, data⟩ := by
  obtain ⟨hl, hmem⟩ := own_members hs hdims hdim hcs hone
  have hlabs : ps.map (fun r => lenDim r.cm dim) = cs.map fun c => (labels1 c).length := by
    apply List.ext_getElem?
    intro j
    rw [List.getElem?_map, List.getElem?_map]
    cases hj : ps[j]? with
    | none =>
      rw [List.getElem?_eq_none_iff] at hj
      rw [List.getElem?_eq_none (by omega)]; rfl
    | some r =>
      obtain ⟨kr, cr, h1, h2, h3, h4⟩ := hmem j r hj
      rw [h1]
      simp only [Option.map_some, labels1, labels_length h3, h4]
  intro j r hj i hi
  have hrg := List.mem_of_getElem? hj
  obtain ⟨kr, cr, h1, h2, h3, h4⟩ := hmem j r hj
  have hil : i.length = dims.length := by
    have := inRange_length hi
    rw [(hs r hrg).shape_eq, hdims r hrg] at this
    simpa using this
  unfold label
  simp only [hx2, h2]
  congr 1
  unfold labelAt
  simp only [MCoord.arr, List.map_cons, List.map_nil, List.getD_cons_zero]
  rw [hcmd, moved_getD hdim hil, if_pos rfl, hdims r hrg, hy]
  have hpos : i.getD (dims.idxOf dim) 0 < (labels1 (.one kr cr)).length := by
    have h5 := (inRange_iff.1 hi).2 (dims.idxOf dim) (by rw [(hs r hrg).shape_eq, hdims r hrg]; simpa using List.idxOf_lt_length_of_mem hdim)
    rw [(hs r hrg).shape_eq, hdims r hrg, getD_map_len hdim, h4] at h5
    simpa [labels1, labels_length h3] using h5
  have hb : samplesBefore dim ps j = ((cs.take j).map fun c => (labels1 c).length).sum := by
    unfold samplesBefore
    rw [List.map_take, hlabs, List.map_take]
  have hfm := flatMap_at (f := labels1) h1 hpos
  rw [← hb] at hfm
  rw [List.getD_eq_getElem?_getD (l := List.flatMap labels1 cs), hfm, ← List.getD_eq_getElem?_getD]
  rfl

/-! ### Snapping -/

/-- The coordinate made of ascending labels is evenly sampled already, or holds them as they are. -/
theorem ascending_canon {k : Kind} {d : Coord} {x : MCoord} (hnr : ∀ r, d ≠ .range r) (ha : d.vals.Pairwise (· < ·)) (h2 : 2 ≤ d.vals.length)
    (h : (MCoord.one k d).canon = .ok x) :
    x = .one k (.mono d.vals) ∨ ∃ s, 0 < s ∧ x = .one k (.range ⟨d.vals.getD 0 0, d.vals.getD 0 0 + s * d.vals.length, s, d.vals.length⟩) := by
  have key : ∀ vs : List ℚ, vs.Pairwise (· < ·) → 2 ≤ vs.length → (getCoordData k vs).map (MCoord.one k) = .ok x →
      x = .one k (.mono vs) ∨ ∃ s, 0 < s ∧ x = .one k (.range ⟨vs.getD 0 0, vs.getD 0 0 + s * vs.length, s, vs.length⟩) := by
    intro vs ha h2 h
    obtain ⟨c, h3, rfl⟩ := except_map_ok h
    rcases getCoordData_cases k h2 none with ⟨_, h5⟩ | ⟨h4, _⟩ | ⟨_, _, s, h5, h4 | ⟨_, h4⟩⟩
    · exact absurd (Or.inl ha) h5
    · rw [h4] at h3; cases h3; exact Or.inl rfl
    · rw [h4] at h3; cases h3
      exact Or.inr ⟨s, (diff_sign h5).1 ha, rfl⟩
    · rw [h4] at h3; cases h3
  cases d with
  | range r => exact absurd rfl (hnr r)
  | part n => simp [Coord.vals] at h2
  | mono vs => exact key vs ha h2 h
  | arr vs => exact key vs ha h2 h

theorem snap_even {k : Kind} {l : List ℚ} (h2 : 2 ≤ l.length) (ha : l.Pairwise (· < ·)) {c : Coord} (h : ArrCoord.snap k false l = .ok c) :
    ∃ s, 0 < s ∧ c = .range ⟨l.getD 0 0, l.getD 0 0 + s * l.length, s, l.length⟩ := by
  have hlne : l ≠ [] := by rintro rfl; simp at h2
  have hmin : l.foldl min (l.getD 0 0) = l.getD 0 0 := by
    refine isMin_unique (foldl_min_isMin hlne) ?_
    cases l with
    | nil => exact absurd rfl hlne
    | cons a r =>
      rw [List.pairwise_cons] at ha
      refine ⟨by simp, fun x hx => ?_⟩
      rcases List.mem_cons.1 hx with rfl | hx
      · simp
      · simpa using (ha.1 x hx).le
  unfold ArrCoord.snap at h
  have hlen1 : l.length ≠ 1 := by omega
  simp only [hmin, hlen1, if_false, hlne, ne_eq, not_false_eq_true, true_and, bind, Except.bind, Bool.false_eq_true] at h
  generalize hs : (if k = Kind.time then ((rint ((l.foldl max (l.getD 0 0) - l.getD 0 0) / ((l.length : ℚ) - 1)) : ℤ) : ℚ) else
    (l.foldl max (l.getD 0 0) - l.getD 0 0) / ((l.length : ℚ) - 1)) = s at h
  split at h
  · cases h
  rename_i hpos
  push Not at hpos
  split at h
  · cases h
  rename_i r hr
  have hv := mkRange_valid hpos.ne' hr
  rw [mkRange_eq _ _ _ hpos.ne'] at hr
  simp only at hr
  split at hr
  · cases hr
    rcases changeLength_cases hv (decide (k = .time)) (n := l.length) (by omega) with h3 | ⟨_, _, h3⟩
    · rw [h3] at h; cases h
      exact ⟨s, hpos, rfl⟩
    · rw [h3] at h; cases h
  · cases hr

theorem snapCM_ascending {argsort : List ℚ → List ℕ} {m m' : CM} (hw : WellFormed m) {dim : String} {k : Kind} {l : List ℚ} (h2 : 2 ≤ l.length) (ha : l.Pairwise (· < ·))
    (hx : m.ents.get? dim = some ([dim], .one k (.mono l)) ∨
      ∃ s, 0 < s ∧ m.ents.get? dim = some ([dim], .one k (.range ⟨l.getD 0 0, l.getD 0 0 + s * l.length, s, l.length⟩)))
    (h : m.snap argsort dim = .ok m') :
    WellFormed m' ∧ m'.dims = m.dims ∧ (∀ name, name ≠ dim → m'.ents.get? name = m.ents.get? name) ∧
    (∃ s, 0 < s ∧ m'.ents.get? dim = some ([dim], .one k (.range ⟨l.getD 0 0, l.getD 0 0 + s * l.length, s, l.length⟩))) ∧
    (∀ r, m.ents.get? dim = some ([dim], .one k (.range r)) → m'.ents.get? dim = m.ents.get? dim) := by
  have hmono : MonoCoord.isSorted l = true ∧ MonoCoord.isReverse l = false := by
    match l, h2, ha with
    | a :: b :: r, _, ha =>
      constructor
      · unfold MonoCoord.isSorted
        have : a < b := (List.pairwise_cons.1 ha).1 b (by simp)
        simp [this]
      · unfold MonoCoord.isReverse
        rw [← Bool.not_eq_true, List.any_eq_true]
        rintro ⟨⟨u, v⟩, h1, h2⟩
        simp only [decide_eq_true_iff] at h2
        obtain ⟨i, hi⟩ := List.mem_iff_getElem?.1 h1
        rw [List.getElem?_zip_eq_some] at hi
        obtain ⟨h3, h4⟩ := hi
        rw [List.getElem?_tail] at h4
        obtain ⟨p1, p2⟩ := List.getElem?_eq_some_iff.1 h3
        obtain ⟨q1, q2⟩ := List.getElem?_eq_some_iff.1 h4
        have := List.pairwise_iff_getElem.1 ha i (i + 1) p1 q1 (by omega)
        simp only at p2 q2
        rw [p2, q2] at this
        linarith
  have hsort : m.needsSort false dim = false := by
    unfold CM.needsSort
    rcases hx with hx | ⟨s, hs, hx⟩
    · rw [hx]; simp [CM.isSortedAs, Coord.isSorted, hmono.1]
    · rw [hx]; simp [CM.isSortedAs, Coord.isSorted, RangeCoord.sorted, hs.le]
  simp only [CM.snap, CM.sortCM, bind, Except.bind, List.isEmpty_cons, Bool.false_eq_true, if_false] at h
  cases hv : CM.sortValid m [dim] with
  | error e => rw [hv] at h; cases h
  | ok u =>
    rw [hv] at h
    have hf : [dim].filter (m.needsSort false) = [] := by simp [hsort]
    simp only [hf, List.isEmpty_nil, if_true, pure, Except.pure] at h
    have fin : ∀ {c c' : MCoord}, m.ents.get? dim = some ([dim], c) → CM.mk? m.dims (Dict.set m.ents dim ([dim], c')) = .ok m' →
        WellFormed m' ∧ m'.dims = m.dims ∧ (∀ name, name ≠ dim → m'.ents.get? name = m.ents.get? name) ∧ m'.ents.get? dim = some ([dim], c') := by
      intro c c' hc hmk
      have hwf := CM.mk?_wf hmk (Dict.nodup_set hw.names _ _)
      obtain ⟨rfl, _⟩ := CM.mk?_ok hmk
      refine ⟨hwf, rfl, fun name hne => ?_, ?_⟩
      · show Dict.get? (Dict.set m.ents dim _) name = _
        rw [Dict.get?_set, if_neg hne]
      · show Dict.get? (Dict.set m.ents dim _) dim = _
        rw [Dict.get?_set, if_pos rfl]
    rcases hx with hx | ⟨s, hs, hx⟩
    · rw [hx] at h
      simp only [snapCoord, Coord.isReverse, hmono.2] at h
      split at h
      · cases h
      rename_i c' hc'
      obtain ⟨c2, h3, rfl⟩ := except_map_ok hc'
      obtain ⟨s, hs, rfl⟩ := snap_even h2 ha h3
      obtain ⟨g1, g2, g3, g4⟩ := fin hx h
      refine ⟨g1, g2, g3, ⟨s, hs, g4⟩, fun r hr => ?_⟩
      rw [hx] at hr; cases hr
    · rw [hx] at h
      simp only [snapCoord] at h
      obtain ⟨g1, g2, g3, g4⟩ := fin hx h
      refine ⟨g1, g2, g3, ⟨s, hs, g4⟩, fun r hr => ?_⟩
      rw [hx, g4]

end Verif
