import Verif.Proof.PatchAttrs
/-! # Lemmas: one attribute is given -/
namespace Verif
open Spec

variable {ν α : Type}

theorem filter_update_pop {β : Type} (g : String → Bool) (d e : Dict β) (h : ∀ k ∈ e.keys, g k = false) :
    (d.update e).filter (fun x => g x.1) = d.filter fun x => g x.1 := by
  unfold Dict.update
  induction e generalizing d with
  | nil => rfl
  | cons p e ih =>
    rw [List.foldl_cons, ih _ fun k hk => h k (by rw [show Dict.keys (p :: e) = p.1 :: Dict.keys e from rfl]; exact List.mem_cons_of_mem _ hk)]
    have hp : g p.1 = false := h p.1 (by rw [show Dict.keys (p :: e) = p.1 :: Dict.keys e from rfl]; exact List.mem_cons_self)
    unfold Dict.set
    split_ifs
    · rw [List.filter_map]
      have h1 : ((fun x : String × β => g x.1) ∘ fun q => if (q.1 == p.1) = true then (p.1, p.2) else q) = fun x => g x.1 := by
        funext q
        simp only [Function.comp]
        split_ifs with hq
        · rw [beq_iff_eq] at hq; simp only [hq]
        · rfl
      rw [h1]
      conv_rhs => rw [← List.map_id (d.filter fun x => g x.1)]
      apply List.map_congr_left
      intro q hq
      rw [if_neg]
      · rfl
      · rw [beq_iff_eq]
        intro he
        have := (List.mem_filter.1 hq).2
        rw [he, hp] at this
        cases this
    · rw [List.filter_append]
      simp [hp]

theorem filter_all {β : Type} {g : String → Bool} {d : Dict β} (h : ∀ k ∈ d.keys, g k = true) : d.filter (fun x => g x.1) = d :=
  List.filter_eq_self.2 fun x hx => h x.1 (List.mem_map.2 ⟨x, hx, rfl⟩)

/-- Attributes that say nothing about the coordinates, and the summaries of these. -/
theorem build_exact {pl : Dict (AttrVal ν)} {units : Dict ν} {m : CM} (hne : m.dims ≠ []) (hfree : ∃ d ∈ m.dims, d ∉ pl.keys)
    (htop : ∀ d ∈ m.dims, topLevel pl d = []) :
    Attrs.build ⟨pl, m.dims, m.summaries units⟩ = .ok ⟨pl.filter fun e => !popped (m.summaries units) e.1, m.dims, m.summaries units⟩ := by
  have hu := usedDims_given (req := ["min", "max"]) (obj := (⟨pl, m.dims, m.summaries units⟩ : Attrs ν)) rfl hne
  obtain ⟨⟨info, rest⟩, hs⟩ := separate_some (obj := (⟨pl, m.dims, m.summaries units⟩ : Attrs ν)) (dims := m.dims) (req := ["min", "max"]) (by rw [hu]; exact hfree)
  have hb : Attrs.build (⟨pl, m.dims, m.summaries units⟩ : Attrs ν) =
      .ok ⟨rest.plain, if rest.dims ≠ [] then rest.dims else info.keys, info.map fun e => (e.1, castSummary e.2)⟩ := by
    unfold Attrs.build
    rw [hs]
  have hd := build_dims hb hne
  obtain ⟨h1, h2⟩ := build_summaries hb hd (by
    intro d hdm
    rw [htop d hdm]
    exact Or.inl (by simp [Dict.keys]))
  rw [hb]
  simp only at hd h1 h2
  rw [hd, h1, h2]

theorem popped_false {units : Dict ν} {m : CM} {key : String} (h : NoField m key) : popped (m.summaries units) key = false := by
  rw [← Bool.not_eq_true, popped_summaries_iff]
  rintro ⟨name, h1, h2⟩
  exact h name h1 h2

/-- The end of `update_attrs`. -/
theorem update_core [DecidableEq ν] {all : List String} (hall : ∀ d ∈ all, '_' ∉ d.toList) {m : CM} {data : Nd α} {units : Dict ν} (hm : CoordsFrom all m) {obj rest : Attrs ν}
    {info : Dict (CoordInfo ν)} {ents : Ents} (hs : separateCoordInfo obj m.dims [] = some (info, rest))
    (he : m.ents.mapM (updateEntry units info) = .ok ents) (hc : CM.mk? m.dims ents = .ok ⟨m.dims, ents⟩)
    (hP : ∀ key ∈ rest.plain.keys, SilentOn all key ∧ NoField m key)
    (hback : ∀ key ∈ (putBack m.dims info).keys, ∃ name ∈ m.ents.keys, name ∉ m.dims ∧ ∃ f ∈ coordFields, key = name ++ "_" ++ f)
    (hfree : ∃ d ∈ m.dims, d ∉ rest.plain.keys) (hsh : (⟨m.dims, ents⟩ : CM).shape = data.shape) :
    (do let r ← m.updateFromAttrs units obj; LPatch.make data r.1 r.2 units) =
      .ok ⟨⟨m.dims, ents⟩, data, ⟨rest.plain, m.dims, (⟨m.dims, ents⟩ : CM).summaries units⟩, units⟩ := by
  have hk : Dict.keys ents = m.ents.keys := entries_names he
  have hkeys : (⟨m.dims, ents⟩ : CM).ents.keys = m.ents.keys := hk
  have htop2 : ∀ d ∈ m.dims, topLevel rest.plain d = [] := fun d hd => silent_top (fun key hk => (hP key hk).1) (hm.dims d hd)
  have htop1 : ∀ d ∈ m.dims, topLevel (rest.plain.update (putBack m.dims info)) d = [] := by
    intro d hd
    apply topLevel_nil
    intro key hkey hl
    rcases (Dict.mem_keys_update _ _ _).1 hkey with h1 | h1
    · exact (hP key h1).1 d (hm.dims d hd) hl
    · obtain ⟨name, h2, h3, f, hf, rfl⟩ := hback key h1
      exact h3 (hm.names name h2 f hf d (hm.dims d hd) hl ▸ hd)
  have hfilt : (rest.plain.filter fun e => !popped ((⟨m.dims, ents⟩ : CM).summaries units) e.1) = rest.plain := by
    apply filter_all (g := fun k => !popped ((⟨m.dims, ents⟩ : CM).summaries units) k)
    intro key hkey
    rw [popped_false]
    · rfl
    · intro name hn
      exact (hP key hkey).2 name (by rw [← hkeys]; exact hn)
  have hpop : ((rest.plain.update (putBack m.dims info)).filter fun e => !popped ((⟨m.dims, ents⟩ : CM).summaries units) e.1) = rest.plain := by
    rw [filter_update_pop (fun k => !popped ((⟨m.dims, ents⟩ : CM).summaries units) k), hfilt]
    intro key hkey
    obtain ⟨name, h2, h3, f, hf, rfl⟩ := hback key hkey
    rw [popped_summaries (by rw [hkeys]; exact h2) (Or.inl ⟨f, hf, rfl⟩)]
    rfl
  have hfree1 : ∃ d ∈ m.dims, d ∉ (rest.plain.update (putBack m.dims info)).keys := by
    obtain ⟨d, hd, hn⟩ := hfree
    refine ⟨d, hd, fun hmem => ?_⟩
    rcases (Dict.mem_keys_update _ _ _).1 hmem with h1 | h1
    · exact hn h1
    · obtain ⟨name, _, _, f, _, h⟩ := hback d h1
      exact hall d (hm.dims d hd) (by rw [h]; simp)
  have h1 : m.updateFromAttrs units obj = .ok (⟨m.dims, ents⟩, ⟨rest.plain, m.dims, (⟨m.dims, ents⟩ : CM).summaries units⟩) := by
    unfold CM.updateFromAttrs
    rw [hs]
    simp only [he, hc, bind, Except.bind]
    rw [build_exact (m := ⟨m.dims, ents⟩) hm.some hfree1 htop1]
    simp only [hpop, pure, Except.pure]
  rw [h1]
  simp only [bind, Except.bind, LPatch.make, Attrs.withCoords]
  rw [build_exact (m := ⟨m.dims, ents⟩) hm.some hfree htop2]
  simp only [hfilt, LPatch.fromParts]
  rw [if_neg (by simp), if_neg (by rw [hsh]; simp)]

theorem infoDiff_self [DecidableEq ν] (units : Dict ν) (name : String) (c : MCoord) : infoDiff (summaryOf units name c) (summaryOf units name c) = [] := by
  unfold infoDiff
  rw [List.filter_eq_nil_iff]
  intro e he
  simp only [decide_eq_true_eq, not_not]
  have : Dict.get? (summaryOf units name c) e.1 = some e.2 := Dict.get?_of_mem (by rw [summary_keys]; decide) he
  rw [this]
  rfl

theorem mapM_ok_map {β γ : Type} {f : β → Except Err γ} {g : β → γ} {l : List β} (h : ∀ x ∈ l, f x = .ok (g x)) : l.mapM f = .ok (l.map g) := by
  induction l with
  | nil => rfl
  | cons a l ih =>
    rw [List.mapM_cons, h a List.mem_cons_self, ih fun x hx => h x (List.mem_cons_of_mem _ hx)]
    rfl

theorem summaries_nonempty (units : Dict ν) (m : CM) : (m.summaries units).filter (fun e => meetsRequired [] e.2.keys) = m.summaries units := by
  apply List.filter_eq_self.2
  intro e he
  obtain ⟨x, _, rfl⟩ := List.mem_map.1 he
  simp only [summary_keys]
  rfl

/-- An attribute that says nothing about coordinates. -/
theorem update_plain [DecidableEq ν] {all : List String} (hall : ∀ d ∈ all, '_' ∉ d.toList) {p : LPatch α ν} (hp : Told all p) {key : String} (v : AttrVal ν)
    (hkey : SilentOn all key ∧ NoField p.cm key) (hplain : ∀ k ∈ p.attrs.plain.keys, NoField p.cm k)
    (hfree : ∃ d ∈ p.cm.dims, d ∉ p.attrs.plain.keys ∧ d ≠ key) :
    p.updateAttrs [(key, v)] = .ok { p with attrs := { p.attrs with plain := p.attrs.plain.set key v } } := by
  have hset : p.attrs.plain.update [(key, v)] = p.attrs.plain.set key v := rfl
  have hP : ∀ k ∈ (p.attrs.plain.set key v).keys, SilentOn all k ∧ NoField p.cm k := by
    intro k hk
    rw [← hset] at hk
    rcases (Dict.mem_keys_update _ _ _).1 hk with h | h
    · exact ⟨hp.silent k h, hplain k h⟩
    · have : k = key := by simpa [Dict.keys] using h
      rw [this]; exact hkey
  have hfree' : ∃ d ∈ p.cm.dims, d ∉ (p.attrs.plain.set key v).keys := by
    obtain ⟨d, hd, h1, h2⟩ := hfree
    refine ⟨d, hd, fun h => ?_⟩
    rw [← hset] at h
    rcases (Dict.mem_keys_update _ _ _).1 h with h | h
    · exact h1 h
    · exact h2 (by simpa [Dict.keys] using h)
  have hpop : ((p.attrs.plain.set key v).filter fun e => !popped (p.cm.summaries p.units) e.1) = p.attrs.plain.set key v := by
    apply filter_all (g := fun k => !popped (p.cm.summaries p.units) k)
    intro k hk
    rw [popped_false (hP k hk).2]
    rfl
  have htop : ∀ d ∈ p.cm.dims, topLevel (p.attrs.plain.set key v) d = [] := fun d hd => silent_top (fun k hk => (hP k hk).1) (hp.cm.dims d hd)
  have hobj : ({ p.attrs with plain := p.attrs.plain.set key v } : Attrs ν) = ⟨p.attrs.plain.set key v, p.cm.dims, p.cm.summaries p.units⟩ := by
    rw [← hp.dims, ← hp.coords]
  unfold LPatch.updateAttrs
  rw [hset, hobj]
  split_ifs with hh
  · rw [build_exact hp.cm.some hfree' htop, hpop]
    rfl
  · have hu := usedDims_given (req := []) (obj := (⟨p.attrs.plain.set key v, p.cm.dims, p.cm.summaries p.units⟩ : Attrs ν)) rfl hp.cm.some
    obtain ⟨⟨info, rest⟩, hs⟩ := separate_some (obj := (⟨p.attrs.plain.set key v, p.cm.dims, p.cm.summaries p.units⟩ : Attrs ν)) (dims := p.cm.dims) (req := [])
      (by rw [hu]; exact hfree')
    obtain ⟨h1, h2⟩ := separate_ok hs
    have hinfo : info = p.cm.summaries p.units := by
      rw [h1, summaries_nonempty]
      apply addTopLevel_same
      intro d hd
      rw [hu] at hd
      rw [htop d hd]
      rfl
    have hrest : rest.plain = p.attrs.plain.set key v := by
      rw [h2, hinfo]; exact hpop
    have he : p.cm.ents.mapM (updateEntry p.units info) = .ok p.cm.ents := by
      have := mapM_ok_map (f := updateEntry p.units info) (g := id) (l := p.cm.ents) (by
        intro e hmem
        unfold updateEntry
        rw [hinfo, get?_summaries, Dict.get?_of_mem hp.cm.wf.names hmem]
        simp only [Option.map_some, infoDiff_self]
        rfl)
      rw [List.map_id] at this
      exact this
    have hcm : (⟨p.cm.dims, p.cm.ents⟩ : CM) = p.cm := rfl
    have := update_core (data := p.data) hall hp.cm hs he (CM.WellFormed.valid hp.cm.wf) (by rw [hrest]; exact hP) (by
      intro k hk
      obtain ⟨e, he, hn, f, hf, rfl⟩ := mem_putBack hk
      rw [hinfo] at he
      obtain ⟨x, hx, rfl⟩ := List.mem_map.1 he
      exact ⟨x.1, List.mem_map.2 ⟨x, hx, rfl⟩, hn, f, hf, rfl⟩) (by rw [hrest]; exact hfree') hp.shape
    rw [this, hrest]

/-! ### A field of a dimension -/

/-- The coordinates with that of `d` replaced. -/
def withCoord (e : Ents) (d : String) (c : MCoord) : Ents := e.map fun x => (x.1, if x.1 = d then (x.2.1, c) else x.2)

theorem get?_withCoord (e : Ents) (d : String) (c : MCoord) (n : String) :
    (withCoord e d c).get? n = (e.get? n).map fun x => if n = d then (x.1, c) else x :=
  Dict.get?_map_val e (fun n x => if n = d then (x.1, c) else x) n

theorem withCoord_lenOf {e : Ents} {d : String} {c c' : MCoord} {ds : List String} (hg : e.get? d = some (ds, c)) (hs : c'.len = c.len) (n : String) :
    Ents.lenOf (withCoord e d c') n = e.lenOf n := by
  unfold Ents.lenOf
  rw [get?_withCoord]
  cases hn : e.get? n with
  | none => rfl
  | some x =>
    simp only [Option.map_some]
    split_ifs with h
    · subst h
      rw [hg] at hn
      cases hn
      exact hs
    · rfl

theorem withCoord_mk {m : CM} (hw : WellFormed m) {d : String} {c c' : MCoord} (hg : m.ents.get? d = some ([d], c)) (hs : c'.shape = c.shape) (hl : c'.len = c.len) :
    CM.mk? m.dims (withCoord m.ents d c') = .ok ⟨m.dims, withCoord m.ents d c'⟩ := by
  obtain ⟨_, h1, h2⟩ := CM.mk?_ok (CM.WellFormed.valid hw)
  apply CM.mk?_of
  · intro n hn
    obtain ⟨x, hx⟩ := h1 n hn
    rw [get?_withCoord, hx]
    simp only [Option.map_some]
    split_ifs
    · exact ⟨_, rfl⟩
    · exact ⟨_, rfl⟩
  · intro p hp
    obtain ⟨x, hx, rfl⟩ := List.mem_map.1 hp
    have := h2 x hx
    have hlen : Ents.lenOf (withCoord m.ents d c') = Ents.lenOf m.ents := funext (withCoord_lenOf hg hl)
    rw [hlen]
    simp only
    split_ifs with h
    · have hxd := Dict.get?_of_mem hw.names hx
      rw [h, hg] at hxd
      simp only [Option.some.injEq] at hxd
      rw [← hxd] at this ⊢
      exact ⟨this.1, this.2.imp id fun h3 => h3.trans hs.symm⟩
    · exact this

theorem withCoord_shape {m : CM} {d : String} {c c' : MCoord} {ds : List String} (hg : m.ents.get? d = some (ds, c)) (hl : c'.len = c.len) :
    (⟨m.dims, withCoord m.ents d c'⟩ : CM).shape = m.shape := by
  unfold CM.shape
  rw [show Ents.lenOf (⟨m.dims, withCoord m.ents d c'⟩ : CM).ents = Ents.lenOf m.ents from funext (withCoord_lenOf hg hl)]

/-- One field of the coordinate of a dimension is given. -/
theorem update_field [DecidableEq ν] {all : List String} (hall : ∀ d ∈ all, '_' ∉ d.toList) {p : LPatch α ν} (hp : Told all p) {d f : String} (v : AttrVal ν)
    (hd : d ∈ p.cm.dims) (hf : f ∈ coordFields) (hplain : ∀ k ∈ p.attrs.plain.keys, NoField p.cm k) (hfree : ∃ d ∈ p.cm.dims, d ∉ p.attrs.plain.keys)
    {c c' : MCoord} (hg : p.cm.ents.get? d = some ([d], c)) (hs : c'.shape = c.shape) (hl : c'.len = c.len)
    (hc : if (summaryOf p.units d c).get? f = some v then c' = c else c.updateInfo [(f, v)] = .ok c') :
    p.updateAttrs [(d ++ "_" ++ f, v)] =
      .ok { p with cm := ⟨p.cm.dims, withCoord p.cm.ents d c'⟩,
                   attrs := ⟨p.attrs.plain, p.cm.dims, (⟨p.cm.dims, withCoord p.cm.ents d c'⟩ : CM).summaries p.units⟩ } := by
  have hda := hall d (hp.cm.dims d hd)
  have hlook : isCoordStr d (d ++ "_" ++ f) = true := looks_field hf
  have hout : d ++ "_" ++ f ∉ p.attrs.plain.keys := fun h => hp.silent _ h d (hp.cm.dims d hd) (Or.inl (isCoordStr_iff.1 hlook))
  have hset : p.attrs.plain.update [(d ++ "_" ++ f, v)] = p.attrs.plain ++ [(d ++ "_" ++ f, v)] := by
    change p.attrs.plain.set _ v = _
    unfold Dict.set
    rw [if_neg]
    rw [List.any_eq_true]
    rintro ⟨x, hx, hxe⟩
    rw [beq_iff_eq] at hxe
    exact hout (List.mem_map.2 ⟨x, hx, hxe⟩)
  have hkeys : ∀ k, k ∈ Dict.keys (p.attrs.plain ++ [(d ++ "_" ++ f, v)]) ↔ k ∈ p.attrs.plain.keys ∨ k = d ++ "_" ++ f := by
    intro k
    simp [Dict.keys]
  have htop : topLevel (p.attrs.plain ++ [(d ++ "_" ++ f, v)]) d = [(f, v)] := by
    have h1 : (p.attrs.plain ++ [(d ++ "_" ++ f, v)]).filter (fun e => isCoordStr d e.1) = [(d ++ "_" ++ f, v)] := by
      rw [List.filter_append]
      have h2 : p.attrs.plain.filter (fun e => isCoordStr d e.1) = [] := by
        rw [List.filter_eq_nil_iff]
        intro e he hl
        exact hp.silent e.1 (List.mem_map.2 ⟨e, he, rfl⟩) d (hp.cm.dims d hd) (Or.inl (isCoordStr_iff.1 hl))
      rw [h2]
      simp [hlook]
    have h3 : Dict.get? (p.attrs.plain ++ [(d ++ "_" ++ f, v)]) ("d_" ++ d) = none := by
      rw [Dict.get?_eq_none, hkeys]
      rintro (h | h)
      · exact hp.silent _ h d (hp.cm.dims d hd) (Or.inr rfl)
      · rw [← h, not_coordStr_old] at hlook; cases hlook
    unfold topLevel
    simp only [h1, h3, List.map_cons, List.map_nil, (parts_field hda hf).2]
    rfl
  have htop' : ∀ n ∈ p.cm.dims, n ≠ d → topLevel (p.attrs.plain ++ [(d ++ "_" ++ f, v)]) n = [] := by
    intro n hn hne
    apply topLevel_nil
    intro k hk hlk
    rcases (hkeys k).1 hk with h | rfl
    · exact hp.silent k h n (hp.cm.dims n hn) hlk
    · exact hne (hp.cm.names d (Dict.mem_keys.2 ⟨_, hg⟩) f hf n (hp.cm.dims n hn) hlk).symm
  have hobj : ({ p.attrs with plain := p.attrs.plain ++ [(d ++ "_" ++ f, v)] } : Attrs ν) =
      ⟨p.attrs.plain ++ [(d ++ "_" ++ f, v)], p.cm.dims, p.cm.summaries p.units⟩ := by
    rw [← hp.dims, ← hp.coords]
  have hfree' : ∃ n ∈ p.cm.dims, n ∉ Dict.keys (p.attrs.plain ++ [(d ++ "_" ++ f, v)]) := by
    obtain ⟨n, hn, h1⟩ := hfree
    refine ⟨n, hn, fun h => ?_⟩
    rcases (hkeys n).1 h with h | h
    · exact h1 h
    · exact hall n (hp.cm.dims n hn) (by rw [h]; simp)
  unfold LPatch.updateAttrs
  rw [hset, hobj, if_neg]
  swap
  · intro h
    have h : d ++ "_" ++ f = "history" := by simpa [Dict.keys] using h
    have h1 : '_' ∈ ("history" : String).toList := by rw [← h]; simp
    exact absurd h1 (by decide)
  have hu := usedDims_given (req := []) (obj := (⟨p.attrs.plain ++ [(d ++ "_" ++ f, v)], p.cm.dims, p.cm.summaries p.units⟩ : Attrs ν)) rfl hp.cm.some
  obtain ⟨⟨info, rest⟩, hsep⟩ := separate_some (obj := (⟨p.attrs.plain ++ [(d ++ "_" ++ f, v)], p.cm.dims, p.cm.summaries p.units⟩ : Attrs ν)) (dims := p.cm.dims) (req := [])
    (by rw [hu]; exact hfree')
  obtain ⟨h1, h2⟩ := separate_ok hsep
  rw [hu] at h1
  simp only [summaries_nonempty] at h1
  have hget : ∀ n, info.get? n = if n = d then some [(f, v)] else (p.cm.summaries p.units).get? n := by
    intro n
    rw [h1, get?_addTopLevel]
    by_cases hn : n = d
    · subst hn
      rw [htop, if_pos rfl, if_pos]
      exact ⟨hd, rfl⟩
    · rw [if_neg hn, if_neg]
      rintro ⟨h3, h4⟩
      rw [htop' n h3 hn] at h4
      cases h4
  have hinfo : ∀ e ∈ info, (e.1 ∈ p.cm.ents.keys) ∧ (e.1 ∉ p.cm.dims → ∀ g ∈ e.2.keys, g ∈ coordFields) := by
    intro e he
    rw [h1] at he
    rcases addTopLevel_mem he with h3 | h3
    · obtain ⟨x, hx, rfl⟩ := List.mem_map.1 h3
      exact ⟨List.mem_map.2 ⟨x, hx, rfl⟩, fun _ g hg => hg⟩
    · obtain ⟨x, _, hx, _⟩ := CM.WellFormed.get_dim hp.cm.wf h3
      exact ⟨Dict.mem_keys.2 ⟨_, hx⟩, fun hn => absurd h3 hn⟩
  have hpopd : popped info (d ++ "_" ++ f) = true := by
    rw [popped_iff]
    refine ⟨(d, [(f, v)]), Dict.mem_of_get? (by rw [hget, if_pos rfl]), Or.inl ⟨f, by simp [Dict.keys], rfl⟩⟩
  have hpopn : ∀ k ∈ p.attrs.plain.keys, popped info k = false := by
    intro k hk
    rw [← Bool.not_eq_true, popped_iff]
    rintro ⟨e, he, h⟩
    have hname := (hinfo e he).1
    rcases h with ⟨g, hg', rfl⟩ | ⟨_, rfl⟩
    · by_cases hed : e.1 ∈ p.cm.dims
      · rw [h1] at he
        have hgf : g ∈ coordFields := by
          have hnd : (Dict.keys info).Nodup := by
            rw [h1]
            have hbase : (p.cm.summaries p.units).keys.Nodup := by rw [keys_summaries]; exact hp.cm.wf.names
            generalize p.cm.dims = l
            generalize p.cm.summaries p.units = out at hbase
            induction l generalizing out with
            | nil => exact hbase
            | cons a l ih =>
              rw [List.foldl_cons]
              apply ih
              unfold addTopLevel
              split_ifs
              · exact Dict.nodup_set hbase _ _
              · exact hbase
          rw [← h1] at he
          have hget' := Dict.get?_of_mem hnd (k := e.1) (v := e.2) he
          rw [hget] at hget'
          split_ifs at hget'
          · simp only [Option.some.injEq] at hget'
            rw [← hget'] at hg'
            have : g = f := by simpa [Dict.keys] using hg'
            rw [this]; exact hf
          · rw [get?_summaries] at hget'
            cases hx : p.cm.ents.get? e.1 with
            | none => rw [hx] at hget'; cases hget'
            | some x =>
              rw [hx] at hget'
              simp only [Option.map_some, Option.some.injEq] at hget'
              rw [← hget', summary_keys] at hg'
              exact hg'
        exact hplain _ hk e.1 hname (Or.inl ⟨g, hgf, rfl⟩)
      · exact hplain _ hk e.1 hname (Or.inl ⟨g, (hinfo e he).2 hed g hg', rfl⟩)
    · exact hplain _ hk e.1 hname (Or.inr rfl)
  have hrest : rest.plain = p.attrs.plain := by
    rw [h2]
    simp only [List.filter_append]
    rw [filter_all (g := fun k => !popped info k) (fun k hk => by rw [hpopn k hk]; rfl)]
    simp [hpopd]
  have he : p.cm.ents.mapM (updateEntry p.units info) = .ok (withCoord p.cm.ents d c') := by
    apply mapM_ok_map
    intro e hmem
    have hmemg := Dict.get?_of_mem hp.cm.wf.names hmem
    unfold updateEntry
    rw [hget]
    by_cases hn : e.1 = d
    · rw [if_pos hn]
      have hed : e = (d, [d], c) := by
        rw [hn, hg] at hmemg
        simp only [Option.some.injEq] at hmemg
        rw [← hn]
        exact Prod.ext rfl (by rw [← hmemg, hn])
      subst hed
      simp only [if_true]
      by_cases hv : (summaryOf p.units d c).get? f = some v
      · rw [if_pos hv] at hc
        have : infoDiff [(f, v)] (summaryOf p.units d c) = [] := by
          unfold infoDiff
          simp [hv]
        rw [this, hc]
        rfl
      · rw [if_neg hv] at hc
        have : infoDiff [(f, v)] (summaryOf p.units d c) = [(f, v)] := by
          unfold infoDiff
          obtain ⟨w, hw⟩ := Dict.mem_keys.1 (by rw [summary_keys]; exact hf : f ∈ Dict.keys (summaryOf p.units d c))
          rw [hw] at hv
          simp only [Option.some.injEq] at hv
          simp only [List.filter_cons, hw, Option.getD_some, List.filter_nil]
          rw [if_pos (by simpa using fun h : v = w => hv h.symm)]
        rw [this]
        simp only [List.isEmpty_cons, Bool.false_eq_true, if_false, hc]
        rfl
    · rw [if_neg hn, get?_summaries, hmemg]
      simp only [Option.map_some, infoDiff_self, if_neg hn]
      rfl
  have := update_core (data := p.data) hall hp.cm hsep he (withCoord_mk hp.cm.wf hg hs hl) (by
      rw [hrest]
      exact fun k hk => ⟨hp.silent k hk, hplain k hk⟩) (by
      intro k hk
      obtain ⟨e, he, hn, g, hg', rfl⟩ := mem_putBack hk
      exact ⟨e.1, (hinfo e he).1, hn, g, (hinfo e he).2 hn g hg', rfl⟩) (by rw [hrest]; exact hfree) (by rw [withCoord_shape hg hl]; exact hp.shape)
  rw [this, hrest]

end Verif
