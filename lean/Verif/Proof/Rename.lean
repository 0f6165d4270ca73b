import Verif.Proof.Transpose
/-! # Lemmas: renaming -/
namespace Verif
open Spec

theorem renamed_trans {m m₁ m₂ : CM} {ρ σ : String → String} (h₁ : Renamed m m₁ ρ) (h₂ : Renamed m₁ m₂ σ) :
    Renamed m m₂ (σ ∘ ρ) := by
  refine ⟨by rw [h₂.dims, h₁.dims, List.map_map], ?_, ?_⟩
  · intro name ds c h
    have := h₂.ents _ _ _ (h₁.ents _ _ _ h)
    rwa [List.map_map] at this
  · have := h₂.names.trans (h₁.names.map σ)
    rwa [List.map_map] at this

theorem renamed_congr {m m' : CM} {ρ σ : String → String} (h : Renamed m m' ρ) (he : ∀ x ∈ m.ents.map Prod.fst, ρ x = σ x)
    (hd : ∀ d ∈ m.dims, d ∈ m.ents.map Prod.fst) (ha : ∀ name ds c, (name, ds, c) ∈ m.ents → ∀ d ∈ ds, d ∈ m.dims) : Renamed m m' σ := by
  refine ⟨?_, ?_, ?_⟩
  · rw [h.dims]; exact List.map_congr_left fun d hh => he d (hd d hh)
  · intro name ds c hm
    have := h.ents _ _ _ hm
    rwa [he name (List.mem_map.2 ⟨_, hm, rfl⟩), List.map_congr_left fun d hh => he d (hd d (ha _ _ _ hm d hh))] at this
  · rw [← List.map_congr_left he]; exact h.names

/-- Names of dimensions are names of coordinates and attachments are dimensions. -/
structure Named (m : CM) : Prop where
  names : (m.ents.map Prod.fst).Nodup
  own : ∀ d ∈ m.dims, d ∈ m.ents.map Prod.fst
  att : ∀ name ds c, (name, ds, c) ∈ m.ents → ∀ d ∈ ds, d ∈ m.dims
  dims : m.dims.Nodup

theorem renamed_named {m m' : CM} {ρ : String → String} (h : Renamed m m' ρ) (hm : Named m)
    (hinj : ∀ x ∈ m.ents.map Prod.fst, ∀ y ∈ m.ents.map Prod.fst, ρ x = ρ y → x = y) : Named m' := by
  have hn : (m'.ents.map Prod.fst).Nodup := h.names.nodup_iff.2 (List.Nodup.map_on hinj hm.names)
  have back : ∀ name ds c, (name, ds, c) ∈ m'.ents → ∃ n ds', (n, ds', c) ∈ m.ents ∧ ds = ds'.map ρ := by
    intro name ds c hmem
    have : name ∈ (m.ents.map Prod.fst).map ρ := h.names.mem_iff.1 (List.mem_map.2 ⟨_, hmem, rfl⟩)
    obtain ⟨n, hn', rfl⟩ := List.mem_map.1 this
    obtain ⟨⟨n', ds', c'⟩, he, rfl⟩ := List.mem_map.1 hn'
    have h1 := Dict.get?_of_mem hn (h.ents _ _ _ he)
    have h2 := Dict.get?_of_mem hn hmem
    rw [h1] at h2
    cases h2
    exact ⟨n', ds', he, rfl⟩
  refine ⟨hn, ?_, ?_, ?_⟩
  · intro d hd
    rw [h.dims] at hd
    obtain ⟨x, hx, rfl⟩ := List.mem_map.1 hd
    exact h.names.mem_iff.2 (List.mem_map.2 ⟨x, hm.own x hx, rfl⟩)
  · intro name ds c hmem d hd
    obtain ⟨n, ds', he, rfl⟩ := back name ds c hmem
    obtain ⟨x, hx, rfl⟩ := List.mem_map.1 hd
    rw [h.dims]
    exact List.mem_map.2 ⟨x, hm.att _ _ _ he x hx, rfl⟩
  · rw [h.dims]
    exact List.Nodup.map_on (fun x hx y hy => hinj x (hm.own x hx) y (hm.own y hy)) hm.dims

/-- The renaming of one name. -/
def swapName (o n x : String) : String := if x = o then n else x

theorem set_idxOf_eq {l : List String} (hn : l.Nodup) (o n : String) : l.set (l.idxOf o) n = l.map (swapName o n) := by
  induction l with
  | nil => rfl
  | cons a l ih =>
    rw [List.nodup_cons] at hn
    by_cases h : a = o
    · subst h
      rw [List.idxOf_cons_self, List.set_cons_zero, List.map_cons]
      have : l.map (swapName a n) = l := by
        conv_rhs => rw [← List.map_id l]
        apply List.map_congr_left
        intro x hx
        have : x ≠ a := by rintro rfl; exact hn.1 hx
        simp [swapName, this]
      rw [this]; simp [swapName]
    · rw [List.idxOf_cons_ne l h, List.set_cons_succ, ih hn.2, List.map_cons]
      simp [swapName, h]

theorem map_swap_of_not_mem {l : List String} {o n : String} (h : o ∉ l) : l.map (swapName o n) = l := by
  conv_rhs => rw [← List.map_id l]
  apply List.map_congr_left
  intro x hx
  have : x ≠ o := by rintro rfl; exact h hx
  simp [swapName, this]

theorem renameStep_spec {m : CM} (hm : Named m) {o n : String} (ho : o ∈ m.ents.map Prod.fst) (hne : o ≠ n)
    (hf : n ∉ m.ents.map Prod.fst) : ∃ m', m.renameStep (o, n) = .ok m' ∧ Renamed m m' (swapName o n) := by
  -- the entries after the dimension has been replaced
  have he : (if o ∈ m.dims then
        m.ents.map fun q => (q.1, q.2.1.map fun d => if d = o then n else d, q.2.2)
      else m.ents) = m.ents.map fun q => (q.1, q.2.1.map (swapName o n), q.2.2) := by
    by_cases h : o ∈ m.dims
    · rw [if_pos h]; rfl
    · rw [if_neg h]
      conv_lhs => rw [← List.map_id m.ents]
      apply List.map_congr_left
      rintro ⟨name, ds, c⟩ hq
      simp only [id]
      rw [map_swap_of_not_mem fun hh => h (hm.att _ _ _ hq o hh)]
  have hd : (if o ∈ m.dims then m.dims.set (m.dims.idxOf o) n else m.dims) = m.dims.map (swapName o n) := by
    by_cases h : o ∈ m.dims
    · rw [if_pos h, set_idxOf_eq hm.dims]
    · rw [if_neg h, map_swap_of_not_mem h]
  obtain ⟨⟨ds, c⟩, hoc⟩ := Dict.mem_keys.1 (show o ∈ Dict.keys m.ents from ho)
  generalize hE : (m.ents.map fun q => (q.1, q.2.1.map (swapName o n), q.2.2) : Ents) = E at he
  have hget : ∀ k, Dict.get? E k = (Dict.get? m.ents k).map fun q => (q.1.map (swapName o n), q.2) := by
    intro k; rw [← hE]; exact Dict.get?_map_val m.ents (fun _ q => (q.1.map (swapName o n), q.2)) k
  have hkeys : Dict.keys E = Dict.keys m.ents := by
    rw [← hE]; exact Dict.keys_map_val m.ents (fun _ q => (q.1.map (swapName o n), q.2))
  have hfk : n ∉ Dict.keys (E.filter fun q => q.1 != o) := by
    intro h
    apply hf
    obtain ⟨q, hq, e⟩ := List.mem_map.1 h
    have : n ∈ Dict.keys E := List.mem_map.2 ⟨q, List.mem_of_mem_filter hq, e⟩
    rw [hkeys] at this; exact this
  refine ⟨⟨m.dims.map (swapName o n), Dict.set (E.filter fun q => q.1 != o) n (ds.map (swapName o n), c)⟩, ?_, ⟨rfl, ?_, ?_⟩⟩
  · unfold CM.renameStep
    rw [if_neg hne]
    simp only [he, hd]
    rw [hget, hoc]
    rfl
  · intro name ds' c' hmem
    have hg := Dict.get?_of_mem hm.names hmem
    apply Dict.mem_of_get?
    rw [Dict.get?_set]
    by_cases hno : name = o
    · subst hno
      rw [hoc] at hg; cases hg
      simp [swapName]
    · have hnn : n ≠ name := by rintro rfl; exact hf (List.mem_map.2 ⟨_, hmem, rfl⟩)
      simp only [swapName, if_neg hno]
      rw [if_neg (by tauto), Dict.get?_filter E (fun k => k != o), hget, hg]
      simp [hno]
  · show (Dict.keys (Dict.set (E.filter fun q => q.1 != o) n _)).Perm ((Dict.keys m.ents).map (swapName o n))
    rw [Dict.keys_set, if_neg hfk]
    have hk2 : Dict.keys (E.filter fun q => q.1 != o) = (Dict.keys m.ents).filter (· != o) := by
      rw [← hkeys]; unfold Dict.keys; rw [List.filter_map]; rfl
    rw [hk2]
    have hnd : (Dict.keys m.ents).Nodup := hm.names
    have ho' : o ∈ Dict.keys m.ents := ho
    clear hk2 hfk hkeys hget hE he hoc
    generalize Dict.keys m.ents = l at hnd ho'
    induction l with
    | nil => simp at ho'
    | cons a l ih =>
      rw [List.nodup_cons] at hnd
      by_cases hao : a = o
      · subst hao
        have h1 : (a :: l).filter (· != a) = l := by
          rw [List.filter_cons_of_neg (by simp), List.filter_eq_self]
          intro x hx
          have : x ≠ a := by rintro rfl; exact hnd.1 hx
          simpa using this
        rw [h1, List.map_cons, map_swap_of_not_mem hnd.1]
        simp only [swapName, if_true]
        exact List.perm_append_singleton n l
      · rw [List.filter_cons_of_pos (by simpa using hao), List.map_cons]
        have : swapName o n a = a := by simp [swapName, hao]
        rw [this, List.cons_append]
        apply List.Perm.cons
        rcases List.mem_cons.1 ho' with h | h
        · exact absurd h.symm hao
        · exact ih hnd.2 h

theorem newName_cons (p : String × String) (kw : List (String × String)) (x : String) :
    newName (p :: kw) x = if p.1 = x then p.2 else newName kw x := by
  unfold newName
  by_cases h : p.1 = x
  · simp [h]
  · simp [h]

theorem newName_not_mem {kw : List (String × String)} {x : String} (h : x ∉ kw.map Prod.fst) : newName kw x = x := by
  unfold newName
  rw [List.find?_eq_none.2]
  · rfl
  · intro p hp
    simp only [beq_iff_eq]
    rintro rfl
    exact h (List.mem_map.2 ⟨p, hp, rfl⟩)

theorem renameFold_spec : ∀ (kw : List (String × String)) (m : CM), Named m → (kw.map Prod.fst).Nodup →
    (kw.map Prod.snd).Nodup → (∀ p ∈ kw, p.1 ∈ m.ents.map Prod.fst ∧ (p.1 ≠ p.2 → p.2 ∉ m.ents.map Prod.fst)) →
    ∃ m', kw.foldlM CM.renameStep m = .ok m' ∧ Renamed m m' (newName kw) ∧ Named m' := by
  intro kw
  induction kw with
  | nil =>
    intro m hm _ _ _
    have this : newName [] = id := rfl
    refine ⟨m, rfl, ⟨?_, ?_, ?_⟩, hm⟩
    · rw [this]; simp
    · intro name ds c h; rw [this]; simpa using h
    · rw [this]; simp
  | cons p kw ih =>
    rintro m hm h1 h2 h3
    obtain ⟨o, n⟩ := p
    rw [List.map_cons, List.nodup_cons] at h1 h2
    obtain ⟨ho, hf⟩ := h3 (o, n) List.mem_cons_self
    rw [List.foldlM_cons]
    by_cases hon : o = n
    · subst hon
      have e : CM.renameStep m (o, o) = .ok m := by unfold CM.renameStep; rw [if_pos rfl]
      rw [e]
      obtain ⟨m', hm', hr, hn'⟩ := ih m hm h1.2 h2.2 fun p hp => h3 p (List.mem_cons_of_mem _ hp)
      refine ⟨m', hm', renamed_congr hr ?_ hm.own hm.att, hn'⟩
      intro x _
      rw [newName_cons]
      split_ifs with hx
      · simp only at hx; subst hx; exact newName_not_mem h1.1
      · rfl
    · obtain ⟨m₁, hm₁, hr₁⟩ := renameStep_spec hm ho hon (hf hon)
      have hinj : ∀ x ∈ m.ents.map Prod.fst, ∀ y ∈ m.ents.map Prod.fst, swapName o n x = swapName o n y → x = y := by
        intro x hx y hy hxy
        unfold swapName at hxy
        split_ifs at hxy with a b b
        · rw [a, b]
        · subst hxy; exact absurd hy (hf hon)
        · subst hxy; exact absurd hx (hf hon)
        · exact hxy
      have hn₁ := renamed_named hr₁ hm hinj
      have hmem : ∀ x, x ∈ m₁.ents.map Prod.fst ↔ ∃ y ∈ m.ents.map Prod.fst, swapName o n y = x := by
        intro x; rw [hr₁.names.mem_iff, List.mem_map]
      obtain ⟨m', hm', hr, hn'⟩ := ih m₁ hn₁ h1.2 h2.2 (by
        intro p hp
        obtain ⟨g1, g2⟩ := h3 p (List.mem_cons_of_mem _ hp)
        have hpo : p.1 ≠ o := by rintro e; exact h1.1 (List.mem_map.2 ⟨p, hp, e⟩)
        refine ⟨(hmem _).2 ⟨p.1, g1, by simp [swapName, hpo]⟩, ?_⟩
        intro hne hh
        obtain ⟨y, hy, hyx⟩ := (hmem _).1 hh
        unfold swapName at hyx
        split_ifs at hyx
        · exact h2.1 (List.mem_map.2 ⟨p, hp, hyx.symm⟩)
        · subst hyx; exact g2 hne hy)
      refine ⟨m', ?_, renamed_congr (renamed_trans hr₁ hr) ?_ hm.own hm.att, hn'⟩
      · rw [hm₁]; exact hm'
      · intro x hx
        rw [newName_cons]
        simp only [Function.comp, swapName]
        split_ifs with a b b
        · apply newName_not_mem
          intro hh
          obtain ⟨q, hq, e⟩ := List.mem_map.1 hh
          have := (h3 q (List.mem_cons_of_mem _ hq)).1
          rw [e] at this
          exact hf hon this
        · exact absurd a.symm b
        · exact absurd b.symm a
        · rfl

theorem newName_inj {kw : List (String × String)} {S : List String} (hn : (kw.map Prod.snd).Nodup)
    (h : ∀ p ∈ kw, p.1 ∈ S ∧ (p.1 ≠ p.2 → p.2 ∉ S)) : ∀ x ∈ S, ∀ y ∈ S, newName kw x = newName kw y → x = y := by
  have cases' : ∀ x, newName kw x = x ∨ ∃ p ∈ kw, p.1 = x ∧ newName kw x = p.2 := by
    intro x
    unfold newName
    cases hf : kw.find? (fun p => p.1 == x) with
    | none => exact Or.inl rfl
    | some p =>
      refine Or.inr ⟨p, List.mem_of_find?_eq_some hf, ?_, rfl⟩
      simpa using List.find?_some hf
  intro x hx y hy hxy
  rcases cases' x with a | ⟨p, hp, p1, p2⟩ <;> rcases cases' y with b | ⟨q, hq, q1, q2⟩
  · rw [← a, hxy, b]
  · rw [a, q2] at hxy
    by_cases e : q.1 = q.2
    · rw [hxy, ← q1, e]
    · exact absurd (hxy ▸ hx) ((h q hq).2 e)
  · rw [b, p2] at hxy
    by_cases e : p.1 = p.2
    · rw [← hxy, ← p1, e]
    · exact absurd (hxy ▸ hy) ((h p hp).2 e)
  · rw [p2, q2] at hxy
    have : p = q := List.inj_on_of_nodup_map hn hp hq hxy
    rw [← p1, ← q1, this]

theorem renamed_wf {m m' : CM} {ρ : String → String} (h : Renamed m m' ρ) (hw : WellFormed m) (hn : Named m') :
    CM.mk? m'.dims m'.ents = .ok m' ∧ (∀ d ∈ m.dims, m'.ents.lenOf (ρ d) = m.ents.lenOf d) := by
  have hlen : ∀ d ∈ m.dims, m'.ents.lenOf (ρ d) = m.ents.lenOf d := by
    intro d hd
    obtain ⟨c, k, hc, hs, hl⟩ := CM.WellFormed.get_dim hw hd
    have := Dict.get?_of_mem hn.names (h.ents _ _ _ (Dict.mem_of_get? hc))
    unfold Ents.lenOf
    rw [this, hc]
  refine ⟨?_, hlen⟩
  apply CM.mk?_of
  · intro d hd
    rw [h.dims] at hd
    obtain ⟨x, hx, rfl⟩ := List.mem_map.1 hd
    obtain ⟨c, k, hc, hs, hl⟩ := CM.WellFormed.get_dim hw hx
    exact ⟨c, Dict.get?_of_mem hn.names (h.ents _ _ _ (Dict.mem_of_get? hc))⟩
  · rintro ⟨name, ds, c⟩ hmem
    refine ⟨hn.att _ _ _ hmem, ?_⟩
    have : name ∈ (m.ents.map Prod.fst).map ρ := h.names.mem_iff.1 (List.mem_map.2 ⟨_, hmem, rfl⟩)
    obtain ⟨n, hn', rfl⟩ := List.mem_map.1 this
    obtain ⟨⟨n', ds', c'⟩, he, rfl⟩ := List.mem_map.1 hn'
    have h1 := Dict.get?_of_mem hn.names (h.ents _ _ _ he)
    have h2 := Dict.get?_of_mem hn.names hmem
    rw [h1] at h2
    cases h2
    by_cases hne : ds' = []
    · left; simp [hne]
    · right
      simp only
      rw [CM.WellFormed.shape_eq hw he hne, List.map_map]
      apply List.map_congr_left
      intro d hd
      exact hlen d (hw.attached _ _ _ he d hd)

end Verif
