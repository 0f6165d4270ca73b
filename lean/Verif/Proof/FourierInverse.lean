import Verif.Proof.FourierCoords
/-! # Lemmas: the coordinates of the inverse transform -/
namespace Verif
open Spec

/-- What the loop over the dimensions does. -/
theorem idftFold {q : CM} {padded : Bool} {real : Option String} (C U : String → MCoord) :
    ∀ (L : List String) (st : IdftState), L.Nodup → st.coords.keys.Nodup →
    (∀ d ∈ L, ∃ ds, st.coords.get? d = some (.nested ds (C d))) →
    (padded = true → ∀ d ∈ L, ∃ ds, st.coords.get? (unpaddedName d) = some (.nested ds (U d))) →
    (∀ d ∈ L, (C d).len = q.ents.lenOf ("ft_" ++ d) ∨ real = some ("ft_" ++ d)) →
    (∀ d ∈ L, ∀ e ∈ L, d ≠ unpaddedName e) →
    ∃ st', (L.map ("ft_" ++ ·)).foldlM (idftStep q padded real) st = .ok st' ∧
      st'.sizes = st.sizes ++ L.map (fun d => (C d).len) ∧
      st'.padding = st.padding ++ (if padded then (L.filter fun d => (U d).len < (C d).len).map fun d => (d, (C d).len - (U d).len) else []) ∧
      st'.coords.keys.Nodup ∧
      ∀ n, st'.coords.get? n = if n ∈ L then some (.nested [n] (C n)) else if padded = true ∧ ∃ d ∈ L, n = unpaddedName d then none
        else st.coords.get? n := by
  intro L
  induction L with
  | nil =>
    intro st _ hk _ _ _ _
    refine ⟨st, rfl, by simp, by cases padded <;> simp, hk, fun n => by simp⟩
  | cons d L ih =>
    intro st hn hk hC hU hlen hdis
    rw [List.nodup_cons] at hn
    obtain ⟨ds, hd⟩ := hC d List.mem_cons_self
    set st1 : IdftState := { st with
      sizes := st.sizes ++ [(C d).len]
      coords := st.coords.set d (.nested [d] (C d)) } with hst1
    have hk1 : st1.coords.keys.Nodup := Dict.nodup_set hk _ _
    have hg1 : ∀ n, st1.coords.get? n = if n = d then some (.nested [d] (C d)) else st.coords.get? n := by
      intro n
      rw [hst1]
      simp only
      rw [Dict.get?_set]
    have hstep : idftStep q padded real st ("ft_" ++ d) = if padded then idftPadding st1 d (C d) else .ok st1 := by
      unfold idftStep
      rw [iftName_ft, hd]
      simp only
      rw [if_pos (hlen d List.mem_cons_self)]
    rw [List.map_cons, List.foldlM_cons]
    cases padded with
    | false =>
      obtain ⟨st', h1, h2, h3, h4, h5⟩ := ih st1 hn.2 hk1 (by
          intro e he
          obtain ⟨ds, h⟩ := hC e (List.mem_cons_of_mem _ he)
          exact ⟨ds, by rw [hg1, if_neg (show e ≠ d by rintro rfl; exact hn.1 he), h]⟩) (fun h => by cases h)
        (fun e he => hlen e (List.mem_cons_of_mem _ he)) (fun e he f hf => hdis e (List.mem_cons_of_mem _ he) f (List.mem_cons_of_mem _ hf))
      refine ⟨st', ?_, ?_, ?_, h4, ?_⟩
      · rw [hstep]
        exact h1
      · rw [h2, hst1]; simp
      · rw [h3, hst1]; simp
      · intro n
        rw [h5 n, hg1 n]
        by_cases hnd : n = d
        · subst hnd; simp [hn.1]
        · simp [hnd]
    | true =>
      obtain ⟨us, hu⟩ := hU rfl d List.mem_cons_self
      have hu1 : st1.coords.get? (unpaddedName d) = some (.nested us (U d)) := by
        rw [hg1, if_neg (fun h => hdis d List.mem_cons_self d List.mem_cons_self h.symm), hu]
      set st2 : IdftState := { st1 with
        coords := st1.coords.filter fun p => p.1 != unpaddedName d
        padding := st1.padding ++ (if (U d).len < (C d).len then [(d, (C d).len - (U d).len)] else []) } with hst2
      have hpad : idftPadding st1 d (C d) = .ok st2 := by
        unfold idftPadding
        rw [hu1]
        simp only
        split_ifs with h
        · rw [hst2]; simp only [h, if_true]
        · rw [hst2]; simp only [h, if_false, List.append_nil]
      have hk2 : st2.coords.keys.Nodup := Dict.nodup_filter hk1 _
      have hg2 : ∀ n, st2.coords.get? n = if n = unpaddedName d then none else st1.coords.get? n := by
        intro n
        rw [hst2]
        simp only
        by_cases h : n = unpaddedName d
        · rw [if_pos h]
          rw [Dict.get?_eq_none]
          intro hc
          obtain ⟨p, hp, rfl⟩ := List.mem_map.1 hc
          have := (List.mem_filter.1 hp).2
          simp [h] at this
        · rw [if_neg h]
          cases hv : Dict.get? st1.coords n with
          | none =>
            rw [Dict.get?_eq_none] at hv ⊢
            intro hc
            obtain ⟨p, hp, rfl⟩ := List.mem_map.1 hc
            exact hv (List.mem_map_of_mem (List.mem_filter.1 hp).1)
          | some a =>
            apply Dict.get?_of_mem hk2
            exact List.mem_filter.2 ⟨Dict.mem_of_get? hv, by simpa using h⟩
      obtain ⟨st', h1, h2, h3, h4, h5⟩ := ih st2 hn.2 hk2 (by
          intro e he
          obtain ⟨ds, h⟩ := hC e (List.mem_cons_of_mem _ he)
          exact ⟨ds, by rw [hg2, if_neg (hdis e (List.mem_cons_of_mem _ he) d List.mem_cons_self), hg1, if_neg (show e ≠ d by rintro rfl; exact hn.1 he), h]⟩)
        (by
          intro _ e he
          obtain ⟨us, h⟩ := hU rfl e (List.mem_cons_of_mem _ he)
          exact ⟨us, by rw [hg2, if_neg (show unpaddedName e ≠ unpaddedName d from fun h => hn.1 (by rw [← unpaddedName_inj h]; exact he)), hg1,
            if_neg (fun h => hdis d List.mem_cons_self e (List.mem_cons_of_mem _ he) h.symm), h]⟩)
        (fun e he => hlen e (List.mem_cons_of_mem _ he)) (fun e he f hf => hdis e (List.mem_cons_of_mem _ he) f (List.mem_cons_of_mem _ hf))
      refine ⟨st', ?_, ?_, ?_, h4, ?_⟩
      · rw [hstep, if_pos rfl, hpad]
        exact h1
      · rw [h2, hst2, hst1]; simp
      · rw [h3, hst2, hst1]
        by_cases h : (U d).len < (C d).len
        · simp [h]
        · simp [h]
      · intro n
        rw [h5 n, hg2 n, hg1 n]
        by_cases hnd : n = d
        · subst hnd
          have : n ≠ unpaddedName n := hdis n List.mem_cons_self n List.mem_cons_self
          have h' : ¬ ∃ e ∈ L, n = unpaddedName e := by
            rintro ⟨e, he, h⟩
            exact hdis n List.mem_cons_self e (List.mem_cons_of_mem _ he) h
          simp [hn.1, this, h']
        · by_cases hnL : n ∈ L
          · simp [hnL]
          · by_cases hnu : n = unpaddedName d
            · subst hnu; simp [hnd, hnL]
            · simp [hnd, hnL, hnu]

/-- The coordinates after the inverse transform, before the padding is removed. -/
structure Inverted (m cm : CM) (D : List String) : Prop where
  wf : WellFormed cm
  stored : ∀ n ds c, cm.ents.get? n = some (ds, c) → c.canon = .ok c
  dims : cm.dims = m.dims
  own : ∀ d ∈ D, cm.ents.get? d = m.ents.get? d
  kept : ∀ n ∉ D, ∀ ds c, m.ents.get? n = some (ds, c) → (∀ d ∈ ds, d ∉ D) → ∃ x, c.canon = .ok x ∧ cm.ents.get? n = some (ds, x)
  lost : ∀ n ∉ D, ∀ ds c, m.ents.get? n = some (ds, c) → (∃ d ∈ ds, d ∈ D) → cm.ents.get? n = none
  none : ∀ n, m.ents.get? n = none → cm.ents.get? n = none

/-- By how much the dimensions are too long. -/
def surplus (m : CM) (orig : Option CM) (L : List String) : Dict ℕ :=
  match orig with
  | none => []
  | some o => (L.filter fun d => o.ents.lenOf d < m.ents.lenOf d).map fun d => (d, m.ents.lenOf d - o.ents.lenOf d)

theorem idftCoords_spec {m q : CM} (hw : WellFormed m) {D L : List String} (hD : FtReady m D) (hL : L.Perm D) {orig : Option CM}
    (ho : ∀ o, orig = some o → ∀ d ∈ D, ∃ k r, o.ents.get? d = some ([d], .one k (.range r))) {real : Option String}
    (hq : Spectrum m q orig real D) :
    ∃ cm st, idftCoords q orig.isSome (real.map ("ft_" ++ ·)) (L.map ("ft_" ++ ·)) = .ok (cm, st) ∧ Inverted m cm D ∧
      st.sizes = L.map m.ents.lenOf ∧
      st.padding = surplus m orig L := by
  have hLD : ∀ d, d ∈ L ↔ d ∈ D := fun d => hL.mem_iff
  have hLn : L.Nodup := hL.nodup_iff.2 hD.nodup
  have hmem : ∀ d ∈ D, ∃ c, m.ents.get? d = some ([d], c) := fun d hd => by
    obtain ⟨k, r, h, _⟩ := hD.even d hd; exact ⟨_, h⟩
  have hftm : ∀ n v, m.ents.get? n = some v → ∀ d ∈ D, n ≠ "ft_" ++ d := by
    rintro n v hv d hd rfl
    rw [hD.ftFree d hd] at hv; cases hv
  have hunm : ∀ n v, m.ents.get? n = some v → ∀ d ∈ D, n ≠ unpaddedName d := by
    rintro n v hv d hd rfl
    rw [hD.unFree d hd] at hv; cases hv
  have hdmem : ∀ d ∈ m.dims, ∃ c, m.ents.get? d = some ([d], c) := fun d hd => by
    obtain ⟨c, _, h, _⟩ := CM.WellFormed.get_dim hw hd; exact ⟨c, h⟩
  have hE : ∀ e, e ∈ L.map ("ft_" ++ ·) ↔ ∃ d ∈ D, e = "ft_" ++ d := by
    intro e
    rw [List.mem_map]
    constructor
    · rintro ⟨d, hd, rfl⟩; exact ⟨d, (hLD d).1 hd, rfl⟩
    · rintro ⟨d, hd, rfl⟩; exact ⟨d, (hLD d).2 hd, rfl⟩
  have hEn : (L.map ("ft_" ++ ·)).Nodup := hLn.map fun a b h => ft_inj h
  obtain ⟨old, h1, hold⟩ := disassociate_spec hq.wf (fun n ds c h => ⟨c, hq.stored n ds c h⟩) hEn
    (by
      intro e he
      obtain ⟨d, hd, rfl⟩ := (hE e).1 he
      rw [hq.dims]
      exact List.mem_map.2 ⟨d, hD.dims d hd, if_pos hd⟩)
    (by
      intro e he
      obtain ⟨d, hd, rfl⟩ := (hE e).1 he
      exact (hD.plain d hd).2)
  have hkeep : ∀ n ds c, q.ents.get? n = some (ds, c) → (∀ d ∈ D, n ≠ "ft_" ++ d) → (∀ e ∈ ds, ∀ d ∈ D, e ≠ "ft_" ++ d) →
      old.ents.get? n = some (ds, c) := by
    intro n ds c hc h2 h3
    obtain ⟨x, hx, hx'⟩ := hold.kept n (fun h => by obtain ⟨d, hd, rfl⟩ := (hE n).1 h; exact h2 d hd rfl) ds c hc
      (fun e he h => by obtain ⟨d, hd, h'⟩ := (hE e).1 h; exact h3 e he d hd h')
    rw [hq.stored n ds c hc] at hx; cases hx
    exact hx'
  set B := CM.nested old.ents with hB
  have hBk : (Dict.keys B).Nodup := by rw [hB, CM.nested_keys]; exact hold.wf.names
  have hBg : ∀ n ds c, old.ents.get? n = some (ds, c) → Dict.get? B n = some (.nested ds c) := by
    intro n ds c h
    rw [hB, get?_nested, h]; rfl
  let C : String → MCoord := fun d => ((m.ents.get? d).map Prod.snd).getD (.one .float (.part 0))
  let U : String → MCoord := fun d => ((orig.bind fun o => o.ents.get? d).map Prod.snd).getD (.one .float (.part 0))
  have hC : ∀ d c, m.ents.get? d = some ([d], c) → C d = c := by
    intro d c h; simp only [C, h]; rfl
  have hBown : ∀ d ∈ D, Dict.get? B d = some (.nested [] (C d)) := by
    intro d hd
    obtain ⟨c, hc⟩ := hmem d hd
    rw [hC d c hc]
    exact hBg d [] c (hkeep d [] c (hq.old d hd c hc) (hftm d _ hc) (by simp))
  have hCl : ∀ d ∈ D, (C d).len = m.ents.lenOf d := by
    intro d hd
    obtain ⟨c, hc⟩ := hmem d hd
    rw [hC d c hc]; unfold Ents.lenOf; rw [hc]
  have hunq : ∀ o, orig = some o → ∀ d ∈ D, o.ents.get? d = some ([d], U d) ∧ Dict.get? B (unpaddedName d) = some (.nested [] (U d)) := by
    intro o hoo d hd
    obtain ⟨k, r, hc⟩ := ho o hoo d hd
    have hU : U d = .one k (.range r) := by simp only [U, hoo, Option.bind_some, hc]; rfl
    rw [hU]
    refine ⟨hc, hBg _ [] _ (hkeep _ [] _ (hq.unp o hoo d hd _ _ hc) (fun e _ h => ft_ne_unpadded _ _ h.symm) (by simp))⟩
  obtain ⟨st, h2, h3, h4, h5, h6⟩ := idftFold (q := q) (padded := orig.isSome) (real := real.map ("ft_" ++ ·)) C U L
    ⟨B, [], []⟩ hLn hBk (fun d hd => ⟨[], hBown d ((hLD d).1 hd)⟩)
    (by
      intro hp d hd
      obtain ⟨o, hoo⟩ := Option.isSome_iff_exists.1 hp
      exact ⟨[], (hunq o hoo d ((hLD d).1 hd)).2⟩)
    (by
      intro d hd
      have hd := (hLD d).1 hd
      by_cases hr : real = some d
      · right; rw [hr]; rfl
      · left
        rw [hCl d hd]
        unfold Ents.lenOf
        rw [hq.ft d hd]
        show _ = (freqRange _ _ _).len
        unfold freqRange
        rw [decide_eq_false hr]
        rfl)
    (fun d hd e he => by
      obtain ⟨c, hc⟩ := hmem d ((hLD d).1 hd)
      exact hunm d _ hc e ((hLD e).1 he))
  have hsg : ∀ n, Dict.get? st.coords n = if n ∈ D then some (.nested [n] (C n)) else
      if orig.isSome = true ∧ ∃ d ∈ D, n = unpaddedName d then Option.none else Dict.get? B n := by
    intro n
    rw [h6 n]
    simp only [hLD]
  -- what else is in the dictionary
  have hcls : ∀ n a, n ∉ D → Dict.get? st.coords n = some a → ∃ ds c, a = .nested ds c ∧ c.canon = .ok c ∧
      ((∃ d ∈ D, n = "ft_" ++ d ∧ ds = []) ∨ ∃ c', m.ents.get? n = some (ds, c') ∧ c'.canon = .ok c ∧ ∀ d ∈ ds, d ∉ D) := by
    intro n a hnD ha
    rw [hsg, if_neg hnD] at ha
    split_ifs at ha with hu
    rw [hB, get?_nested] at ha
    obtain ⟨⟨ds, c⟩, hoc, rfl⟩ := Option.map_eq_some_iff.1 ha
    refine ⟨ds, c, rfl, ?_⟩
    by_cases hf : ∃ d ∈ D, n = "ft_" ++ d
    · obtain ⟨d, hd, rfl⟩ := hf
      obtain ⟨x, hx, hx'⟩ := hold.named ("ft_" ++ d) ((hE _).2 ⟨d, hd, rfl⟩) _ _ (hq.ft d hd)
      rw [hoc] at hx'; cases hx'
      exact ⟨canon_fixed hx, Or.inl ⟨d, hd, rfl, rfl⟩⟩
    · push Not at hf
      cases hqn : q.ents.get? n with
      | none => rw [hold.none n hqn] at hoc; cases hoc
      | some v =>
        obtain ⟨ds', c'⟩ := v
        cases hmn : m.ents.get? n with
        | none =>
          rw [hq.none n hmn hf (fun o hoo d hd he => hu ⟨by rw [hoo]; rfl, d, hd, he⟩)] at hqn; cases hqn
        | some w =>
          obtain ⟨es, e⟩ := w
          by_cases hl : ∃ d ∈ es, d ∈ D
          · rw [hq.lost n hnD es e hmn hl] at hqn; cases hqn
          · push Not at hl
            obtain ⟨x, hx, hx'⟩ := hq.kept n hnD es e hmn hl
            rw [hqn] at hx'; cases hx'
            have hdims : ∀ f ∈ ds', ∀ d ∈ D, f ≠ "ft_" ++ d := by
              intro f hf' d hd
              obtain ⟨c'', hc''⟩ := hdmem f (hw.attached _ _ _ (Dict.mem_of_get? hmn) f hf')
              exact hftm f _ hc'' d hd
            have := hkeep n _ c' hqn hf hdims
            rw [hoc] at this; cases this
            exact ⟨canon_fixed hx, Or.inr ⟨e, rfl, hx, hl⟩⟩
  have hdims : ((q.dims.map fun d => if d ∈ L.map ("ft_" ++ ·) then iftName d else d)) = m.dims := by
    rw [hq.dims, List.map_map]
    conv_rhs => rw [← List.map_id m.dims]
    apply List.map_congr_left
    intro d hd
    simp only [Function.comp, id]
    by_cases hdD : d ∈ D
    · rw [if_pos hdD, if_pos ((hE _).2 ⟨d, hdD, rfl⟩), iftName_ft]
    · obtain ⟨c, hc⟩ := hdmem d hd
      rw [if_neg hdD, if_neg]
      intro h
      obtain ⟨e, he, h⟩ := (hE _).1 h
      exact hftm d _ hc e he h
  obtain ⟨cm1, g1, gd, gk, gg⟩ := getCoordManager_total h5 (dims := m.dims) m.ents.lenOf (by
    intro n a ha
    by_cases hnD : n ∈ D
    · rw [hsg, if_pos hnD] at ha
      cases ha
      obtain ⟨k, r, hc, _⟩ := hD.even n hnD
      rw [hC n _ hc]
      refine ⟨[n], _, _, rfl, rfl, by simpa using hD.dims n hnD, fun _ => rfl, Or.inr ?_⟩
      exact (CM.WellFormed.shape_eq hw (Dict.mem_of_get? hc) (by simp)).symm
    · obtain ⟨ds, c, rfl, hcc, hcase⟩ := hcls n a hnD ha
      refine ⟨ds, c, c, rfl, hcc, ?_⟩
      rcases hcase with ⟨d, hd, rfl, rfl⟩ | ⟨c', hc', hcan, hds⟩
      · refine ⟨by simp, fun h => ?_, Or.inl rfl⟩
        obtain ⟨c'', hc''⟩ := hdmem _ h
        exact absurd rfl (hftm _ _ hc'' d hd)
      · refine ⟨hw.attached _ _ _ (Dict.mem_of_get? hc'), fun h => ?_, ?_⟩
        · obtain ⟨c'', hc''⟩ := hdmem _ h
          rw [hc'] at hc''; cases hc''; rfl
        · by_cases h0 : ds = []
          · exact Or.inl h0
          · right
            rw [(canon_same hcan).1, CM.WellFormed.shape_eq hw (Dict.mem_of_get? hc') h0]) (by
    intro d hd
    rw [Dict.mem_keys]
    by_cases hdD : d ∈ D
    · exact ⟨_, by rw [hsg, if_pos hdD]⟩
    · obtain ⟨c, hc⟩ := hdmem d hd
      obtain ⟨x, _, hx⟩ := hq.kept d hdD _ _ hc (by simpa using hdD)
      refine ⟨.nested [d] x, ?_⟩
      rw [hsg, if_neg hdD, if_neg (by rintro ⟨_, e, he, h⟩; exact hunm d _ hc e he h)]
      apply hBg
      refine hkeep d _ _ hx (hftm d _ hc) ?_
      intro e he
      simp only [List.mem_singleton] at he
      subst he
      exact hftm _ _ hc)
  have hw1 : WellFormed cm1 := (CM.getCoordManager_wf g1 h5).1
  obtain ⟨cm, k1, hdr⟩ := dropCoords_spec hw1 (L.map ("ft_" ++ ·))
  have hcm1 : ∀ n ds c, Dict.get? st.coords n = some (.nested ds c) → c.canon = .ok c → cm1.ents.get? n = some (ds, c) := by
    intro n ds c ha hc
    obtain ⟨x, hx, hx'⟩ := gg n _ ds c ha rfl
    rw [hc] at hx; cases hx; exact hx'
  have hcm1n : ∀ n, Dict.get? st.coords n = Option.none → cm1.ents.get? n = Option.none := by
    intro n h
    rw [Dict.get?_eq_none, gk, ← Dict.get?_eq_none]; exact h
  have hstored : ∀ n ds c, cm1.ents.get? n = some (ds, c) → c.canon = .ok c := by
    intro n ds c hc
    obtain ⟨a, ha⟩ := Dict.mem_keys.1 (by rw [← gk]; exact Dict.mem_keys.2 ⟨_, hc⟩ : n ∈ st.coords.keys)
    obtain ⟨es, e, hae⟩ : ∃ es e, a = .nested es e := by
      by_cases hnD : n ∈ D
      · rw [hsg, if_pos hnD] at ha; cases ha; exact ⟨_, _, rfl⟩
      · obtain ⟨es, e, h, _⟩ := hcls n a hnD ha; exact ⟨es, e, h⟩
    subst hae
    obtain ⟨x, hx, hx'⟩ := gg n _ es e ha rfl
    rw [hc] at hx'; cases hx'
    exact canon_fixed hx
  have hcmn : ∀ n, cm1.ents.get? n = Option.none → cm.ents.get? n = Option.none := hdr.none
  have hcmk : ∀ n ds c, cm1.ents.get? n = some (ds, c) → (∀ d ∈ D, n ≠ "ft_" ++ d) → cm.ents.get? n = some (ds, c) := by
    intro n ds c h hn
    refine hdr.kept n ds c h (fun h' => by obtain ⟨d, hd, h''⟩ := (hE n).1 h'; exact hn d hd h'') ?_
    intro e he h'
    obtain ⟨d, hd, rfl⟩ := (hE e).1 h'
    have := hw1.attached _ _ _ (Dict.mem_of_get? h) _ he
    rw [gd] at this
    obtain ⟨c'', hc''⟩ := hdmem _ this
    exact hftm _ _ hc'' d hd rfl
  refine ⟨cm, st, ?_, ⟨(CM.dropCoords_wf k1 hw1).1, ?_, ?_, ?_, ?_, ?_, ?_⟩, ?_, ?_⟩
  · unfold idftCoords
    simp only [bind, Except.bind, h1]
    rw [← hB, h2]
    simp only [hdims, g1, k1]
    rfl
  · intro n ds c h
    cases hn : cm1.ents.get? n with
    | none => rw [hdr.none n hn] at h; cases h
    | some v =>
      obtain ⟨es, e⟩ := v
      by_cases hg : n ∈ L.map ("ft_" ++ ·) ∨ ∃ d ∈ es, d ∈ L.map ("ft_" ++ ·)
      · rw [hdr.gone n es e hn hg] at h; cases h
      · push Not at hg
        rw [hdr.kept n es e hn hg.1 hg.2] at h
        cases h
        exact hstored n _ _ hn
  · rw [hdr.dims, gd]
    rw [List.filter_eq_self]
    intro d hd
    obtain ⟨c, hc⟩ := hdmem d hd
    rw [decide_eq_true_eq]
    intro h
    obtain ⟨e, he, h⟩ := (hE _).1 h
    exact hftm d _ hc e he h
  · intro d hd
    obtain ⟨k, r, hc, _⟩ := hD.even d hd
    rw [hc]
    refine hcmk d _ _ (hcm1 d [d] _ ?_ rfl) (hftm d _ hc)
    rw [hsg, if_pos hd, hC d _ hc]
  · intro n hn ds c hc hds
    obtain ⟨x, hx, hx'⟩ := hq.kept n hn ds c hc hds
    refine ⟨x, hx, hcmk n _ _ (hcm1 n ds x ?_ (canon_fixed hx)) (hftm n _ hc)⟩
    rw [hsg, if_neg hn, if_neg (by rintro ⟨_, e, he, h⟩; exact hunm n _ hc e he h)]
    apply hBg
    refine hkeep n _ _ hx' (hftm n _ hc) ?_
    intro f hf d hd
    obtain ⟨c'', hc''⟩ := hdmem f (hw.attached _ _ _ (Dict.mem_of_get? hc) f hf)
    exact hftm f _ hc'' d hd
  · intro n hn ds c hc hds
    apply hcmn
    apply hcm1n
    cases ha : Dict.get? st.coords n with
    | none => rfl
    | some a =>
      obtain ⟨es, e, rfl, _, hcase⟩ := hcls n a hn ha
      rcases hcase with ⟨d, hd, rfl, _⟩ | ⟨c', hc', _, h⟩
      · exact absurd rfl (hftm _ _ hc d hd)
      · rw [hc] at hc'; cases hc'
        obtain ⟨d, hd, hdD⟩ := hds
        exact absurd hdD (h d hd)
  · intro n hc
    have hnD : n ∉ D := by
      intro h
      obtain ⟨c, h'⟩ := hmem n h
      rw [hc] at h'; cases h'
    cases ha : Dict.get? st.coords n with
    | none => exact hcmn n (hcm1n n ha)
    | some a =>
      obtain ⟨es, e, rfl, hcc, hcase⟩ := hcls n a hnD ha
      rcases hcase with ⟨d, hd, rfl, _⟩ | ⟨c', hc', _, h⟩
      · exact hdr.gone _ es e (hcm1 _ _ _ ha hcc) (Or.inl ((hE _).2 ⟨d, hd, rfl⟩))
      · rw [hc] at hc'; cases hc'
  · rw [h3]
    simp only [List.nil_append]
    exact List.map_congr_left fun d hd => hCl d ((hLD d).1 hd)
  · rw [h4]
    clear h2 h4 h6 hsg hcls
    match orig, hq, ho, hunq with
    | none, _, _, _ => rfl
    | some o, hq, ho, hunq =>
      unfold surplus
      simp only [Option.isSome_some, if_true, List.nil_append]
      have hUl : ∀ d ∈ L, (U d).len = o.ents.lenOf d := by
        intro d hd
        have := (hunq o rfl d ((hLD d).1 hd)).1
        unfold Ents.lenOf; rw [this]
      have e1 : (L.filter fun d => decide ((U d).len < (C d).len)) = L.filter fun d => decide (o.ents.lenOf d < m.ents.lenOf d) := by
        apply List.filter_congr
        intro d hd
        rw [hUl d hd, hCl d ((hLD d).1 hd)]
      rw [e1]
      apply List.map_congr_left
      intro d hd
      have hd := (List.mem_filter.1 hd).1
      rw [hUl d hd, hCl d ((hLD d).1 hd)]

end Verif
