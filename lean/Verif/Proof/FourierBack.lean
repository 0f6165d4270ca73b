import Verif.Proof.FourierTrim
/-! # Lemmas: the inverse transform of a transform -/
namespace Verif
open Spec

theorem realLast_map {L : List String} {real : Option String} : realLast (L.map ("ft_" ++ ·)) (real.map ("ft_" ++ ·)) = (realLast L real).map ("ft_" ++ ·) := by
  cases real with
  | none => rfl
  | some r =>
    show (L.map ("ft_" ++ ·)).erase ("ft_" ++ r) ++ ["ft_" ++ r] = (L.erase r ++ [r]).map ("ft_" ++ ·)
    rw [List.map_append, List.map_erase (fun a b h => ft_inj h)]
    rfl

/-- The dimensions in the order in which they are transformed back. -/
theorem idftOrder_spec {m q : CM} {orig : Option CM} {real : Option String} {D E : List String} (hS : Spectrum m q orig real D) (hE : E.Perm D) (hn : D.Nodup)
    (hr : ∀ d, real = some d → d ∈ D)
    (hz : ∀ d ∈ D, (freqRange (m.ents.lenOf d) (dxOf m d) (decide (real = some d))).cmin = 0 ↔ real = some d) :
    q.idftOrder (E.map ("ft_" ++ ·)) = .ok ((realLast E real).map ("ft_" ++ ·), real.map ("ft_" ++ ·)) := by
  have hED : ∀ d, d ∈ E ↔ d ∈ D := fun d => hE.mem_iff
  have hEn : E.Nodup := hE.nodup_iff.2 hn
  have h1 : (E.map ("ft_" ++ ·)).mapM q.startsAtZero = .ok (E.map fun d => decide (real = some d)) := by
    rw [mapM_map_congr (g := fun d => q.startsAtZero ("ft_" ++ d)) ("ft_" ++ ·) fun _ _ => rfl]
    apply mapM_ok'
    intro d hd
    have hdD := (hED d).1 hd
    unfold CM.startsAtZero
    rw [hS.ft d hdD]
    show Except.ok _ = _
    congr 1
    exact decide_eq_decide.2 (hz d hdD)
  have h2 : ((((E.map ("ft_" ++ ·)).zip (E.map fun d => decide (real = some d))).filter Prod.snd).map Prod.fst) = (real.map ("ft_" ++ ·)).toList := by
    rw [List.zip_map', List.filter_map, List.map_map]
    cases real with
    | none => simp [Function.comp_def]
    | some r =>
      have hrE := (hED r).2 (hr r rfl)
      have : E.filter ((fun x : String × Bool => x.2) ∘ fun d => ("ft_" ++ d, decide (some r = some d))) = [r] := by
        have e : ((fun x : String × Bool => x.2) ∘ fun d => ("ft_" ++ d, decide (some r = some d))) = fun d => d == r := by
          funext d
          simp only [Function.comp_def, Option.some.injEq, beq_eq_decide, eq_comm]
        rw [e, List.filter_beq, List.count_eq_one_of_mem hEn hrE]
        rfl
      rw [this]
      rfl
  unfold CM.idftOrder
  simp only [h1, bind, Except.bind, h2]
  rw [if_neg (by cases real <;> simp)]
  have : (real.map ("ft_" ++ ·)).toList.head? = real.map ("ft_" ++ ·) := by cases real <;> rfl
  rw [this, realLast_map]
  rfl

theorem idft_run {argsort : List ℚ → List ℕ} {Q : FPatch} {p p' : PatchM ℂ} {D L E : List String} {real : Option String} {pad : Bool} {N : String → ℕ}
    (hm : Regular p.cm) (hne : p.cm.dims ≠ []) (hsh : p.cm.shape = p.data.shape) (hD : FtReady p.cm D)
    (hrL : ∀ d, real = some d → d ∈ L) (hL : L.Perm D) (hN : ∀ d ∈ D, p.cm.ents.lenOf d ≤ N d)
    (hNp : pad = false → ∀ d ∈ D, N d = p.cm.ents.lenOf d) (hX : Extended p p' N L)
    (hS : Spectrum p'.cm Q.patch.cm (if pad then some p.cm else none) real L) (hpadded : Q.padded = some pad)
    (hE : E.Perm D) {dim : Option (List String)} (hask : Q.patch.cm.idftDims dim = E.map ("ft_" ++ ·))
    (hz : ∀ d ∈ D, (freqRange (N d) (dxOf p.cm d) (decide (real = some d))).cmin = 0 ↔ real = some d) {b : Nd ℂ}
    (hb : idftData Q.patch.data (real.map ("ft_" ++ ·)) ((realLast E real).map p.cm.dims.idxOf) ((realLast E real).map N)
      ((realLast E real).map (dxOf p.cm)).prod = .ok b) (hbs : b.shape = p'.data.shape) :
    ∃ R, Q.idft argsort dim = .ok R ∧ Restored ⟨p.cm, ⟨p.data.shape, b.get⟩⟩ R.patch D ∧ R.isComplex = real.isNone ∧ R.padded = none := by
  set q := Q.patch with hq
  have hDL : FtReady p.cm L := hD.perm hL
  have hLD : ∀ d, d ∈ L ↔ d ∈ D := fun d => hL.mem_iff
  have hlen1 : ∀ d ∈ D, 1 ≤ p.cm.ents.lenOf d := by
    intro d hd
    obtain ⟨k, r, h, hv⟩ := hD.even d hd
    unfold Ents.lenOf
    rw [h]
    exact hv.len_pos
  have hD' : FtReady p'.cm L := hX.ready hDL fun d hd => le_trans (hlen1 d ((hLD d).1 hd)) (hN d ((hLD d).1 hd))
  have hEL : E.Perm L := hE.trans hL.symm
  set E' := realLast E real with hE'
  have hE'E : E'.Perm E := realLast_perm fun r hr => hEL.mem_iff.2 (hrL r hr)
  have hE'L : E'.Perm L := hE'E.trans hEL
  have hE'D : ∀ d, d ∈ E' ↔ d ∈ D := fun d => by rw [hE'L.mem_iff, hLD]
  have hdims : q.cm.dims = p.cm.dims.map fun d => if d ∈ L then "ft_" ++ d else d := by rw [hS.dims, hX.dims]
  have hidx : ∀ d ∈ p.cm.dims, q.cm.dims.idxOf (if d ∈ L then "ft_" ++ d else d) = p.cm.dims.idxOf d := by
    intro d hd
    rw [hdims]
    exact idxOf_rename (rename_inj hm.wf hDL.ftFree) hd
  have hftdim : ∀ d ∈ L, "ft_" ++ d ∈ q.cm.dims := by
    intro d hd
    rw [hdims]
    exact List.mem_map.2 ⟨d, hDL.dims d hd, if_pos hd⟩
  -- the order
  have hord := idftOrder_spec hS hEL hDL.nodup hrL (by
    intro d hd
    rw [hX.lenOf hDL hd, hX.dxOf hDL hd]
    exact hz d ((hLD d).1 hd))
  rw [← hE'] at hord
  -- the axes
  have hsp : (E'.map ("ft_" ++ ·)).mapM q.evenSpacing = .ok ((E'.map ("ft_" ++ ·)).map fun d => (dxOf q.cm d, q.cm.dims.idxOf d)) := by
    apply evenSpacings
    · intro e he
      obtain ⟨d, hd, rfl⟩ := List.mem_map.1 he
      exact hftdim d (hE'L.mem_iff.1 hd)
    · intro e he
      obtain ⟨d, hd, rfl⟩ := List.mem_map.1 he
      exact ⟨_, _, hS.ft d (hE'L.mem_iff.1 hd)⟩
  have hax : ((E'.map ("ft_" ++ ·)).map fun d => (dxOf q.cm d, q.cm.dims.idxOf d)).map Prod.snd = E'.map p.cm.dims.idxOf := by
    rw [List.map_map, List.map_map]
    apply List.map_congr_left
    intro d hd
    have hdL := hE'L.mem_iff.1 hd
    have := hidx d (hDL.dims d hdL)
    rw [if_pos hdL] at this
    exact this
  -- the coordinates
  obtain ⟨cm, st, hco, hI, hsz, hpd⟩ := idftCoords_spec hX.wf hD' hE'L (orig := if pad then some p.cm else none) (by
    intro o ho d hd
    cases pad
    · cases ho
    · cases ho
      obtain ⟨k, r, h, _⟩ := hDL.even d hd
      exact ⟨k, r, h⟩) hS
  have hor : (if pad then some p.cm else none).isSome = Q.padded.getD false := by rw [hpadded]; cases pad <;> rfl
  rw [hor] at hco
  have hst : ((E'.map ("ft_" ++ ·)).map iftName).mapM (stepOf cm) = .ok (E'.map (dxOf p.cm)) := by
    have e : (E'.map ("ft_" ++ ·)).map iftName = E' := by
      rw [List.map_map]
      conv_rhs => rw [← List.map_id E']
      apply List.map_congr_left
      intro d _
      exact iftName_ft d
    rw [e]
    apply mapM_ok'
    intro d hd
    have hdL := hE'L.mem_iff.1 hd
    obtain ⟨k, r, hg, hv⟩ := hDL.even d hdL
    unfold stepOf dxOf
    rw [hI.own d hdL, hX.own d hdL k r hg, hg]
    rfl
  have hp'l : p'.data.shape.length = p.cm.dims.length := by rw [hX.shape]; simp
  have hpsh : p.data.shape = p.cm.dims.map p.cm.ents.lenOf := by rw [← hsh]; unfold CM.shape; rw [if_neg hne]
  have hszN : st.sizes = E'.map N := by
    rw [hsz]
    apply List.map_congr_left
    intro d hd
    exact hX.lenOf hDL (hE'L.mem_iff.1 hd)
  -- the patch before trimming
  have hlencm : ∀ d ∈ p.cm.dims, cm.ents.lenOf d = if d ∈ L then N d else p.cm.ents.lenOf d := by
    intro d hd
    split_ifs with hdL
    · rw [← hX.lenOf hDL hdL]
      unfold Ents.lenOf
      rw [hI.own d hdL]
    · obtain ⟨c, _, hc, _⟩ := CM.WellFormed.get_dim hm.wf hd
      obtain ⟨x, hx, hx'⟩ := hX.kept d hdL _ _ hc (by simpa using hdL)
      obtain ⟨y, hy, hy'⟩ := hI.kept d hdL _ _ hx' (by simpa using hdL)
      unfold Ents.lenOf
      rw [hy', hc]
      exact SameValues.len (canon_same (canon_via hx hy))
  have hcmd : cm.dims = p.cm.dims := by rw [hI.dims, hX.dims]
  have hcsh : cm.shape = b.shape := by
    unfold CM.shape
    rw [hcmd, if_neg hne, hbs, hX.shape]
    exact List.map_congr_left fun d hd => hlencm d hd
  have hnew : PatchM.new cm b = .ok ⟨cm, b⟩ := by unfold PatchM.new; rw [if_pos hcsh]
  -- what is cut off
  set T := if pad then E'.filter fun d => p.cm.ents.lenOf d < N d else [] with hT
  set K : String → ℕ := fun d => N d - p.cm.ents.lenOf d with hK
  have hTL : ∀ d, d ∈ T ↔ d ∈ L ∧ p.cm.ents.lenOf d < N d := by
    intro d
    rw [hT]
    cases pad
    · simp only [Bool.false_eq_true, if_false, List.not_mem_nil, false_iff, not_and, not_lt]
      intro hd
      rw [hNp rfl d ((hLD d).1 hd)]
    · simp [List.mem_filter, hE'L.mem_iff]
  have hpdT : st.padding = T.map fun d => (d, K d) := by
    rw [hpd, hT]
    cases pad
    · rfl
    · show (E'.filter fun d => p.cm.ents.lenOf d < p'.cm.ents.lenOf d).map (fun d => (d, p'.cm.ents.lenOf d - p.cm.ents.lenOf d)) = _
      have e1 : (E'.filter fun d => p.cm.ents.lenOf d < p'.cm.ents.lenOf d) = E'.filter fun d => p.cm.ents.lenOf d < N d := by
        apply List.filter_congr
        intro d hd
        rw [hX.lenOf hDL (hE'L.mem_iff.1 hd)]
      rw [e1]
      simp only [if_true]
      apply List.map_congr_left
      intro d hd
      rw [hX.lenOf hDL (hE'L.mem_iff.1 (List.mem_filter.1 hd).1)]
  have hsubn : ∀ n v, cm.ents.get? n = some v → ∃ w, p.cm.ents.get? n = some w := by
    intro n v hv
    cases hc : p'.cm.ents.get? n with
    | none => rw [hI.none n hc] at hv; cases hv
    | some w =>
      obtain ⟨c, hc'⟩ := hX.sub n w.1 w.2 hc
      exact ⟨_, hc'⟩
  have halone : ∀ d ∈ L, ∀ n ds c, cm.ents.get? n = some (ds, c) → d ∈ ds → n = d := by
    intro d hd n ds c hc hdd
    by_cases hn : n ∈ L
    · obtain ⟨k, r, hg, _⟩ := hDL.even n hn
      rw [hI.own n hn, hX.own n hn k r hg] at hc
      cases hc
      exact (List.mem_singleton.1 hdd).symm
    · cases hc' : p'.cm.ents.get? n with
      | none => rw [hI.none n hc'] at hc; cases hc
      | some w =>
        obtain ⟨es, x⟩ := w
        by_cases hl : ∃ e ∈ es, e ∈ L
        · rw [hI.lost n hn es x hc' hl] at hc; cases hc
        · push Not at hl
          obtain ⟨y, _, hy⟩ := hI.kept n hn es x hc' hl
          rw [hc] at hy; cases hy
          exact absurd hd (hl d hdd)
  have hcut : Cuttable cm K T := by
    refine ⟨?_, ?_, ?_⟩
    · rw [hT]
      split_ifs
      · exact (hE'L.nodup_iff.2 hDL.nodup).filter _
      · exact List.nodup_nil
    · intro d hd
      obtain ⟨hdL, hlt⟩ := (hTL d).1 hd
      obtain ⟨k, r, hg, hv⟩ := hDL.even d hdL
      have hdD := (hLD d).1 hdL
      refine ⟨by rw [hcmd]; exact hDL.dims d hdL, k, r.upTo (N d), by rw [hI.own d hdL, hX.own d hdL k r hg],
        upTo_valid hv (le_trans (hlen1 d hdD) (hN d hdD)), Nat.sub_pos_of_lt hlt, ?_⟩
      show N d - p.cm.ents.lenOf d < N d
      have := hlen1 d hdD
      omega
    · intro d hd n ds c hc hdd
      exact halone d ((hTL d).1 hd).1 n ds c hc hdd
  obtain ⟨q', hq', hC⟩ := trim_spec (argsort := argsort) (q := ⟨cm, b⟩) hI.wf (by show cm.dims ≠ []; rw [hcmd]; exact hne) hcsh hI.stored (by
    intro n hn
    obtain ⟨v, hv⟩ := Dict.mem_keys.1 hn
    obtain ⟨w, hw⟩ := hsubn n v hv
    show matchesPrefixSuffix cm.dims n = false
    rw [hcmd]
    exact hm.plain n (Dict.mem_keys.2 ⟨w, hw⟩)) hcut
  have hq'd : q'.cm.dims = p.cm.dims := hC.dims.trans hcmd
  have hq'own : ∀ d ∈ D, q'.cm.ents.get? d = p.cm.ents.get? d := by
    intro d hd
    have hdL := (hLD d).2 hd
    obtain ⟨k, r, hg, hv⟩ := hDL.even d hdL
    have hl : p.cm.ents.lenOf d = r.len := by unfold Ents.lenOf; rw [hg]; rfl
    have hcg : cm.ents.get? d = some ([d], .one k (.range (r.upTo (N d)))) := by rw [hI.own d hdL, hX.own d hdL k r hg]
    have hle := hN d hd
    by_cases hdT : d ∈ T
    · rw [hC.own d hdT, cutOf_eq hcg, hg]
      have : (r.upTo (N d)).upTo ((r.upTo (N d)).len - K d) = r := by
        conv_rhs => rw [← upTo_len hv]
        show r.upTo (N d - (N d - p.cm.ents.lenOf d)) = _
        rw [← hl]
        congr 1
        omega
      rw [this]
    · rw [hC.kept d hdT]
      show cm.ents.get? d = _
      rw [hcg, hg]
      have : N d = r.len := by
        by_contra hc
        exact hdT ((hTL d).2 ⟨hdL, by omega⟩)
      rw [this, upTo_len hv]
  have hq'sh : q'.data.shape = p.data.shape := by
    rw [hC.shape, hpsh]
    show cm.dims.map _ = _
    rw [hcmd]
    apply List.map_congr_left
    intro d hd
    show (if d ∈ T then cm.ents.lenOf d - K d else cm.ents.lenOf d) = _
    rw [hlencm d hd]
    by_cases hdL : d ∈ L
    · have hle := hN d ((hLD d).1 hdL)
      have hiff := hTL d
      simp only [hdL, true_and] at hiff
      simp only [hdL, if_true, hiff, hK]
      split_ifs <;> omega
    · have : d ∉ T := fun hc => hdL ((hTL d).1 hc).1
      rw [if_neg this, if_neg hdL]
  refine ⟨⟨q', real.isNone, none⟩, ?_, ⟨hq'd, hq'sh, ?_, ?_, ?_, ?_⟩, rfl, rfl⟩
  · unfold FPatch.idft
    rw [← hq, hask]
    simp only
    rw [if_neg]
    · have hri : (real.map ("ft_" ++ ·)).isNone = real.isNone := by cases real <;> rfl
      simp only [bind, Except.bind, hord, hsp, hax, hco, hst, hszN, hb, hnew, hpdT, hq', pure, Except.pure, hri]
    · simp only [Bool.not_eq_true, List.any_eq_false]
      intro e he
      obtain ⟨d, hd, rfl⟩ := List.mem_map.1 he
      simpa using hftdim d (hEL.mem_iff.1 hd)
  · intro i hi
    have hiq : InRange q'.data.shape i := by rw [hq'sh]; exact hi
    rw [hC.data i hiq]
  · intro n ds c hc hds hsto i hi
    by_cases hn : n ∈ D
    · exact label_kept hc ((hq'own n hn).trans hc) ⟨rfl, fun _ => rfl⟩ hsto i fun d _ => by rw [hq'd]
    · have hds' := hds.resolve_left hn
      have hnL : n ∉ L := fun h => hn ((hLD n).1 h)
      obtain ⟨x, hx, hx'⟩ := hX.kept n hnL ds c hc (fun d hd hc => hds' d hd ((hLD d).1 hc))
      obtain ⟨y, hy, hy'⟩ := hI.kept n hnL ds x hx' (fun d hd hc => hds' d hd ((hLD d).1 hc))
      have hnT : n ∉ T := fun hc => hnL ((hTL n).1 hc).1
      exact label_kept hc ((hC.kept n hnT).trans hy') (canon_same (canon_via hx hy)) hsto i fun d _ => by rw [hq'd]
  · intro n hn ds c hc hl
    have hnL : n ∉ L := fun h => hn ((hLD n).1 h)
    have hnT : n ∉ T := fun hc => hnL ((hTL n).1 hc).1
    rw [hC.kept n hnT]
    show cm.ents.get? n = none
    cases hx : p'.cm.ents.get? n with
    | none => exact hI.none n hx
    | some v =>
      obtain ⟨es, e⟩ := v
      obtain ⟨c', hc'⟩ := hX.sub n es e hx
      rw [hc] at hc'; cases hc'
      obtain ⟨d, hd, hdD⟩ := hl
      exact hI.lost n hnL _ _ hx ⟨d, hd, (hLD d).2 hdD⟩
  · intro n hn
    cases hx : q'.cm.ents.get? n with
    | none => rfl
    | some v =>
      exfalso
      have hnT : n ∉ T := by
        intro hc
        obtain ⟨k, r, hg, _⟩ := hDL.even n ((hTL n).1 hc).1
        rw [hn] at hg; cases hg
      rw [hC.kept n hnT] at hx
      obtain ⟨w, hw⟩ := hsubn n v hx
      rw [hn] at hw; cases hw

theorem idft_spec {argsort : List ℚ → List ℕ} {P Q : FPatch} {D L E : List String} {real : Option String} {pad : Bool} {N : String → ℕ} {p' : PatchM ℂ}
    (hm : Regular P.patch.cm) (hne : P.patch.cm.dims ≠ []) (hsh : P.patch.cm.shape = P.patch.data.shape) (hD : FtReady P.patch.cm D)
    (hreal : RealLast P L real) (hdat : P.isComplex = false → RealData P.patch.data) (hL : L.Perm D) (hN : ∀ d ∈ D, P.patch.cm.ents.lenOf d ≤ N d)
    (hNp : pad = false → ∀ d ∈ D, N d = P.patch.cm.ents.lenOf d)
    (h : Dft P L real pad N Q p') (hE : E.Perm D) {dim : Option (List String)} (hask : Q.patch.cm.idftDims dim = E.map ("ft_" ++ ·))
    (hz : ∀ d ∈ D, (freqRange (N d) (dxOf P.patch.cm d) (decide (real = some d))).cmin = 0 ↔ real = some d) :
    ∃ R, Q.idft argsort dim = .ok R ∧ Restored P.patch R.patch D ∧ R.isComplex = real.isNone ∧ R.padded = none := by
  set p := P.patch with hp
  set q := Q.patch with hq
  have hDL : FtReady p.cm L := hD.perm hL
  have hLD : ∀ d, d ∈ L ↔ d ∈ D := fun d => hL.mem_iff
  have hX : Extended p p' N L := h.ext
  have hrL : ∀ d, real = some d → d ∈ L := by
    rintro d rfl
    rcases hreal with h | ⟨L', r, rfl, h, _⟩
    · cases h
    · cases h; simp
  have hEL : E.Perm L := hE.trans hL.symm
  set E' := realLast E real with hE'
  have hE'E : E'.Perm E := realLast_perm fun r hr => hEL.mem_iff.2 (hrL r hr)
  have hE'L : E'.Perm L := hE'E.trans hEL
  have hprod : (E'.map (dxOf p.cm)).prod = (L.map (dxOf p.cm)).prod := (hE'L.map _).prod_eq
  have hprod0 : (L.map (dxOf p.cm)).prod ≠ 0 := by
    apply List.prod_ne_zero
    intro hc
    obtain ⟨d, hd, h0⟩ := List.mem_map.1 hc
    obtain ⟨k, r, hg, hv⟩ := hDL.even d hd
    unfold dxOf at h0
    rw [hg] at h0
    exact stepFloat_ne hv.step_ne h0
  have haxn : (L.map p.cm.dims.idxOf).Nodup := hDL.nodup.map_on fun a ha b hb h => idxOf_inj_mem (hDL.dims a ha) h
  have hp'l : p'.data.shape.length = p.cm.dims.length := by rw [hX.shape]; simp
  have haxl : ∀ ax ∈ L.map p.cm.dims.idxOf, ax < p'.data.shape.length := by
    intro ax hax
    obtain ⟨d, hd, rfl⟩ := List.mem_map.1 hax
    rw [hp'l]
    exact List.idxOf_lt_length_of_mem (hDL.dims d hd)
  have hpsh : p.data.shape = p.cm.dims.map p.cm.ents.lenOf := by rw [← hsh]; unfold CM.shape; rw [if_neg hne]
  have hszl : (E'.map N).length = (E'.map p.cm.dims.idxOf).length := by simp
  -- the data
  obtain ⟨b, hb, hba⟩ : ∃ b, idftData q.data (real.map ("ft_" ++ ·)) (E'.map p.cm.dims.idxOf) (E'.map N) (E'.map (dxOf p.cm)).prod = .ok b ∧ Agree b p'.data := by
    have hd := h.data
    rw [hprod]
    rcases hreal with hr0 | ⟨L', r, hLr, hr0, hc⟩
    · rw [hr0] at hd ⊢
      unfold dftData at hd
      simp only [Except.ok.injEq] at hd
      rw [hq, ← hd]
      exact round_complex hprod0 haxn haxl (hE'L.map _) hszl
    · have hE'r : E' = E.erase r ++ [r] := by rw [hE', hr0]; rfl
      have hrd : RealData p'.data := by
        intro i hi
        by_cases hip : InRange p.data.shape i
        · rw [hX.data i hi hip]
          exact hdat hc i hip
        · rw [hX.zero i hi hip]
          rfl
      have hperm : (E.erase r).Perm L' := by
        have h1 : (E.erase r ++ [r]).Perm (L' ++ [r]) := by rw [← hE'r, ← hLr]; exact hE'L
        exact (List.perm_append_right_iff [r]).1 h1
      rw [hr0] at hd ⊢
      unfold dftData at hd
      simp only [Bool.false_eq_true, if_false, Except.ok.injEq] at hd
      rw [hq, ← hd]
      have hrd' : r ∈ p.cm.dims := hDL.dims r (hrL r hr0)
      have hgl : (E'.map N).getLastD 0 = p'.data.shape.getD (p.cm.dims.idxOf r) 0 := by
        rw [hE'r, List.map_append, List.map_singleton, List.getLastD_concat, hX.shape, getD_map_idxOf hrd', if_pos (hrL r hr0)]
      have e1 : L.map p.cm.dims.idxOf = L'.map p.cm.dims.idxOf ++ [p.cm.dims.idxOf r] := by rw [hLr, List.map_append]; rfl
      have e2 : E'.map p.cm.dims.idxOf = (E.erase r).map p.cm.dims.idxOf ++ [p.cm.dims.idxOf r] := by rw [hE'r, List.map_append]; rfl
      show ∃ b, idftData (((p'.data.rfftn (L.map p.cm.dims.idxOf)).scale ((L.map (dxOf p.cm)).prod : ℚ)).shiftAll (L.map p.cm.dims.idxOf).dropLast)
        (some ("ft_" ++ r)) (E'.map p.cm.dims.idxOf) (E'.map N) (L.map (dxOf p.cm)).prod = .ok b ∧ Agree b p'.data
      rw [e1] at haxn haxl ⊢
      rw [e2] at hszl ⊢
      exact round_real hrd hprod0 haxn haxl (hperm.map _) hszl hgl _
  obtain ⟨R, h1, h2, h3⟩ := idft_run (argsort := argsort) hm hne hsh hD hrL hL hN hNp hX h.spec h.padded hE hask hz hb hba.1
  refine ⟨R, h1, ⟨h2.dims, h2.shape, ?_, h2.labels, h2.lost, h2.none⟩, h3⟩
  intro i hi
  rw [h2.data i hi]
  have hib : InRange p'.data.shape i := by
    refine inRange_iff.2 ⟨?_, ?_⟩
    · rw [inRange_length hi, hp'l, hpsh]; simp
    · intro ax hax
      have h1 := (inRange_iff.1 hi).2 ax (by rw [hpsh]; rw [hp'l] at hax; simpa using hax)
      refine lt_of_lt_of_le h1 ?_
      have hax' : ax < p.cm.dims.length := by rw [← hp'l]; exact hax
      rw [hpsh, hX.shape, List.getD_eq_getElem?_getD, List.getD_eq_getElem?_getD, List.getElem?_map, List.getElem?_map, List.getElem?_eq_getElem hax']
      simp only [Option.map_some, Option.getD_some]
      split_ifs with hdL
      · exact hN _ ((hLD _).1 hdL)
      · exact le_refl _
  show b.get i = _
  rw [hba.2 i (hba.1 ▸ hib)]
  exact hX.data i hib hi

end Verif
