import Verif.Proof.FourierPatch
import Verif.Proof.Strain
/-! # Lemmas: removing the padding after an inverse transform -/
namespace Verif
open Spec

/-- `0:-k`. -/
def upSlice (k : ℕ) : PySlice := ⟨some 0, some (-(k : ℤ)), none⟩

theorem upSlice_indices {n k : ℕ} (h0 : 0 < k) (h1 : k < n) : (upSlice k).indices n = .ok ⟨0, 1, n - k⟩ := by
  unfold upSlice PySlice.indices
  simp only [Option.getD_none, Option.map_some, Option.getD_some]
  rw [if_neg (by omega), if_pos (by omega)]
  have e1 : clipBound n 0 n 0 = 0 := by unfold clipBound; simp
  have e2 : clipBound n 0 n (-(k : ℤ)) = ((n - k : ℕ) : ℤ) := by unfold clipBound; simp; split_ifs; omega
  rw [e1, e2]
  congr 1
  rw [if_pos (by omega)]
  congr 1
  simp

theorem upSlice_positions {n k : ℕ} (h0 : 0 < k) (h1 : k < n) : (Indexer.slice (upSlice k)).positions n = .ok (List.range (n - k)) := by
  show pySlice (List.range n) _ = _
  unfold upSlice
  rw [pySlice_unit (List.range n) 0 (n - k) (some 0) (some (-(k : ℤ))) (by unfold clipBound; simp) (by
    unfold clipBound; simp; split_ifs; omega)]
  congr 1
  apply List.ext_getElem
  · simp
  · intro i h2 h3; simp

theorem upSlice_range {r : RangeCoord} (hv : r.Valid) {k : ℕ} (h0 : 0 < k) (h1 : k < r.len) :
    r.getSlice (upSlice k) = .ok (.range (r.upTo (r.len - k))) := by
  unfold RangeCoord.getSlice
  rw [upSlice_indices h0 h1]
  simp only [bind, Except.bind]
  rw [if_pos (by omega)]
  unfold RangeCoord.new getCoordParts mkRangeParts
  simp only [Int.cast_one, mul_one, Int.cast_zero, zero_mul, add_zero]
  have := mkRange_canonical (start := r.start) (step := r.step) (n := r.len - k) hv.step_ne (by omega)
  simp only [this]
  rfl

/-- The dimensions `T` are evenly sampled, longer than `K`, and no other coordinate is attached to them. -/
structure Cuttable (m : CM) (K : String → ℕ) (T : List String) : Prop where
  nodup : T.Nodup
  own : ∀ d ∈ T, d ∈ m.dims ∧ ∃ k r, m.ents.get? d = some ([d], .one k (.range r)) ∧ r.Valid ∧ 0 < K d ∧ K d < r.len
  alone : ∀ d ∈ T, ∀ n ds c, m.ents.get? n = some (ds, c) → d ∈ ds → n = d

def cutOf (m : CM) (K : String → ℕ) (d : String) : List String × MCoord :=
  match m.ents.get? d with
  | some (_, .one k (.range r)) => ([d], .one k (.range (r.upTo (r.len - K d))))
  | _ => ([], .one .float (.part 0))

theorem cutOf_eq {m : CM} {K : String → ℕ} {d : String} {k : Kind} {r : RangeCoord} (h : m.ents.get? d = some ([d], .one k (.range r))) :
    cutOf m K d = ([d], .one k (.range (r.upTo (r.len - K d)))) := by
  unfold cutOf; rw [h]

def cutArg (K : String → ℕ) (d : String) : String × CQuery := (d, .slice (.pair (some 0) (some (-(K d : ℤ)))))

theorem selStep_cut {argsort : List ℚ → List ℕ} {m : CM} {K : String → ℕ} {T : List String} (h : Cuttable m K T) {d : String} (hd : d ∈ T)
    (hk : m.ents.keys.Nodup) (st : Ents × Dict Indexer) :
    m.selStep argsort st (cutArg K d) = .ok (st.1.set d (cutOf m K d), st.2.set d (.slice (upSlice (K d)))) := by
  obtain ⟨_, k, r, hg, hv, h0, h1⟩ := h.own d hd
  have hq : Coord.query argsort k (.range r) (.slice (.pair (some 0) (some (-(K d : ℤ))))) =
      .ok (.range (r.upTo (r.len - K d)), .slice (upSlice (K d))) := by
    show (r.getSlice (upSlice (K d))).map _ = _
    rw [upSlice_range hv h0 h1]
    rfl
  have hi : ∀ e : Ents, m.indirect d d (.slice (upSlice (K d))) e = .ok e := by
    intro e
    unfold CM.indirect
    have : (m.ents.filter fun p => p.2.1.contains d && p.1 != d) = [] := by
      rw [List.filter_eq_nil_iff]
      rintro ⟨n, ds, c⟩ hp hc
      simp only [Bool.and_eq_true, List.contains_iff_mem, bne_iff_ne, ne_eq] at hc
      exact hc.2 (h.alone d hd n ds c ((Dict.mem_iff hk).1 hp) hc.1)
    rw [this]
    rfl
  unfold CM.selStep cutArg
  simp only [hg, bind, Except.bind, hq, hi]
  rw [cutOf_eq hg]
  rfl

theorem cut_fold {argsort : List ℚ → List ℕ} {m : CM} {K : String → ℕ} {T : List String} (h : Cuttable m K T) (hk : m.ents.keys.Nodup) :
    ∀ {L : List String}, (∀ d ∈ L, d ∈ T) → ∀ st : Ents × Dict Indexer, st.1.keys.Nodup →
      ∃ st', (L.map (cutArg K)).foldlM (m.selStep argsort) st = .ok st' ∧ st'.1.keys.Nodup ∧
        (∀ n, st'.1.get? n = if n ∈ L then some (cutOf m K n) else st.1.get? n) ∧
        (∀ n, st'.2.get? n = if n ∈ L then some (.slice (upSlice (K n))) else st.2.get? n)
  | [], _, st, hn => ⟨st, rfl, hn, by simp, by simp⟩
  | d :: L, hL, st, hn => by
    obtain ⟨st', h1, h2, h3, h4⟩ := cut_fold h hk (L := L) (fun e he => hL e (by simp [he])) (st.1.set d (cutOf m K d), st.2.set d (.slice (upSlice (K d))))
      (Dict.nodup_set hn _ _)
    refine ⟨st', ?_, h2, ?_, ?_⟩
    · rw [List.map_cons, List.foldlM_cons, selStep_cut h (hL d (by simp)) hk]
      exact h1
    · intro n
      rw [h3 n]
      by_cases hnL : n ∈ L
      · rw [if_pos hnL, if_pos (by simp [hnL])]
      · rw [if_neg hnL]
        show Dict.get? (st.1.set d _) n = _
        rw [Dict.get?_set]
        by_cases hnd : n = d
        · subst hnd; simp
        · simp [hnL, hnd]
    · intro n
      rw [h4 n]
      by_cases hnL : n ∈ L
      · rw [if_pos hnL, if_pos (by simp [hnL])]
      · rw [if_neg hnL]
        show Dict.get? (st.2.set d _) n = _
        rw [Dict.get?_set]
        by_cases hnd : n = d
        · subst hnd; simp
        · simp [hnL, hnd]

/-- `q'` is `q` with only the first samples along the dimensions `T`. -/
structure Cut (q q' : PatchM ℂ) (K : String → ℕ) (T : List String) : Prop where
  dims : q'.cm.dims = q.cm.dims
  own : ∀ d ∈ T, q'.cm.ents.get? d = some (cutOf q.cm K d)
  kept : ∀ n ∉ T, q'.cm.ents.get? n = q.cm.ents.get? n
  shape : q'.data.shape = q.cm.dims.map fun d => if d ∈ T then q.cm.ents.lenOf d - K d else q.cm.ents.lenOf d
  data : ∀ i, InRange q'.data.shape i → q'.data.get i = q.data.get i

theorem cut_spec {argsort : List ℚ → List ℕ} {q : PatchM ℂ} (hw : WellFormed q.cm) (hne : q.cm.dims ≠ [])
    (hsh : q.cm.shape = q.data.shape) (hsto : ∀ n ds c, q.cm.ents.get? n = some (ds, c) → c.canon = .ok c)
    (hplain : ∀ n ∈ q.cm.ents.keys, matchesPrefixSuffix q.cm.dims n = false) {K : String → ℕ} {T : List String} (h : Cuttable q.cm K T) :
    ∃ q', q.select argsort (T.map (cutArg K)) = .ok q' ∧ Cut q q' K T := by
  have hk : q.cm.ents.keys.Nodup := hw.names
  have hmemk : ∀ d ∈ T, d ∈ q.cm.ents.keys := by
    intro d hd
    obtain ⟨_, k, r, hg, _⟩ := h.own d hd
    exact (Dict.mem_keys.2 ⟨_, hg⟩)
  have hqsh : q.data.shape = q.cm.dims.map q.cm.ents.lenOf := by rw [← hsh]; unfold CM.shape; rw [if_neg hne]
  obtain ⟨st, h1, h2, h3, h4⟩ := cut_fold (argsort := argsort) h hk (L := T) (fun d hd => hd) (q.cm.ents, q.cm.dims.map fun d => (d, Indexer.slice {})) hk
  have hlenT : ∀ d ∈ T, (cutOf q.cm K d).2.len = q.cm.ents.lenOf d - K d := by
    intro d hd
    obtain ⟨_, k, r, hg, hv, h0, h1⟩ := h.own d hd
    rw [cutOf_eq hg]
    unfold Ents.lenOf
    rw [hg]
    rfl
  have hgn : ∀ n, Dict.get? (CM.nested st.1) n = if n ∈ T then some (.nested (cutOf q.cm K n).1 (cutOf q.cm K n).2)
      else (q.cm.ents.get? n).map fun p => CArg.nested p.1 p.2 := by
    intro n
    rw [get?_nested, h3 n]
    split_ifs <;> rfl
  have hnn : (Dict.keys (CM.nested st.1)).Nodup := by rw [CM.nested_keys]; exact h2
  have hpl : ∀ n ∈ Dict.keys (CM.nested st.1), matchesPrefixSuffix q.cm.dims n = false := by
    intro n hn
    obtain ⟨v, hv⟩ := Dict.mem_keys.1 hn
    rw [hgn] at hv
    split_ifs at hv with hT
    · exact hplain n (hmemk n hT)
    · cases hc : q.cm.ents.get? n with
      | none => rw [hc] at hv; cases hv
      | some v => exact hplain n (Dict.mem_keys.2 ⟨_, hc⟩)
  have hnl : ∀ d ∈ q.cm.dims, newLen q.cm (CM.nested st.1) d = if d ∈ T then q.cm.ents.lenOf d - K d else q.cm.ents.lenOf d := by
    intro d hd
    unfold newLen
    rw [hgn]
    split_ifs with hT
    · exact hlenT d hT
    · obtain ⟨c, _, hc, _⟩ := CM.WellFormed.get_dim hw hd
      rw [hc]
      show c.len = _
      unfold Ents.lenOf
      rw [hc]
  obtain ⟨cm, hcm⟩ := update_total hw hnn hpl (by
    intro n a ha
    rw [hgn] at ha
    split_ifs at ha with hT
    · cases ha
      obtain ⟨hd, k, r, hg, hv, _, _⟩ := h.own n hT
      have e := cutOf_eq (K := K) hg
      refine ⟨[n], (cutOf q.cm K n).2, (cutOf q.cm K n).2, by rw [e]; rfl, by rw [e]; rfl, by simpa using hd, fun _ => rfl, Or.inr ?_⟩
      rw [List.map_singleton, hnl n hd, if_pos hT, ← hlenT n hT, e]
      rfl
    · cases hc : q.cm.ents.get? n with
      | none => rw [hc] at ha; cases ha
      | some v =>
        obtain ⟨ds, c⟩ := v
        rw [hc] at ha
        cases ha
        have hmem := Dict.mem_of_get? hc
        refine ⟨ds, c, c, rfl, hsto n ds c hc, fun d hd => hw.attached _ _ _ hmem d hd, fun hn => ?_, ?_⟩
        · obtain ⟨c', _, hc', _⟩ := CM.WellFormed.get_dim hw hn
          rw [hc] at hc'; cases hc'; rfl
        · by_cases hds : ds = []
          · exact Or.inl hds
          · refine Or.inr ?_
            rw [CM.WellFormed.shape_eq hw hmem hds]
            apply List.map_congr_left
            intro d hd
            rw [hnl d (hw.attached _ _ _ hmem d hd), if_neg]
            intro hc'
            have := h.alone d hc' n ds c hc hd
            exact hT (this ▸ hc')) (fun n ds c hc => ⟨c, hsto n ds c hc⟩)
  have hU := update_spec hw hnn hpl hcm
  have hdn : dropNames (CM.nested st.1) = [] := by
    unfold dropNames
    rw [List.map_eq_nil_iff, List.filter_eq_nil_iff]
    intro x hx
    obtain ⟨y, _, rfl⟩ := List.mem_map.1 hx
    simp [CArg.isDrop]
  have hdims : cm.dims = q.cm.dims := by
    rw [hU.dims, hdn]
    have : ((CM.nested st.1).filter fun x => ((argOf x.1 x.2).map Prod.fst == some [x.1]) && !q.cm.dims.contains x.1) = [] := by
      rw [List.filter_eq_nil_iff]
      rintro ⟨n, a⟩ hx hc
      have hget := Dict.get?_of_mem hnn hx
      rw [hgn] at hget
      simp only [Bool.and_eq_true, beq_iff_eq, Bool.not_eq_true', List.contains_eq_mem, decide_eq_false_iff_not] at hc
      split_ifs at hget with hT
      · exact hc.2 (h.own n hT).1
      · cases hc' : q.cm.ents.get? n with
        | none => rw [hc'] at hget; cases hget
        | some v =>
          obtain ⟨ds, c⟩ := v
          rw [hc'] at hget
          cases hget
          have : ds = [n] := by simpa [argOf] using hc.1
          subst this
          exact hc.2 (hw.attached _ _ _ (Dict.mem_of_get? hc') n (by simp))
    rw [this]; simp
  have hown : ∀ d ∈ T, cm.ents.get? d = some (cutOf q.cm K d) := by
    intro d hd
    obtain ⟨_, k, r, hg, _⟩ := h.own d hd
    have e := cutOf_eq (K := K) hg
    obtain ⟨x, g1, g2⟩ := hU.givenC d _ (cutOf q.cm K d).1 (cutOf q.cm K d).2 (by rw [hgn, if_pos hd]) rfl
    rw [e] at g1
    cases g1
    rw [g2, e]
  have hkept : ∀ n ∉ T, cm.ents.get? n = q.cm.ents.get? n := by
    intro n hn
    cases hc : q.cm.ents.get? n with
    | none => exact hU.none n (by rw [hgn, if_neg hn, hc]; rfl) hc
    | some v =>
      obtain ⟨ds, c⟩ := v
      obtain ⟨x, g1, g2⟩ := hU.givenC n (.nested ds c) ds c (by rw [hgn, if_neg hn, hc]; rfl) rfl
      rw [hsto n ds c hc] at g1
      cases g1
      exact g2
  have hlen : ∀ d ∈ q.cm.dims, cm.ents.lenOf d = if d ∈ T then q.cm.ents.lenOf d - K d else q.cm.ents.lenOf d := by
    intro d hd
    split_ifs with hT
    · rw [← hlenT d hT]
      conv_lhs => unfold Ents.lenOf
      rw [hown d hT]
    · unfold Ents.lenOf; rw [hkept d hT]
  set rs := q.cm.dims.map fun d => List.range (if d ∈ T then q.cm.ents.lenOf d - K d else q.cm.ents.lenOf d) with hrs
  have hxs : q.cm.indexersAndCoords argsort (T.map (cutArg K)) =
      .ok (st.1, q.cm.dims.map fun d => if d ∈ T then Indexer.slice (upSlice (K d)) else .slice {}) := by
    unfold CM.indexersAndCoords
    rw [h1]
    simp only [bind, Except.bind, pure, Except.pure]
    congr 2
    apply List.map_congr_left
    intro d hd
    rw [h4 d]
    have : Dict.get? (q.cm.ents, q.cm.dims.map fun d => (d, Indexer.slice {})).2 d = some (.slice {}) := by
      show Dict.get? (q.cm.dims.map fun d => (d, Indexer.slice {})) d = _
      rw [get?_pairs (fun _ => Indexer.slice {}), if_pos hd]
    rw [this]
    split_ifs <;> rfl
  have hpos : ∀ d ∈ q.cm.dims, ∃ l, (if d ∈ T then Indexer.slice (upSlice (K d)) else .slice {}).positions (q.cm.ents.lenOf d) = .ok l ∧
      l = List.range (if d ∈ T then q.cm.ents.lenOf d - K d else q.cm.ents.lenOf d) := by
    intro d hd
    by_cases hT : d ∈ T
    · obtain ⟨_, k, r, hg, hv, h0, h1⟩ := h.own d hT
      have e : q.cm.ents.lenOf d = r.len := by unfold Ents.lenOf; rw [hg]; rfl
      rw [if_pos hT, if_pos hT, e]
      exact ⟨_, upSlice_positions h0 h1, rfl⟩
    · rw [if_neg hT, if_neg hT]
      exact ⟨_, slice_all_positions _, rfl⟩
  have happ : applyUnion (q.cm.dims.map fun d => if d ∈ T then Indexer.slice (upSlice (K d)) else .slice {}) q.data = .ok (q.data.outer rs) := by
    have hf : ((q.cm.dims.map fun d => if d ∈ T then Indexer.slice (upSlice (K d)) else .slice {}).filter Indexer.isArray) = [] := by
      rw [List.filter_eq_nil_iff]
      intro x hx
      obtain ⟨d, _, rfl⟩ := List.mem_map.1 hx
      split_ifs <;> simp [Indexer.isArray]
    unfold applyUnion
    rw [hf, if_neg (by simp)]
    unfold Nd.indexTuple
    rw [hf, if_neg (by simp), hqsh, List.zip_map']
    have key := mapM_ok' (fun p : Indexer × ℕ => p.1.positions p.2) (fun p : Indexer × ℕ => ((p.1.positions p.2).toOption).getD [])
      (q.cm.dims.map fun d => ((if d ∈ T then Indexer.slice (upSlice (K d)) else .slice {}), q.cm.ents.lenOf d)) (by
        intro x hx
        obtain ⟨d, hd, rfl⟩ := List.mem_map.1 hx
        obtain ⟨l, hl, _⟩ := hpos d hd
        show (if d ∈ T then Indexer.slice (upSlice (K d)) else .slice {}).positions (q.cm.ents.lenOf d) = _
        simp only [hl]
        rfl)
    simp only [key, bind, Except.bind, pure, Except.pure]
    congr 2
    rw [List.map_map]
    apply List.map_congr_left
    intro d hd
    obtain ⟨l, hl, hl'⟩ := hpos d hd
    show (((if d ∈ T then Indexer.slice (upSlice (K d)) else .slice {}).positions (q.cm.ents.lenOf d)).toOption).getD [] = _
    rw [hl, ← hl']
    rfl
  have hash : (q.data.outer rs).shape = q.cm.dims.map fun d => if d ∈ T then q.cm.ents.lenOf d - K d else q.cm.ents.lenOf d := by
    show rs.map List.length = _
    rw [hrs, List.map_map]
    apply List.map_congr_left
    intro d _
    simp
  have hnew : PatchM.new cm (q.data.outer rs) = .ok ⟨cm, q.data.outer rs⟩ := by
    unfold PatchM.new
    rw [if_pos]
    unfold CM.shape
    rw [hdims, if_neg hne, hash]
    exact List.map_congr_left fun d hd => hlen d hd
  have hgroups : q.cm.groups (T.map (cutArg K)) = [T.map (cutArg K)] := by
    unfold CM.groups
    have e : ((T.map (cutArg K)).filter fun p => q.cm.ents.keys.contains p.1) = T.map (cutArg K) := by
      rw [List.filter_eq_self]
      intro x hx
      obtain ⟨d, hd, rfl⟩ := List.mem_map.1 hx
      simpa [cutArg] using hmemk d hd
    simp only [e]
    rw [if_pos]
    rw [List.map_map]
    refine h.nodup.map_on ?_
    intro a ha b hb hab
    obtain ⟨_, _, _, ga, _⟩ := h.own a ha
    obtain ⟨_, _, _, gb, _⟩ := h.own b hb
    simpa [cutArg, ga, gb] using hab
  refine ⟨⟨cm, q.data.outer rs⟩, ?_, hdims, hown, hkept, hash, ?_⟩
  · unfold PatchM.select
    rw [if_neg]
    · unfold CM.select
      rw [hgroups]
      simp only [List.foldlM_cons, List.foldlM_nil, CM.selectGroup, CM.groupCM, hxs, bind, Except.bind, hcm, happ, pure, Except.pure]
      exact hnew
    · simp only [Bool.not_eq_true, List.any_eq_false]
      intro x hx
      obtain ⟨d, hd, rfl⟩ := List.mem_map.1 hx
      simpa [cutArg] using hmemk d hd
  · intro i hi
    show q.data.get (List.zipWith (fun r j => r.getD j 0) rs i) = q.data.get i
    congr 1
    have hi' : InRange (rs.map List.length) i := hi
    unfold InRange at hi'
    rw [List.forall₂_map_right_iff] at hi'
    have hall : ∀ r ∈ rs, ∃ n, r = List.range n := by
      intro r hr
      obtain ⟨d, _, rfl⟩ := List.mem_map.1 hr
      exact ⟨_, rfl⟩
    clear_value rs
    clear hi happ hash hnew hrs
    induction hi' with
    | nil => rfl
    | cons hab _ ih =>
      obtain ⟨n, rfl⟩ := hall _ (List.mem_cons_self ..)
      rw [List.zipWith_cons_cons, ih fun r hr => hall r (List.mem_cons_of_mem _ hr)]
      congr 1
      rw [List.length_range] at hab
      simp [List.getD_eq_getElem?_getD, hab]

theorem trim_spec {argsort : List ℚ → List ℕ} {q : PatchM ℂ} (hw : WellFormed q.cm) (hne : q.cm.dims ≠ [])
    (hsh : q.cm.shape = q.data.shape) (hsto : ∀ n ds c, q.cm.ents.get? n = some (ds, c) → c.canon = .ok c)
    (hplain : ∀ n ∈ q.cm.ents.keys, matchesPrefixSuffix q.cm.dims n = false) {K : String → ℕ} {T : List String} (h : Cuttable q.cm K T) :
    ∃ q', q.trim argsort (T.map fun d => (d, K d)) = .ok q' ∧ Cut q q' K T := by
  cases T with
  | nil =>
    refine ⟨q, rfl, rfl, by simp, fun _ _ => rfl, ?_, fun _ _ => rfl⟩
    rw [← hsh]; unfold CM.shape; rw [if_neg hne]; simp
  | cons d T =>
    obtain ⟨q', h1, h2⟩ := cut_spec (argsort := argsort) hw hne hsh hsto hplain h
    refine ⟨q', ?_, h2⟩
    unfold PatchM.trim
    rw [if_neg (by simp)]
    rw [List.map_map]
    exact h1

end Verif
