import Verif.Proof.Pad
/-! # Lemmas: squeezing a patch and appending dimensions -/
namespace Verif
open Spec

theorem maskIdx_map_filter {α} (f : String → α) (keep : String → Bool) (l : List String) :
    maskIdx (l.map f) (l.map keep) = (l.filter keep).map f := by
  unfold maskIdx
  induction l with
  | nil => rfl
  | cons d l ih =>
    simp only [List.map_cons, List.zip_cons_cons, List.filterMap_cons, List.filter_cons, ih]
    cases keep d <;> simp

theorem unsqueeze_map (g : String → ℕ) (keep : String → Bool) (l : List String) :
    Nd.unsqueeze (l.map keep) ((l.filter keep).map g) = l.map fun d => if keep d then g d else 0 := by
  induction l with
  | nil => rfl
  | cons d l ih =>
    simp only [List.map_cons, List.filter_cons]
    cases hk : keep d with
    | true => simp [Nd.unsqueeze, ih]
    | false => simp [Nd.unsqueeze, ih]

theorem map_posAlong {α} {p : PatchM α} (hn : p.cm.dims.Nodup) {i : List ℕ} (hi : i.length = p.cm.dims.length) :
    p.cm.dims.map (fun d => posAlong p d i) = i := by
  apply List.ext_getElem
  · simp [hi]
  · intro j h1 h2
    have hj : j < p.cm.dims.length := by simpa using h1
    rw [List.getElem_map]
    unfold posAlong
    rw [hn.idxOf_getElem j hj, List.getD_eq_getElem?_getD, List.getElem?_eq_getElem h2]
    rfl

theorem squeeze_spec {α} {p q : PatchM α} (hw : WellFormed p.cm) (hn : DistinctDims p.cm) (hd : p.cm.dims ≠ []) (hsh : p.cm.shape = p.data.shape)
    {dim : Option (List String)} (hz : dim = none → ∀ d ∈ p.cm.dims, lenDim p.cm d ≠ 0) (h : p.squeeze dim = .ok q) :
    Squeezed p q (dim.getD (p.cm.dims.filter fun d => lenDim p.cm d = 1)) := by
  have hshape : p.data.shape = p.cm.dims.map p.cm.ents.lenOf := by
    rw [← hsh]; unfold CM.shape; rw [if_neg hd]
  unfold PatchM.squeeze at h
  simp only [bind, Except.bind] at h
  split at h
  · cases h
  rename_i cm hcm
  -- the manager
  set gone := dim.getD (p.cm.dims.filter fun d => lenDim p.cm d = 1) with hgone
  have hgn : p.cm.squeezeNames dim = gone := by
    unfold CM.squeezeNames
    cases dim with
    | some l => rfl
    | none =>
      rw [hgone]
      show p.cm.dims.filter _ = p.cm.dims.filter _
      refine List.filter_congr fun d hdd => ?_
      have := hz rfl d hdd
      unfold lenDim at *
      by_cases h1 : p.cm.ents.lenOf d = 1
      · simp [h1]
      · have : ¬ p.cm.ents.lenOf d ≤ 1 := by omega
        simp [h1, this]
  unfold CM.squeeze at hcm
  simp only at hcm
  rw [hgn] at hcm
  split at hcm
  · cases hcm
  rename_i hmem
  split at hcm
  · cases hcm
  rename_i hlen
  have hmem' : ∀ d ∈ gone, d ∈ p.cm.dims := by
    intro d hd
    by_contra hc
    exact hmem (List.any_eq_true.2 ⟨d, hd, by simp [hc]⟩)
  obtain ⟨cm', h1, hD⟩ := dropCoords_spec hw gone
  rw [hcm] at h1; cases h1
  split at h
  · -- nothing to do
    rename_i hnil
    cases h
    have hg0 : gone = [] := by
      rw [← hgn]; simpa using hnil
    rw [hg0]
    refine ⟨⟨by simp, by simp, fun name ds c h _ _ => h, fun _ h => h⟩, by simp, hshape, ?_⟩
    intro i hi
    rw [map_posAlong hn (by rw [hshape] at hi; simpa using inRange_length hi)]
  · split at h
    · cases h
    rename_i keep hkeep
    obtain ⟨rfl, hs⟩ := new_ok h
    have hk : keep = p.cm.dims.map (fun d => decide (d ∉ gone)) ∧ ∀ d ∈ gone, lenDim p.cm d = 1 := by
      unfold PatchM.squeezeKeep at hkeep
      cases dim with
      | none =>
        cases hkeep
        rw [hshape, List.map_map]
        refine ⟨List.map_congr_left fun d hdd => ?_, ?_⟩
        · rw [hgone]
          simp only [Function.comp, Option.getD_none, List.mem_filter, hdd, decide_eq_true_iff, true_and]
          unfold lenDim
          by_cases h1 : p.cm.ents.lenOf d = 1 <;> simp [h1]
        · intro d hdd
          rw [hgone] at hdd
          simpa using (List.mem_filter.1 hdd).2
      | some l =>
        simp only at hkeep
        split at hkeep
        · cases hkeep
        split at hkeep
        · cases hkeep
        rename_i hone
        cases hkeep
        refine ⟨List.map_congr_left fun d hdd => ?_, ?_⟩
        · rw [hgone]
          simp only [Option.getD_some]
          by_cases hdl : d ∈ l <;> simp [hdl]
        · intro d hdd
          by_contra hc
          apply hone
          refine List.any_eq_true.2 ⟨d, hdd, ?_⟩
          rw [hshape, List.getD_eq_getElem?_getD, List.getElem?_map,
            List.getElem?_eq_getElem (List.idxOf_lt_length_of_mem (hmem' d hdd))]
          simpa [lenDim] using hc
    obtain ⟨rfl, hones⟩ := hk
    have hdims : cm.dims = p.cm.dims.filter (fun d => decide (d ∉ gone)) := hD.dims
    refine ⟨hD, fun d hdd => ⟨hmem' d hdd, hones d hdd⟩, ?_, ?_⟩
    · show maskIdx p.data.shape _ = _
      rw [hshape, maskIdx_map_filter, hdims]; rfl
    · intro i hi
      show p.data.get (Nd.unsqueeze _ _) = _
      rw [hdims, unsqueeze_map]
      congr 1
      have hi' := hi
      rw [hshape] at hi'
      rw [← map_posAlong (p := p) hn (i := i) (by simpa using inRange_length hi')]
      refine List.map_congr_left fun d hdd => ?_
      rw [map_posAlong (p := p) hn (i := i) (by simpa using inRange_length hi')]
      by_cases hg : d ∈ gone
      · have := inRange_getD hi' hdd
        have h1 := hones d hg
        unfold lenDim at h1
        rw [h1] at this
        simp only [hg, not_true_eq_false, decide_false, Bool.false_eq_true, if_false]
        unfold posAlong; omega
      · simp [hg]

theorem take_inRange {sh i j : List ℕ} (h : InRange sh i) : (i ++ j).take sh.length = i := by
  rw [← inRange_length h]; simp

theorem append_getD {i j : List ℕ} {k : ℕ} (h : k < i.length) : (i ++ j).getD k 0 = i.getD k 0 := by
  rw [List.getD_eq_getElem?_getD, List.getD_eq_getElem?_getD, List.getElem?_append_left h]

theorem appendDims_spec {α} {p q : PatchM α} (hw : WellFormed p.cm) (hd : p.cm.dims ≠ []) (hsh : p.cm.shape = p.data.shape) {kw : Dict MCoord}
    (hk : kw.keys.Nodup) (hplain : ∀ name ∈ kw.keys, matchesPrefixSuffix p.cm.dims name = false)
    (hfresh : ∀ name ∈ kw.keys, p.cm.ents.get? name = none) (h : p.appendDims kw = .ok q) : Extended p q kw := by
  have hshape : p.data.shape = p.cm.dims.map p.cm.ents.lenOf := by
    rw [← hsh]; unfold CM.shape; rw [if_neg hd]
  have hnd : ∀ r ∈ kw, r.1 ∉ p.cm.dims := by
    intro r hr hc
    obtain ⟨c, n, h1, _⟩ := CM.WellFormed.get_dim hw hc
    rw [hfresh r.1 (List.mem_map_of_mem hr)] at h1; cases h1
  unfold PatchM.appendDims at h
  have hf : kw.filter (fun q => !p.cm.dims.contains q.1) = kw := by
    rw [List.filter_eq_self]
    intro r hr
    simpa using hnd r hr
  simp only at h
  rw [hf] at h
  split at h
  · rename_i he
    cases h
    rw [List.isEmpty_iff] at he
    subst he
    refine ⟨by simp, by simp, ?_, ?_, by simp, fun _ h _ => h⟩
    · intro i j _ hj; cases hj; simp
    · intro name ds c _ _ i j _ hj; cases hj; simp
  · simp only [bind, Except.bind] at h
    split at h
    · cases h
    rename_i cm hcm
    obtain ⟨rfl, hs⟩ := new_ok h
    set kw' : Dict CArg := kw.map fun q => (q.1, CArg.nested [q.1] q.2) with hkw'
    have hkk : Dict.keys kw' = Dict.keys kw := by rw [hkw']; simp [Dict.keys, Function.comp_def]
    have hgetn : ∀ name, Dict.get? kw' name = (Dict.get? kw name).map fun c => CArg.nested [name] c := by
      intro name
      rw [hkw']
      exact Dict.get?_map_val kw (fun n c => CArg.nested [n] c) name
    have hU := update_spec hw (by rw [hkk]; exact hk) (fun n hn => hplain n (hkk ▸ hn)) hcm
    have hdn : dropNames kw' = [] := by
      unfold dropNames
      rw [List.map_eq_nil_iff, List.filter_eq_nil_iff]
      intro r hr
      rw [hkw'] at hr
      obtain ⟨r', _, rfl⟩ := List.mem_map.1 hr
      simp [CArg.isDrop]
    have hdims : cm.dims = p.cm.dims ++ kw.map Prod.fst := by
      rw [hU.dims, hdn]
      have : (kw'.filter fun q => ((argOf q.1 q.2).map Prod.fst == some [q.1]) && !p.cm.dims.contains q.1) = kw' := by
        rw [List.filter_eq_self]
        intro r hr
        rw [hkw'] at hr
        obtain ⟨r', hr', rfl⟩ := List.mem_map.1 hr
        simp [argOf, hnd r' hr']
      rw [this, hkw']
      simp [Function.comp_def]
    have hres : ∀ e, ¬ Resized p.cm kw' e := by
      rintro e ⟨h1, a', ds, c1, ds', c2, h2, h3, h4, h5⟩
      rw [hgetn] at h2
      obtain ⟨c, h6, _⟩ := Option.map_eq_some_iff.1 h2
      rw [hfresh e (Dict.mem_keys.2 ⟨_, h6⟩)] at h4; cases h4
    refine ⟨hdims, rfl, ?_, ?_, ?_, ?_⟩
    · intro i j hi _
      show p.data.get (List.take _ _) = _
      rw [take_inRange hi]
    · intro name ds c hn hsto i j hi _
      have hnk : Dict.get? kw' name = none := by
        rw [hgetn, Option.map_eq_none_iff, Dict.get?_eq_none]
        intro hc
        rw [hfresh name hc] at hn; cases hn
      obtain ⟨x, h1, h2⟩ := hU.kept name ds c hnk hn (fun e _ => ⟨by simp [hdn], hres e⟩)
      unfold label
      rw [hn]
      simp only [h2]
      cases ds with
      | nil => rfl
      | cons d0 ds =>
        simp only [h1.2 hsto]
        congr 1
        unfold labelAt
        congr 1
        refine List.map_congr_left fun d hdd => ?_
        have hdm := hw.attached _ _ _ (Dict.mem_of_get? hn) d hdd
        have hlt := List.idxOf_lt_length_of_mem hdm
        rw [hdims, List.idxOf_append_of_mem hdm]
        apply append_getD
        have := inRange_length hi
        rw [hshape, List.length_map] at this
        omega
    · intro name c hc
      have := Dict.get?_of_mem hk hc
      exact hU.given name (.nested [name] c) [name] c (by rw [hgetn, this]; rfl) rfl
    · intro name hn hnk
      refine hU.none name ?_ hn
      rw [Dict.get?_eq_none, hkk]
      exact hnk

end Verif
