import Verif.Proof.Integrate
import Verif.Props.Patch
/-! # Strain rates from pairs of samples -/
namespace Verif
open Spec

/-- Selecting by one coordinate. -/
theorem select_one {α} {argsort : List ℚ → List ℕ} (ha : IsArgsort argsort) {p q : PatchM α} (hm : Regular p.cm) (hd : p.cm.dims ≠ [])
    (hsh : p.cm.shape = p.data.shape) {name : String} {query : CQuery} (hn : NonNegSamples query)
    (h : p.select argsort [(name, query)] = .ok q) : ∃ red, Selected p q [(name, query)] red := by
  unfold PatchM.select at h
  split_ifs at h with hk
  have hk' : p.cm.ents.keys.contains name = true := by
    by_contra hc
    apply hk
    simp only [List.any_cons, List.any_nil, Bool.or_false]
    rw [Bool.not_eq_true] at hc
    rw [hc]; rfl
  have hg : p.cm.groups [(name, query)] = [[(name, query)]] := by
    have hf : (([(name, query)] : Dict CQuery).filter fun p' => p.cm.ents.keys.contains p'.1) = [(name, query)] := by
      rw [List.filter_cons, if_pos hk']; rfl
    unfold CM.groups
    simp only [hf]
    rw [if_pos (by simp)]
  simp only [bind, Except.bind] at h
  split at h
  · cases h
  · rename_i r hr
    unfold CM.select at hr
    rw [hg] at hr
    simp only [List.foldlM_cons, List.foldlM_nil, bind, Except.bind, pure, Except.pure] at hr
    cases hs : CM.selectGroup argsort (p.cm, p.data) [(name, query)] with
    | error e => rw [hs] at hr; cases hr
    | ok s =>
      rw [hs] at hr
      cases hr
      obtain ⟨red, h1, _, h3⟩ := group_spec ha hm hd hsh (kw := [(name, query)]) (by simpa using hn) (by unfold OnePerDim; simp) hs
      unfold PatchM.new at h
      rw [if_pos h3] at h
      cases h
      exact ⟨red, h1⟩

theorem pySlice_from {α} (l : List α) (n : ℕ) : pySlice l ⟨some (n : ℤ), none, none⟩ = .ok (l.drop n) := by
  rw [pySlice_unit l (min n l.length) l.length (some (n : ℤ)) none (by
    unfold clipBound; simp) (by simp)]
  congr 1
  rw [List.take_of_length_le (by simp)]
  by_cases h : n ≤ l.length
  · rw [min_eq_left h]
  · rw [min_eq_right (by omega), List.drop_eq_nil_of_le le_rfl, List.drop_eq_nil_of_le (by omega)]

theorem pySlice_until {α} (l : List α) (n : ℕ) (h0 : 0 < n) : pySlice l ⟨none, some (-(n : ℤ)), none⟩ = .ok (l.take (l.length - n)) := by
  rw [pySlice_unit l 0 (l.length - n) none (some (-(n : ℤ))) (by simp) (by
    unfold clipBound; simp; split_ifs; omega)]
  simp

/-- The values half way between those `n` apart. -/
theorem mid_values {r : RangeCoord} (hv : r.Valid) (n : ℕ) :
    List.zipWith (fun a b => (a + b) / 2) (r.values.drop n) (r.values.take (r.values.length - n)) =
      progression (r.start + (n : ℚ) / 2 * r.step) r.step (r.values.length - n) := by
  rw [hv.values_eq]
  apply List.ext_getElem
  · simp [progression]
  · intro t h1 h2
    simp only [progression, List.length_map, List.length_range] at h2
    simp [progression]
    ring

theorem edgeless_spec {argsort : List ℚ → List ℕ} (ha : IsArgsort argsort) {p q : PatchM ℚ} (hm : Regular p.cm)
    (hsh : p.cm.shape = p.data.shape) {k : Kind} (hk : k ≠ .time) {r : RangeCoord}
    (hc : p.cm.ents.get? "distance" = some (["distance"], .one k (.range r))) (hd : "distance" ∈ p.cm.dims) {n : ℕ} (h0 : 0 < n)
    (h : p.edgeless argsort n = .ok q) : Staggered p q "distance" n := by
  have hne : p.cm.dims ≠ [] := List.ne_nil_of_mem hd
  have hnd : p.cm.dims.Nodup := hm.distinct
  have hv : r.Valid := hm.classes _ _ _ _ (Dict.mem_of_get? hc)
  have hshape := shape_dims hsh hd
  have hL : lenDim p.cm "distance" = r.values.length := by
    unfold lenDim Ents.lenOf
    rw [hc]
    show (Coord.range r).length = _
    have := labels_length (c := .range r) hv
    rw [← this, labels_vals (by simp), List.length_map]
    rfl
  unfold PatchM.edgeless at h
  rw [if_neg (by omega)] at h
  rw [hc] at h
  simp only [bind, Except.bind] at h
  split at h
  · cases h
  rename_i p1 hp1
  split at h
  · cases h
  rename_i p2 hp2
  rw [pySlice_from, pySlice_until _ _ h0] at h
  simp only at h
  rw [mid_values hv] at h
  split at h
  · cases h
  rename_i cm hcm
  obtain ⟨rfl, hcs⟩ := new_ok h
  obtain ⟨red1, hS1⟩ := select_one ha hm hne hsh (by trivial) hp1
  obtain ⟨red2, hS2⟩ := select_one ha hm hne hsh (by trivial) hp2
  have hcl : (Coord.range r).length = lenDim p.cm "distance" := (dim_one hm hd hc).2
  have hr1 : red1 "distance" = (List.range (lenDim p.cm "distance")).drop n := by
    have := hS1.asked _ (List.mem_singleton.2 rfl) "distance" k (.range r) hc
    change pySlice (List.range (Coord.range r).length) ⟨some (n : ℤ), none, none⟩ = .ok _ at this
    rw [pySlice_from, hcl] at this
    injection this with this
    exact this.symm
  have hr2 : red2 "distance" = (List.range (lenDim p.cm "distance")).take (lenDim p.cm "distance" - n) := by
    have := hS2.asked _ (List.mem_singleton.2 rfl) "distance" k (.range r) hc
    change pySlice (List.range (Coord.range r).length) ⟨none, some (-(n : ℤ)), none⟩ = .ok _ at this
    rw [pySlice_until _ _ h0, hcl] at this
    simp only [List.length_range] at this
    injection this with this
    exact this.symm
  have hoth : ∀ {query : CQuery} {q' : PatchM ℚ} {red : String → List ℕ}, Selected p q' [("distance", query)] red → ∀ e ∈ p.cm.dims,
      e ≠ "distance" → red e = List.range (lenDim p.cm e) := by
    intro query q' red hS e he hed
    obtain ⟨c', m', hc', hs', hl'⟩ := CM.WellFormed.get_dim hm.wf he
    rw [hS.others e he (by
      intro r hr c1 hc1
      rw [List.mem_singleton] at hr
      subst hr
      rw [hc] at hc1
      simp only [Option.some.injEq, Prod.mk.injEq, List.cons.injEq, and_true] at hc1
      exact hed hc1.1.symm) c' m' hc' hs']
    unfold lenDim
    rw [hl']
  have hs1 : p1.data.shape = p.cm.dims.map fun e => if e = "distance" then lenDim p.cm "distance" - n else lenDim p.cm e := by
    rw [hS1.shape]
    refine List.map_congr_left fun e he => ?_
    by_cases hed : e = "distance"
    · subst hed; rw [hr1, if_pos rfl]; simp
    · rw [hoth hS1 e he hed, if_neg hed]; simp
  have hs2 : p2.data.shape = p.cm.dims.map fun e => if e = "distance" then lenDim p.cm "distance" - n else lenDim p.cm e := by
    rw [hS2.shape]
    refine List.map_congr_left fun e he => ?_
    by_cases hed : e = "distance"
    · subst hed; rw [hr2, if_pos rfl]; simp
    · rw [hoth hS2 e he hed, if_neg hed]; simp
  -- the coordinates
  set mid := progression (r.start + (n : ℚ) / 2 * r.step) r.step (r.values.length - n) with hmid
  have hplain : ∀ name ∈ Dict.keys ([("distance", CArg.simple (.one .float (.arr mid)))] : Dict CArg), matchesPrefixSuffix p.cm.dims name = false := by
    intro name hn
    simp only [Dict.keys, List.map_cons, List.map_nil, List.mem_singleton] at hn
    subst hn
    exact hm.plain _ (mem_ents_keys hm.wf hd)
  have hU := update_spec hm.wf (by simp [Dict.keys]) hplain hcm
  have hdims : cm.dims = p.cm.dims := by
    rw [hU.dims]
    simp [dropNames, CArg.isDrop, hd]
  have hgn : ∀ name, name ≠ "distance" → Dict.get? ([("distance", CArg.simple (.one .float (.arr mid)))] : Dict CArg) name = none := by
    intro name hn
    simp [Dict.get?, Ne.symm hn]
  have hmlen : mid.length = lenDim p.cm "distance" - n := by rw [hmid, hL]; simp [progression]
  have hpos : 0 < lenDim p.cm "distance" := by
    rw [hL, hv.length_values]
    exact hv.len_pos
  have hres : ∀ e, Resized p.cm [("distance", CArg.simple (.one .float (.arr mid)))] e ↔ e = "distance" := by
    intro e
    constructor
    · rintro ⟨he, a, ds, c1, ds', c', h1, _⟩
      by_contra hed
      rw [hgn e hed] at h1; cases h1
    · rintro rfl
      refine ⟨hd, _, _, _, _, _, rfl, rfl, hc, ?_⟩
      show mid.length ≠ (Coord.range r).length
      rw [hcl, hmlen]
      omega
  refine ⟨hdims, hs1, ?_, ?_, ?_⟩
  · intro i j k' hi hj hk' hij hik hpj hpk
    have hplace : ∀ i, posAlong p "distance" i < lenDim p.cm "distance" → place p "distance" i = r.start + (posAlong p "distance" i : ℚ) * r.step := by
      intro i hi
      rw [hL] at hi
      have hnum : ∀ v, stepNumber k v = v := by
        intro v; unfold stepNumber; cases k <;> first | rfl | exact absurd rfl hk
      unfold place
      rw [label_dim hc, hc, labels_vals (by simp), List.getD_eq_getElem?_getD, List.getElem?_map,
        List.getElem?_eq_getElem (by exact hi)]
      simp only [Option.map_some, Option.getD_some, hnum]
      have : r.values[posAlong p "distance" i] = r.values.getD (posAlong p "distance" i) 0 := by
        rw [List.getD_eq_getElem?_getD, List.getElem?_eq_getElem hi]; rfl
      show r.values[posAlong p "distance" i] = _
      rw [this, hv.values_eq]
      unfold progression
      rw [getD_range_map _ _ _ _ (by rw [← hv.length_values]; exact hi)]
    have hlen : ∀ i, InRange p.data.shape i → i.length = p.cm.dims.length := by
      intro i hi; rw [inRange_length hi, hshape, List.length_map]
    have hil : i.length = p.cm.dims.length := by
      rw [inRange_length hi]
      show p1.data.shape.length = _
      rw [hs1, List.length_map]
    have hpl : ∀ i, InRange p.data.shape i → ∀ e ∈ p.cm.dims, posAlong p e i < lenDim p.cm e := by
      intro i hi e he
      rw [hshape] at hi
      exact inRange_getD hi he
    have hor : ∀ (red : String → List ℕ) (k' : List ℕ), InRange p.data.shape k' →
        (∀ e ∈ p.cm.dims, (red e).getD (posAlong p e i) 0 = posAlong p e k') → origin p.cm.dims red i = k' := by
      intro red k' hk' he
      have hkl := hlen k' hk'
      unfold origin
      apply List.ext_getElem
      · simp [hil, hkl]
      · intro t h1 h2
        have ht : t < p.cm.dims.length := by omega
        have := he p.cm.dims[t] (List.getElem_mem ht)
        unfold posAlong at this
        rw [List.Nodup.idxOf_getElem hnd t ht, List.getD_eq_getElem?_getD (l := i), List.getElem?_eq_getElem (by omega),
          List.getD_eq_getElem?_getD (l := k'), List.getElem?_eq_getElem h2] at this
        simpa using this
    have hpi : posAlong p "distance" i < lenDim p.cm "distance" - n := by
      have : InRange (p.cm.dims.map fun e => if e = "distance" then lenDim p.cm "distance" - n else lenDim p.cm e) i := hs1 ▸ hi
      have := inRange_getD this hd
      rwa [if_pos rfl] at this
    have e1 : origin p.cm.dims red1 i = k' := by
      apply hor _ _ hk'
      intro e he
      by_cases hed : e = "distance"
      · subst hed
        rw [hr1, hpk, List.getD_eq_getElem?_getD, List.getElem?_drop, List.getElem?_range (by omega)]
        simp; omega
      · rw [hoth hS1 e he hed, ← hik e he hed, List.getD_eq_getElem?_getD, List.getElem?_range (hpl k' hk' e he)]
        rfl
    have e2 : origin p.cm.dims red2 i = j := by
      apply hor _ _ hj
      intro e he
      by_cases hed : e = "distance"
      · subst hed
        rw [hr2, hpj, List.getD_eq_getElem?_getD, List.getElem?_take, if_pos hpi, List.getElem?_range (by omega)]
        rfl
      · rw [hoth hS2 e he hed, ← hij e he hed, List.getD_eq_getElem?_getD, List.getElem?_range (hpl j hj e he)]
        rfl
    have pj := hplace j (hpl j hj _ hd)
    have pk := hplace k' (hpl k' hk' _ hd)
    constructor
    · show (p1.data.get i - p2.data.get i) / ((n : ℤ) * r.step) = _
      rw [(hS1.data i hi).2, (hS2.data i (by rw [hs2, ← hs1]; exact hi)).2, e1, e2, pj, pk, hpj, hpk]
      congr 1
      push_cast
      ring
    · obtain ⟨c', h1, h2⟩ := hU.givenC "distance" _ _ _ rfl rfl
      obtain ⟨d', rfl, h3, _⟩ := canon_one h1
      have hst : Storable (Coord.arr mid).vals := Or.inr (Or.inl ⟨_, _, _, hv.step_ne, rfl⟩)
      rw [label_dim h2, h3 hst, labels_vals (by simp), List.getD_eq_getElem?_getD, List.getElem?_map]
      have hpq : ∀ data : Nd ℚ, posAlong (⟨cm, data⟩ : PatchM ℚ) "distance" i = posAlong p "distance" i := by
        intro data; unfold posAlong; rw [hdims]
      rw [hpq]
      show some ((Option.map some (mid[posAlong p "distance" i]?)).getD none) = _
      rw [List.getElem?_eq_getElem (by rw [hmlen]; exact hpi)]
      simp only [Option.map_some, Option.getD_some, Option.some.injEq]
      rw [pj, pk, hpj, hpk]
      simp only [hmid, progression, List.getElem_map, List.getElem_range]
      push_cast
      ring
  · intro name ds c hn hnd' hs i hi
    have hnm : name ≠ "distance" := by
      rintro rfl
      rw [hc] at hn; cases hn
      simp at hnd'
    obtain ⟨c', h2, h3⟩ := hU.kept name ds c (hgn name hnm) hn (fun e he => ⟨by simp [dropNames, CArg.isDrop], by
      rw [hres]; rintro rfl; exact hnd' he⟩)
    unfold label
    simp only
    rw [hn, h3]
    cases ds with
    | nil => rfl
    | cons e ds =>
      simp only
      rw [h2.2 hs, hdims]
  · intro name ds c hn hnm hin
    exact hU.lost name ds c (hgn name hnm) hn ⟨"distance", hin, Or.inr ((hres _).2 rfl)⟩

end Verif
