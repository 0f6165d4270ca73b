import Verif.Proof.FourierBack
import Verif.Props.Aggregate
/-! # Lemmas: `dft` and `idft` with their arguments -/
namespace Verif
open Spec

theorem untransformed_self {m : CM} {D : List String} (h : ∀ d ∈ D, d ∈ m.dims) : m.untransformed D = D := by
  unfold CM.untransformed
  rw [List.filter_eq_self]
  intro d hd
  simp [h d hd]

theorem realDim_mem {D : List String} {real : RealArg} {r : String} (h : realDim D real = some r) : r ∈ D := by
  cases real with
  | no => cases h
  | last => exact List.mem_of_getLast? h
  | dim d =>
    change (if d ∈ D then some d else none) = some r at h
    split_ifs at h with hd
    cases h
    exact hd

theorem realName_spec {D : List String} (hD0 : D ≠ []) {real : RealArg} : ∃ o, real.name D = .ok o ∧ o.filter (fun d => D.contains d) = realDim D real := by
  cases real with
  | no => exact ⟨none, rfl, rfl⟩
  | last =>
    unfold RealArg.name realDim
    cases hl : D.getLast? with
    | none => exact absurd (List.getLast?_eq_none_iff.1 hl) hD0
    | some d => exact ⟨some d, rfl, by simp [Option.filter, List.mem_of_getLast? hl]⟩
  | dim d =>
    refine ⟨some d, rfl, ?_⟩
    unfold realDim
    by_cases h : d ∈ D <;> simp [Option.filter, h]

theorem dft_spec {fast : ℕ → ℕ} (hf : ∀ n, n ≤ fast n) {P : FPatch} (hm : Regular P.patch.cm) (hr : Readable P.patch.cm) (hne : P.patch.cm.dims ≠ [])
    (hsh : P.patch.cm.shape = P.patch.data.shape) {dim : Option (List String)} {D : List String} (hdim : dim.getD P.patch.cm.dims = D) (hD0 : D ≠ [])
    (hD : FtReady P.patch.cm D) {real : RealArg} (hreal : realDim D real ≠ none → P.isComplex = false) {pad : Bool}
    (hpos : pad = true → Ascending P.patch.cm D) :
    ∃ Q p', P.dft fast dim real pad = .ok Q ∧ RealLast P (realLast D (realDim D real)) (realDim D real) ∧ (realLast D (realDim D real)).Perm D ∧
      Dft P (realLast D (realDim D real)) (realDim D real) pad (fun d => if pad then fast (P.patch.cm.ents.lenOf d) else P.patch.cm.ents.lenOf d) Q p' := by
  set L := realLast D (realDim D real) with hL
  have hperm : L.Perm D := realLast_perm fun r h => realDim_mem h
  have hRL : RealLast P L (realDim D real) := by
    cases h : realDim D real with
    | none => exact Or.inl rfl
    | some r => exact Or.inr ⟨D.erase r, r, by rw [hL, h]; rfl, rfl, hreal (by rw [h]; simp)⟩
  obtain ⟨Q, p', h1, h2⟩ := dftOver_spec hm hr hne hsh (hD.perm hperm) hRL (pad := pad) (by
    intro hp d hd k r hg
    have := hpos hp d (hperm.mem_iff.1 hd)
    rw [spacing_dx] at this
    unfold dxOf at this
    rw [hg] at this
    cases k <;> simpa [stepFloat] using this) hf
  refine ⟨Q, p', ?_, hRL, hperm, h2⟩
  unfold FPatch.dft
  rw [hdim]
  simp only
  rw [if_neg]
  · rw [untransformed_self hD.dims]
    obtain ⟨o, ho, ho'⟩ := realName_spec (real := real) hD0
    simp only [ho, bind, Except.bind, ho']
    rw [if_neg (by simpa using hD0)]
    exact h1
  · simp only [Bool.not_eq_true, List.any_eq_false]
    intro d hd
    obtain ⟨k, r, hg, _⟩ := hD.even d hd
    have := Dict.mem_keys.2 ⟨_, hg⟩
    simpa using this

/-- The smallest frequency is zero for the real dimension only. -/
theorem freq_zero {n : ℕ} {dx : ℚ} (real : Bool) (hr : real = true → 0 < dx) (hn : 1 ≤ n) (hdx : dx ≠ 0) (hc : real = false → 2 < n ∨ (2 ≤ n ∧ 0 < dx)) :
    (freqRange n dx real).cmin = 0 ↔ real = true := by
  have hv := freqRange_valid hn hdx real
  have hn0 : (0 : ℚ) < n := by exact_mod_cast hn
  rw [hv.cmin_eq]
  have hdf : ∀ b, (freqRange n dx b).step = 1 / (n * dx) := fun _ => rfl
  cases real with
  | true =>
    have hpos := hr rfl
    have hs : (0 : ℚ) < 1 / (n * dx) := by positivity
    have e0 : (freqRange n dx true).start = 0 := rfl
    have e1 : (freqRange n dx true).len = n / 2 + 1 := rfl
    rw [hdf, e0, e1, min_eq_left]
    · simp
    · push_cast
      rw [zero_add, add_sub_cancel_right]
      positivity
  | false =>
    have e0 : (freqRange n dx false).start = -((n / 2 : ℕ) : ℚ) * (1 / (n * dx)) := rfl
    have e1 : (freqRange n dx false).len = n := rfl
    rw [hdf, e0, e1]
    simp only [Bool.false_eq_true, iff_false]
    have hh : (1 : ℚ) ≤ ((n / 2 : ℕ) : ℚ) := by
      have : 1 ≤ n / 2 := by have := hc rfl; omega
      exact_mod_cast this
    refine ne_of_lt ?_
    rcases lt_or_gt_of_ne hdx with hneg | hpos
    · refine lt_of_le_of_lt (min_le_right _ _) ?_
      have hs : 1 / (n * dx) < 0 := one_div_neg.2 (mul_neg_of_pos_of_neg hn0 hneg)
      have h3 : 2 < n := by
        rcases hc rfl with h | ⟨_, h⟩
        · exact h
        · exact absurd h (not_lt.2 hneg.le)
      have : (1 : ℚ) ≤ (n : ℚ) - 1 - ((n / 2 : ℕ) : ℚ) := by
        have : n / 2 + 2 ≤ n := by omega
        have : ((n / 2 : ℕ) : ℚ) + 2 ≤ n := by exact_mod_cast this
        linarith
      nlinarith
    · refine lt_of_le_of_lt (min_le_left _ _) ?_
      have hs : 0 < 1 / (n * dx) := by positivity
      nlinarith

/-- The dimensions that an inverse transform finds. -/
theorem idftDims_spec {m q : CM} (hw : WellFormed m) (hn : m.dims.Nodup) {D : List String}
    (hdims : q.dims = m.dims.map fun d => if d ∈ D then "ft_" ++ d else d) (hD : FtReady m D) {dim : Option (List String)}
    (h : AsksBack m D dim) : ∃ E : List String, E.Perm D ∧ q.idftDims dim = E.map ("ft_" ++ ·) := by
  cases dim with
  | none =>
    refine ⟨m.dims.filter (· ∈ D), ?_, ?_⟩
    · refine (List.perm_ext_iff_of_nodup (hn.filter _) hD.nodup).2 fun d => ?_
      rw [List.mem_filter, decide_eq_true_eq]
      exact ⟨fun h => h.2, fun h => ⟨hD.dims d h, h⟩⟩
    · show q.dims.filter _ = _
      rw [hdims, List.filter_map]
      have : (m.dims.filter ((fun d => "ft_".toList.isPrefixOf d.toList) ∘ fun d => if d ∈ D then "ft_" ++ d else d)) = m.dims.filter (· ∈ D) := by
        apply List.filter_congr
        intro d hd
        show "ft_".toList.isPrefixOf (if d ∈ D then "ft_" ++ d else d).toList = _
        by_cases hdD : d ∈ D
        · rw [if_pos hdD]
          simp only [hdD, decide_true]
          rw [List.isPrefixOf_iff_prefix, String.toList_append]
          exact List.prefix_append _ _
        · rw [if_neg hdD]
          simp only [hdD, decide_false]
          rw [Bool.eq_false_iff]
          intro hc
          exact h d hd hdD (List.isPrefixOf_iff_prefix.1 hc)
      rw [this]
      apply List.map_congr_left
      intro d hd
      rw [if_pos]
      simpa using (List.mem_filter.1 hd).2
  | some l =>
    rcases h with h | h
    · refine ⟨l, h, ?_⟩
      show l.map _ = _
      apply List.map_congr_left
      intro d hd
      have hdD := h.mem_iff.1 hd
      rw [if_neg, hD.fwd d hdD]
      rw [List.contains_iff_mem, hdims]
      intro hc
      obtain ⟨e, he, h'⟩ := List.mem_map.1 hc
      split_ifs at h' with heD
      · obtain ⟨c, _, hg, _⟩ := CM.WellFormed.get_dim hw (hD.dims d hdD)
        rw [← h', hD.ftFree e heD] at hg
        cases hg
      · exact heD (h' ▸ hdD)
    · refine ⟨l.map iftName, ?_, ?_⟩
      · have := h.map iftName
        rw [List.map_map] at this
        have e : iftName ∘ ("ft_" ++ ·) = id := by funext d; exact iftName_ft d
        rwa [e, List.map_id] at this
      · show l.map _ = _
        rw [List.map_map]
        apply List.map_congr_left
        intro d hd
        obtain ⟨e, he, rfl⟩ := List.mem_map.1 (h.mem_iff.1 hd)
        rw [if_pos]
        · show _ = "ft_" ++ iftName ("ft_" ++ e)
          rw [iftName_ft]
        · rw [List.contains_iff_mem, hdims]
          exact List.mem_map.2 ⟨e, hD.dims e he, if_pos he⟩

end Verif
