import Verif.Spec.Whiten
import Verif.Proof.Slope
import Verif.Proof.Hilbert
/-! # Whitening: the inverse of a changed transform along one dimension -/
namespace Verif
open Spec

/-- A sum over all frequencies whose terms are conjugate is one over those which are not negative. -/
theorem sum_conj {n : ℕ} (hn : n ≠ 0) {h : ℕ → ℂ} (flip : ∀ k, 1 ≤ k → 2 * k < n → h (n - k) = star (h k)) :
    ∑ k ∈ Finset.range n, h k = ∑ k ∈ Finset.range (n / 2 + 1), (if k = 0 ∨ 2 * k = n then h k else h k + star (h k)) := by
  have e : ∑ k ∈ Finset.range n, h k = ∑ k ∈ Finset.range (n / 2 + 1), h k + ∑ k ∈ Finset.Ico (n / 2 + 1) n, h k := by
    exact (Finset.sum_range_add_sum_Ico h (by omega : n / 2 + 1 ≤ n)).symm
  have e2 : ∑ k ∈ Finset.Ico (n / 2 + 1) n, h k = ∑ k ∈ (Finset.range (n / 2 + 1)).filter (fun k => ¬ (k = 0 ∨ 2 * k = n)), star (h k) := by
    refine Finset.sum_nbij' (fun k => n - k) (fun k => n - k) ?_ ?_ ?_ ?_ ?_
    · intro k hk
      simp only [Finset.mem_Ico] at hk
      simp only [Finset.mem_filter, Finset.mem_range]
      omega
    · intro k hk
      simp only [Finset.mem_filter, Finset.mem_range] at hk
      simp only [Finset.mem_Ico]
      omega
    · intro k hk
      simp only [Finset.mem_Ico] at hk
      show n - (n - k) = k
      omega
    · intro k hk
      simp only [Finset.mem_filter, Finset.mem_range] at hk
      show n - (n - k) = k
      omega
    · intro k hk
      simp only [Finset.mem_Ico] at hk
      have := flip (n - k) (by omega) (by omega)
      rw [show n - (n - k) = k by omega] at this
      exact this
  rw [e, e2, Finset.sum_filter, ← Finset.sum_add_distrib]
  refine Finset.sum_congr rfl fun k _ => ?_
  by_cases hk : k = 0 ∨ 2 * k = n <;> simp [hk]

/-- The inverse real transform is a sum of real waves. -/
theorem irfft_re {a : Nd ℂ} {n ax : ℕ} (hn : n ≠ 0) (hs : a.shape.getD ax 0 = n / 2 + 1) (i : List ℕ) :
    (a.irfft n ax).get i = ((∑ k ∈ Finset.range (n / 2 + 1), (if k = 0 ∨ 2 * k = n then 1 else 2) *
      (a.get (i.set ax k) * expi (-((k : ℚ) * (i.getD ax 0 : ℕ) / n))).re : ℝ) : ℂ) / n := by
  rw [Nd.irfft_get]
  congr 1
  generalize i.getD ax 0 = m
  set h : ℕ → ℂ := fun k => a.hermitian ax n k i * expi (-((k : ℚ) * (m : ℕ) / n)) with hh
  have hq : (n : ℚ) ≠ 0 := by exact_mod_cast hn
  have flip : ∀ k, 1 ≤ k → 2 * k < n → h (n - k) = star (h k) := by
    intro k h1 h2
    have e1 : a.hermitian ax n (n - k) i = star (a.get (i.set ax k)) := by
      unfold Nd.hermitian
      rw [hs, if_neg (by omega), if_neg (by omega), if_neg (by omega), show n - (n - k) = k by omega]
    have e2 : a.hermitian ax n k i = a.get (i.set ax k) := by
      unfold Nd.hermitian
      rw [hs, if_neg (by omega), if_neg (by omega), if_pos h2]
    simp only [hh, e1, e2, star_mul', star_expi]
    congr 1
    rw [Nat.cast_sub (by omega), show -(((n : ℚ) - k) * (m : ℕ) / n) = - -((k : ℚ) * (m : ℕ) / n) + ((-(m : ℤ) : ℤ) : ℚ) by push_cast; field_simp; ring, expi_add, expi_int, mul_one]
  rw [sum_conj hn flip]
  push_cast
  refine Finset.sum_congr rfl fun k hk => ?_
  have hk' := Finset.mem_range.1 hk
  by_cases he : k = 0 ∨ 2 * k = n
  · rw [if_pos he, if_pos he]
    have e1 : a.hermitian ax n k i = ((a.get (i.set ax k)).re : ℂ) := by
      unfold Nd.hermitian
      rw [hs, if_neg (by omega), if_pos he]
    obtain ⟨s, hs'⟩ : ∃ s : ℝ, expi (-((k : ℚ) * (m : ℕ) / n)) = s := by
      rcases he with rfl | he
      · exact ⟨1, by simp [expi_zero]⟩
      · refine ⟨(-1) ^ m, ?_⟩
        have := half_wave he hn m
        rw [← star_expi, mul_comm (k : ℚ) (m : ℚ), this]
        push_cast
        rw [star_pow]
        congr 1
        simp
    show a.hermitian ax n k i * expi _ = _
    rw [e1, hs', Complex.re_mul_ofReal]
    push_cast
    ring
  · rw [if_neg he, if_neg he]
    have e1 : h k = a.get (i.set ax k) * expi (-((k : ℚ) * (m : ℕ) / n)) := by
      show a.hermitian ax n k i * _ = _
      unfold Nd.hermitian
      rw [hs, if_neg (by omega), if_neg he, if_pos (by omega)]
    rw [← e1]
    exact (Complex.add_conj (h k)).trans (by push_cast; rfl)

theorem dftOver_fits {fast : ℕ → ℕ} {P Q : FPatch} {D : List String} {real : Option String} {pad : Bool} (h : P.dftOver fast D real pad = .ok Q) :
    Q.patch.cm.shape = Q.patch.data.shape := by
  unfold FPatch.dftOver at h
  obtain ⟨_, _, h⟩ := bind_split h
  obtain ⟨_, _, h⟩ := bind_split h
  obtain ⟨_, _, h⟩ := bind_split h
  obtain ⟨_, _, h⟩ := bind_split h
  obtain ⟨q, hq, h⟩ := bind_split h
  cases h
  unfold PatchM.new at hq
  split at hq
  · rename_i hs
    cases hq
    exact hs
  · cases hq

theorem dft_fits {fast : ℕ → ℕ} {P Q : FPatch} {D : Option (List String)} {real : RealArg} {pad : Bool} (hsh : P.patch.cm.shape = P.patch.data.shape)
    (h : P.dft fast D real pad = .ok Q) : Q.patch.cm.shape = Q.patch.data.shape := by
  unfold FPatch.dft at h
  simp only at h
  split at h
  · cases h
  obtain ⟨r, _, h⟩ := bind_split h
  split at h
  · cases h
    exact hsh
  · exact dftOver_fits h

/-- The inverse of a transform along one dimension with any new coefficients. -/
theorem idft_waves {fast : ℕ → ℕ} (hf : ∀ n, n ≤ fast n) {argsort : List ℚ → List ℕ} {P : FPatch} (hm : Regular P.patch.cm) (hr : Readable P.patch.cm)
    (hne : P.patch.cm.dims ≠ []) (hsh : P.patch.cm.shape = P.patch.data.shape) {d : String} (hD : FtReady P.patch.cm [d])
    (hpos : 0 < spacingOf P.patch.cm d) (hlong : P.isComplex = true → 2 ≤ lenDim P.patch.cm d) (hback : AsksBack P.patch.cm [d] none) :
    ∃ Q, P.dft fast (some [d]) (if P.isComplex then .no else .last) true = .ok Q ∧
      Transformed P.patch Q.patch [d] (if P.isComplex then none else some d) (fun d => fast (lenDim P.patch.cm d)) ∧
      Q.patch.cm.ents.get? ("ft_" ++ d) =
        some (["ft_" ++ d], .one .float (.range (freqRange (fast (lenDim P.patch.cm d)) (spacingOf P.patch.cm d) (!P.isComplex)))) ∧
      Q.patch.cm.shape = Q.patch.data.shape ∧ Q.padded = some true ∧
      ∀ A : List ℕ → ℂ, ∃ R, FPatch.idft argsort ⟨⟨Q.patch.cm, ⟨Q.patch.data.shape, A⟩⟩, true, Q.padded⟩ none = .ok R ∧
        Restored ⟨P.patch.cm, ⟨P.patch.data.shape, synthesis P.patch d (fast (lenDim P.patch.cm d)) (!P.isComplex) A⟩⟩ R.patch [d] ∧
        R.isComplex = P.isComplex ∧ R.padded = none := by
  have hpos' : Ascending P.patch.cm [d] := fun e he => by rw [List.mem_singleton.1 he]; exact hpos
  obtain ⟨Q, p', h1, h2, h3, h4⟩ := dft_spec hf hm hr hne hsh (dim := some [d]) (D := [d]) rfl (by simp) hD
    (real := if P.isComplex then .no else .last) (by cases P.isComplex <;> simp [realDim]) (pad := true) (fun _ => hpos')
  have eR : realDim [d] (if P.isComplex then .no else .last) = if P.isComplex then none else some d := by cases P.isComplex <;> rfl
  have eL : realLast [d] (if P.isComplex then none else some d) = [d] := by cases P.isComplex <;> simp [realLast]
  rw [eR, eL] at h2 h3 h4
  replace h4 : Dft P [d] (if P.isComplex then none else some d) true (fun d => fast (lenDim P.patch.cm d)) Q p' := h4
  have hN : ∀ e ∈ [d], P.patch.cm.ents.lenOf e ≤ fast (lenDim P.patch.cm e) := fun e _ => hf _
  have hT := h4.transformed hm hne hsh hD h2 h3 hN
  have hX : Extended P.patch p' (fun d => fast (lenDim P.patch.cm d)) [d] := h4.ext
  set p := P.patch with hp
  set q := Q.patch with hq
  set N : String → ℕ := fun d => fast (lenDim p.cm d) with hNd
  set real : Option String := if P.isComplex then none else some d with hreal
  have hdec : decide (real = some d) = !P.isComplex := by rw [hreal]; cases P.isComplex <;> simp
  obtain ⟨E, hE, hask⟩ := idftDims_spec hm.wf hm.distinct hT.dims hD hback
  have hE' : E = [d] := List.perm_singleton.1 hE
  subst hE'
  have hmd : d ∈ p.cm.dims := hD.dims d (by simp)
  have hdx : dxOf p.cm d = spacingOf p.cm d := (spacing_dx _ _).symm
  have hdx0 : spacingOf p.cm d ≠ 0 := hpos.ne'
  have hlen1 : 1 ≤ lenDim p.cm d := by
    obtain ⟨k, r, h, hv⟩ := hD.even d (by simp)
    show 1 ≤ p.cm.ents.lenOf d
    unfold Ents.lenOf
    rw [h]
    exact hv.len_pos
  have hN1 : 1 ≤ N d := le_trans hlen1 (hf _)
  have hpsh : p.data.shape = p.cm.dims.map p.cm.ents.lenOf := by rw [← hsh]; unfold CM.shape; rw [if_neg hne]
  have hql : q.data.shape.length = p.cm.dims.length := by rw [hT.shape]; simp
  have hlt : p.cm.dims.idxOf d < q.data.shape.length := by
    rw [hql]
    exact List.idxOf_lt_length_of_mem hmd
  refine ⟨Q, h1, hT, ?_, dft_fits hsh h1, h4.padded, ?_⟩
  · rw [h4.spec.ft d (by simp), hX.lenOf hD (by simp), hX.dxOf hD (by simp), hdx, hdec]
  intro A
  let a : Nd ℂ := ⟨q.data.shape, A⟩
  have hz : ∀ e ∈ [d], (freqRange (N e) (dxOf p.cm e) (decide (real = some e))).cmin = 0 ↔ real = some e := by
    intro e he
    obtain rfl := List.mem_singleton.1 he
    have := freq_zero (n := N e) (dx := dxOf p.cm e) (decide (real = some e)) (by rw [hdx]; exact fun _ => hpos) hN1 (by rw [hdx]; exact hdx0) (by
      intro hc
      right
      rw [hdec] at hc
      exact ⟨le_trans (hlong (by simpa using hc)) (hf _), by rw [hdx]; exact hpos⟩)
    rw [this, decide_eq_true_eq]
  cases hc : P.isComplex with
  | true =>
    have hr0 : real = none := by rw [hreal, hc]; rfl
    have hsd : q.data.shape.getD (p.cm.dims.idxOf d) 0 = N d := by
      rw [hT.shape, getD_map_idxOf hmd]
      simp [hr0]
    have hqs : q.data.shape = p'.data.shape := by
      rw [hT.shape, hX.shape]
      apply List.map_congr_left
      intro e _
      simp [lenDim, hr0]
    let b : Nd ℂ := ((a.scale (1 / (spacingOf p.cm d : ℂ))).unshiftAll [p.cm.dims.idxOf d]).ifftn [p.cm.dims.idxOf d]
    have hb : idftData a (real.map ("ft_" ++ ·)) ((realLast [d] real).map p.cm.dims.idxOf) ((realLast [d] real).map N) ((realLast [d] real).map (dxOf p.cm)).prod = .ok b := by
      rw [hr0]
      show idftData a none [p.cm.dims.idxOf d] [N d] (dxOf p.cm d * 1) = _
      rw [mul_one, hdx]
      unfold idftData
      rw [if_neg (by simp)]
    obtain ⟨R, g1, g2, g3, g4⟩ := idft_run (argsort := argsort) (Q := ⟨⟨q.cm, a⟩, true, Q.padded⟩) (p := p) (p' := p') (D := [d]) (L := [d])
      (E := [d]) (real := real) (pad := true) (N := N) (b := b) hm hne hsh hD (by rw [hr0]; simp) (List.Perm.refl _) hN (by simp) hX h4.spec h4.padded
      (List.Perm.refl _) hask hz hb hqs
    refine ⟨R, g1, ⟨g2.dims, g2.shape, ?_, g2.labels, g2.lost, g2.none⟩, by rw [g3, hr0]; rfl, g4⟩
    intro i hi
    rw [g2.data i hi]
    have hi' : InRange p.data.shape i := hi
    have hiq : InRange q.data.shape i := by
      refine inRange_iff.2 ⟨?_, ?_⟩
      · rw [inRange_length hi', hql, hpsh]; simp
      · intro ax hax
        have hax' : ax < p.cm.dims.length := by rw [← hql]; exact hax
        have h1 := (inRange_iff.1 hi').2 ax (by rw [hpsh]; simpa using hax')
        refine lt_of_lt_of_le h1 ?_
        rw [hpsh, hT.shape, List.getD_eq_getElem?_getD, List.getD_eq_getElem?_getD, List.getElem?_map, List.getElem?_map, List.getElem?_eq_getElem hax']
        simp only [Option.map_some, Option.getD_some, hr0, reduceCtorEq, if_false]
        split_ifs with hdL
        · exact hf _
        · exact le_refl _
    have hev := ifft_unshift (a := a.scale (1 / (spacingOf p.cm d : ℂ))) hlt hiq
    have hs1 : (a.scale (1 / (spacingOf p.cm d : ℂ))).shape = q.data.shape := rfl
    have hbe : b = ((a.scale (1 / (spacingOf p.cm d : ℂ))).roll (-((q.data.shape.getD (p.cm.dims.idxOf d) 0 / 2 : ℕ) : ℤ)) (p.cm.dims.idxOf d)).ifft (p.cm.dims.idxOf d) := rfl
    rw [hsd] at hbe
    rw [hs1, hsd, ← hbe] at hev
    refine hev.trans ?_
    show _ = synthesis p d (N d) (!true) A i
    have cx : ((spacingOf p.cm d : ℚ) : ℂ) ≠ 0 := by exact_mod_cast hdx0
    have cn : ((N d : ℕ) : ℂ) ≠ 0 := by exact_mod_cast (by omega : N d ≠ 0)
    have hnq : ((N d : ℕ) : ℚ) ≠ 0 := by exact_mod_cast (by omega : N d ≠ 0)
    unfold synthesis
    simp only [Bool.not_true, Bool.false_eq_true, if_false]
    rw [Finset.sum_div, Finset.sum_div]
    refine Finset.sum_congr rfl fun k hk => ?_
    have w : expi (-(((k : ℚ) - (N d / 2 : ℕ)) * (i.getD (p.cm.dims.idxOf d) 0 : ℕ) / (N d : ℕ))) =
        wave (-(bandFrequency false (N d) (spacingOf p.cm d) k * (posAlong p d i * spacingOf p.cm d))) := by
      show wave _ = _
      congr 1
      unfold bandFrequency posAlong
      simp only [Bool.false_eq_true, if_false]
      field_simp
    rw [w]
    show A _ * (1 / _) * _ / _ = _
    push_cast
    field_simp
  | false =>
    have hr0 : real = some d := by rw [hreal, hc]; rfl
    have hsd : q.data.shape.getD (p.cm.dims.idxOf d) 0 = N d / 2 + 1 := by
      rw [hT.shape, getD_map_idxOf hmd]
      simp [hr0]
    let b : Nd ℂ := (a.scale (1 / (spacingOf p.cm d : ℂ))).irfft (N d) (p.cm.dims.idxOf d)
    have hqs : b.shape = p'.data.shape := by
      show q.data.shape.set _ _ = _
      rw [hT.shape, hX.shape]
      apply List.ext_getElem?
      intro x
      rw [List.getElem?_set, List.length_map, List.getElem?_map, List.getElem?_map]
      split_ifs with h1 h2
      · subst h1
        rw [List.getElem?_eq_getElem h2, List.getElem_idxOf h2]
        simp
      · rw [List.getElem?_eq_none (by omega)]
        rfl
      · cases hx : p.cm.dims[x]? with
        | none => rfl
        | some e =>
          have hed : e ≠ d := by
            rintro rfl
            obtain ⟨hx', hx''⟩ := List.getElem?_eq_some_iff.1 hx
            exact h1 (by rw [← hx'']; exact (show p.cm.dims.Nodup from hm.distinct).idxOf_getElem x hx')
          simp [hr0, hed, Ne.symm hed, lenDim]
    have hb : idftData a (real.map ("ft_" ++ ·)) ((realLast [d] real).map p.cm.dims.idxOf) ((realLast [d] real).map N) ((realLast [d] real).map (dxOf p.cm)).prod = .ok b := by
      rw [hr0]
      have e : realLast [d] (some d) = [d] := by simp [realLast]
      rw [e]
      show idftData a (some _) [p.cm.dims.idxOf d] [N d] (dxOf p.cm d * 1) = _
      rw [mul_one, hdx]
      unfold idftData
      rw [if_neg (by simp)]
      rfl
    obtain ⟨R, g1, g2, g3, g4⟩ := idft_run (argsort := argsort) (Q := ⟨⟨q.cm, a⟩, true, Q.padded⟩) (p := p) (p' := p') (D := [d]) (L := [d])
      (E := [d]) (real := real) (pad := true) (N := N) (b := b) hm hne hsh hD (by rw [hr0]; simp) (List.Perm.refl _) hN (by simp) hX h4.spec h4.padded
      (List.Perm.refl _) hask hz hb hqs
    refine ⟨R, g1, ⟨g2.dims, g2.shape, ?_, g2.labels, g2.lost, g2.none⟩, by rw [g3, hr0]; rfl, g4⟩
    intro i hi
    rw [g2.data i hi]
    have hev := irfft_re (a := a.scale (1 / (spacingOf p.cm d : ℂ))) (n := N d) (ax := p.cm.dims.idxOf d) (by omega) hsd i
    refine hev.trans ?_
    show _ = synthesis p d (N d) (!false) A i
    have cx : ((spacingOf p.cm d : ℚ) : ℂ) ≠ 0 := by exact_mod_cast hdx0
    have cn : ((N d : ℕ) : ℂ) ≠ 0 := by exact_mod_cast (by omega : N d ≠ 0)
    have hnq : ((N d : ℕ) : ℚ) ≠ 0 := by exact_mod_cast (by omega : N d ≠ 0)
    unfold synthesis
    simp only [Bool.not_false, if_true]
    push_cast
    rw [Finset.sum_div, Finset.sum_div]
    refine Finset.sum_congr rfl fun k hk => ?_
    have w : expi (-((k : ℚ) * (i.getD (p.cm.dims.idxOf d) 0 : ℕ) / (N d : ℕ))) =
        wave (-(bandFrequency true (N d) (spacingOf p.cm d) k * (posAlong p d i * spacingOf p.cm d))) := by
      show wave _ = _
      congr 1
      unfold bandFrequency posAlong
      simp only [if_true]
      field_simp
      ring
    rw [w]
    show _ * (((A _ * (1 / ((spacingOf p.cm d : ℚ) : ℂ)) * _).re : ℝ) : ℂ) / _ = _
    rw [show ∀ (z y : ℂ) (r : ℚ), ((z * (1 / (r : ℂ)) * y).re : ℂ) = ((z * y).re : ℂ) / (r : ℂ) from by
      intro z y r
      rw [show z * (1 / (r : ℂ)) * y = (z * y) * (((1 / r : ℚ) : ℝ) : ℂ) by push_cast; ring, Complex.re_mul_ofReal]
      push_cast
      ring]
    field_simp

end Verif
