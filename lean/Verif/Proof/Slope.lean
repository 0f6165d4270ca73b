import Verif.Spec.Slope
import Verif.Proof.FourierDft
import Verif.Proof.FourierBack
/-! # Filtering by slope: the inverse of a weighted transform -/
namespace Verif
open Spec

/-- The inverse transform of a shifted array is the sum over frequencies counted from the middle. -/
theorem ifft_unshift {a : Nd ℂ} {ax : ℕ} (hax : ax < a.shape.length) {i : List ℕ} (hi : InRange a.shape i) :
    ((a.roll (-((a.shape.getD ax 0 / 2 : ℕ) : ℤ)) ax).ifft ax).get i =
      (∑ k ∈ Finset.range (a.shape.getD ax 0), a.get (i.set ax k) *
        expi (-(((k : ℚ) - (a.shape.getD ax 0 / 2 : ℕ)) * (i.getD ax 0 : ℕ) / (a.shape.getD ax 0 : ℕ)))) / (a.shape.getD ax 0 : ℕ) := by
  rw [Nd.ifft_get]
  have hil : ax < i.length := by rw [inRange_length hi]; exact hax
  have him : i.getD ax 0 < a.shape.getD ax 0 := (inRange_iff.1 hi).2 ax hax
  have hs : (a.roll (-((a.shape.getD ax 0 / 2 : ℕ) : ℤ)) ax).shape = a.shape := rfl
  rw [hs]
  generalize hn : a.shape.getD ax 0 = n at *
  generalize hm : i.getD ax 0 = m at *
  have hn0 : (n : ℚ) ≠ 0 := by exact_mod_cast (by omega : n ≠ 0)
  congr 1
  refine Finset.sum_nbij' (fun k => (k + n / 2) % n) (fun k => (k + (n - n / 2)) % n) ?_ ?_ ?_ ?_ ?_
  · intro k _
    exact Finset.mem_range.2 (Nat.mod_lt _ (by omega))
  · intro k _
    exact Finset.mem_range.2 (Nat.mod_lt _ (by omega))
  · intro k hk
    have hk := Finset.mem_range.1 hk
    show ((k + n / 2) % n + (n - n / 2)) % n = k
    rw [Nat.mod_add_mod, show k + n / 2 + (n - n / 2) = k + n by omega, Nat.add_mod_right, Nat.mod_eq_of_lt hk]
  · intro k hk
    have hk := Finset.mem_range.1 hk
    show ((k + (n - n / 2)) % n + n / 2) % n = k
    rw [Nat.mod_add_mod, show k + (n - n / 2) + n / 2 = k + n by omega, Nat.add_mod_right, Nat.mod_eq_of_lt hk]
  · intro k hk
    have hk := Finset.mem_range.1 hk
    have e1 : (a.roll (-((n / 2 : ℕ) : ℤ)) ax).get (i.set ax k) = a.get (i.set ax ((k + n / 2) % n)) := by
      show a.get ((i.set ax k).set ax ((((i.set ax k).getD ax 0 : ℤ) - -((n / 2 : ℕ) : ℤ)) % (a.shape.getD ax 0 : ℤ)).toNat) = _
      rw [List.set_set, getD_set_self hil, hn]
      congr 2
      rw [sub_neg_eq_add]
      have : ((k : ℤ) + ((n / 2 : ℕ) : ℤ)) % (n : ℤ) = (((k + n / 2) % n : ℕ) : ℤ) := by push_cast; rfl
      rw [this, Int.toNat_natCast]
    rw [e1]
    congr 1
    by_cases hlt : k + n / 2 < n
    · rw [Nat.mod_eq_of_lt hlt]
      congr 1
      push_cast
      ring
    · have : (k + n / 2) % n = k + n / 2 - n := by
        rw [Nat.mod_eq_sub_mod (by omega), Nat.mod_eq_of_lt (by omega)]
      rw [this, Nat.cast_sub (by omega)]
      have e : (-(((((k + n / 2 : ℕ) : ℚ) - (n : ℚ)) - (n / 2 : ℕ)) * (m : ℕ) / (n : ℕ)) : ℚ) = -((k : ℚ) * (m : ℕ) / (n : ℕ)) + (m : ℕ) := by
        push_cast
        field_simp
        ring
      rw [e, expi_add, expi_nat, mul_one]

theorem ifft_roll_comm (a : Nd ℂ) (v : ℤ) {ax bx : ℕ} (h : ax ≠ bx) : (a.roll v ax).ifft bx = (a.ifft bx).roll v ax := by
  unfold Nd.roll Nd.gather Nd.ifft
  simp only [Nd.mk.injEq, true_and]
  funext i
  rw [getD_set_ne h]
  congr 2
  apply List.map_congr_left
  intro k _
  rw [getD_set_ne (Ne.symm h), List.set_comm _ _ h]

/-- The inverse transform along two axes. -/
theorem ifftn_unshift {a : Nd ℂ} {ax bx : ℕ} (hne : ax ≠ bx) (hax : ax < a.shape.length) (hbx : bx < a.shape.length) {i : List ℕ} (hi : InRange a.shape i) :
    ((a.unshiftAll [ax, bx]).ifftn [ax, bx]).get i =
      (∑ k ∈ Finset.range (a.shape.getD ax 0), (∑ l ∈ Finset.range (a.shape.getD bx 0), a.get ((i.set ax k).set bx l) *
          expi (-(((l : ℚ) - (a.shape.getD bx 0 / 2 : ℕ)) * (i.getD bx 0 : ℕ) / (a.shape.getD bx 0 : ℕ)))) / (a.shape.getD bx 0 : ℕ) *
        expi (-(((k : ℚ) - (a.shape.getD ax 0 / 2 : ℕ)) * (i.getD ax 0 : ℕ) / (a.shape.getD ax 0 : ℕ)))) / (a.shape.getD ax 0 : ℕ) := by
  have e : (a.unshiftAll [ax, bx]).ifftn [ax, bx] =
      (((a.roll (-((a.shape.getD bx 0 / 2 : ℕ) : ℤ)) bx).ifft bx).roll (-((a.shape.getD ax 0 / 2 : ℕ) : ℤ)) ax).ifft ax := by
    show (((a.roll (-((a.shape.getD bx 0 / 2 : ℕ) : ℤ)) bx).roll (-((a.shape.getD ax 0 / 2 : ℕ) : ℤ)) ax).ifft bx).ifft ax = _
    rw [ifft_roll_comm _ _ hne]
  rw [e]
  have h := ifft_unshift (a := (a.roll (-((a.shape.getD bx 0 / 2 : ℕ) : ℤ)) bx).ifft bx) (ax := ax) hax hi
  have hs : ((a.roll (-((a.shape.getD bx 0 / 2 : ℕ) : ℤ)) bx).ifft bx).shape = a.shape := rfl
  rw [hs] at h
  rw [h]
  congr 1
  refine Finset.sum_congr rfl fun k hk => ?_
  rw [ifft_unshift hbx (inRange_set hi (Finset.mem_range.1 hk)), getD_set_ne hne]

/-- The inverse of a transform over two dimensions whose elements are multiplied with numbers that depend on the frequencies. -/
theorem idft_gain {fast : ℕ → ℕ} (hf : ∀ n, n ≤ fast n) {argsort : List ℚ → List ℕ} {P : FPatch} (hm : Regular P.patch.cm) (hr : Readable P.patch.cm)
    (hne : P.patch.cm.dims ≠ []) (hsh : P.patch.cm.shape = P.patch.data.shape) {d1 d2 : String} (hD : FtReady P.patch.cm [d1, d2])
    (hpos : Ascending P.patch.cm [d1, d2]) (hlong : ∀ d ∈ [d1, d2], 2 ≤ lenDim P.patch.cm d) (hback : AsksBack P.patch.cm [d1, d2] none) :
    ∃ Q, P.dft fast (some [d1, d2]) .no true = .ok Q ∧ Transformed P.patch Q.patch [d1, d2] none (fun d => fast (lenDim P.patch.cm d)) ∧
      (∀ d ∈ [d1, d2], Q.patch.cm.ents.get? ("ft_" ++ d) =
        some (["ft_" ++ d], .one .float (.range (freqRange (fast (lenDim P.patch.cm d)) (spacingOf P.patch.cm d) false)))) ∧
      ∀ (g : ℚ → ℚ → ℝ) (G : List ℕ → ℝ), (∀ i, InRange Q.patch.data.shape i → ∀ f1 f2, label Q.patch ("ft_" ++ d1) i = some (some f1) →
        label Q.patch ("ft_" ++ d2) i = some (some f2) → G i = g f1 f2) →
      ∃ R, FPatch.idft argsort ⟨⟨Q.patch.cm, ⟨Q.patch.data.shape, fun i => Q.patch.data.get i * (G i : ℂ)⟩⟩, Q.isComplex, Q.padded⟩ none = .ok R ∧
        Restored ⟨P.patch.cm, ⟨P.patch.data.shape, weightedWaves P.patch (fun d => fast (lenDim P.patch.cm d)) g d1 d2⟩⟩ R.patch [d1, d2] ∧
        R.isComplex = true ∧ R.padded = none := by
  obtain ⟨Q, p', h1, h2, h3, h4⟩ := dft_spec hf hm hr hne hsh (dim := some [d1, d2]) (D := [d1, d2]) rfl (by simp) hD
    (real := .no) (fun h => absurd rfl h) (pad := true) (fun _ => hpos)
  replace h4 : Dft P [d1, d2] none true (fun d => fast (lenDim P.patch.cm d)) Q p' := h4
  have hN : ∀ d ∈ [d1, d2], P.patch.cm.ents.lenOf d ≤ fast (lenDim P.patch.cm d) := fun d _ => hf _
  have hT : Transformed P.patch Q.patch [d1, d2] none (fun d => fast (lenDim P.patch.cm d)) := h4.transformed hm hne hsh hD h2 h3 hN
  have hX : Extended P.patch p' (fun d => fast (lenDim P.patch.cm d)) [d1, d2] := h4.ext
  set p := P.patch with hp
  set q := Q.patch with hq
  set N : String → ℕ := fun d => fast (lenDim p.cm d) with hNd
  obtain ⟨E, hE, hask⟩ := idftDims_spec hm.wf hm.distinct hT.dims hD hback
  refine ⟨Q, h1, hT, ?_, ?_⟩
  · intro d hd
    rw [h4.spec.ft d hd, hX.lenOf hD hd, hX.dxOf hD hd, spacing_dx]
    rfl
  intro g G hG
  have hdx : ∀ d ∈ [d1, d2], dxOf p.cm d ≠ 0 := by
    intro d hd
    obtain ⟨k, r, hg, hv⟩ := hD.even d hd
    unfold dxOf
    rw [hg]
    exact stepFloat_ne hv.step_ne
  have hpsh : p.data.shape = p.cm.dims.map p.cm.ents.lenOf := by rw [← hsh]; unfold CM.shape; rw [if_neg hne]
  have hm1 : d1 ∈ p.cm.dims := hD.dims d1 (by simp)
  have hm2 : d2 ∈ p.cm.dims := hD.dims d2 (by simp)
  have hne12 : d1 ≠ d2 := by have := hD.nodup; simpa using this
  have hax : p.cm.dims.idxOf d1 ≠ p.cm.dims.idxOf d2 := fun h => hne12 (idxOf_inj_mem hm1 h)
  have hqs : q.data.shape = p'.data.shape := by
    rw [hT.shape, hX.shape]
    apply List.map_congr_left
    intro d _
    simp [lenDim]
  have hql : q.data.shape.length = p.cm.dims.length := by rw [hT.shape]; simp
  have hlt : ∀ d ∈ [d1, d2], p.cm.dims.idxOf d < q.data.shape.length := by
    intro d hd
    rw [hql]
    exact List.idxOf_lt_length_of_mem (hD.dims d hd)
  have hsd : ∀ d ∈ [d1, d2], q.data.shape.getD (p.cm.dims.idxOf d) 0 = N d := by
    intro d hd
    rw [hT.shape, getD_map_idxOf (hD.dims d hd)]
    simp [hd]
  let a : Nd ℂ := (⟨q.data.shape, fun i => q.data.get i * (G i : ℂ)⟩ : Nd ℂ)
  let s : ℚ := dxOf p.cm d1 * dxOf p.cm d2
  let b : Nd ℂ := ((a.scale (1 / (s : ℂ))).unshiftAll [p.cm.dims.idxOf d1, p.cm.dims.idxOf d2]).ifftn [p.cm.dims.idxOf d1, p.cm.dims.idxOf d2]
  have hbs : b.shape = p'.data.shape := by
    show (Nd.ifftn _ _).shape = _
    rw [ifftn_shape, unshiftAll_shape]
    exact hqs
  have hb : idftData a none (E.map p.cm.dims.idxOf) (E.map N) (E.map (dxOf p.cm)).prod = .ok b := by
    unfold idftData
    rw [if_neg (by simp)]
    have e1 : (E.map (dxOf p.cm)).prod = s := by rw [(hE.map _).prod_eq]; simp [s]
    have e2 : (E.map p.cm.dims.idxOf).Perm [p.cm.dims.idxOf d1, p.cm.dims.idxOf d2] := hE.map _
    rw [e1, unshiftAll_perm e2, ifftn_perm e2]
  obtain ⟨R, g1, g2, g3, g4⟩ := idft_run (argsort := argsort) (Q := ⟨⟨q.cm, a⟩, Q.isComplex, Q.padded⟩) (p := p) (p' := p') (D := [d1, d2]) (L := [d1, d2])
    (E := E) (real := none) (pad := true) (N := N) (b := b) hm hne hsh hD (by simp) (List.Perm.refl _) hN (by simp) hX h4.spec h4.padded hE hask (by
      intro d hd
      have hl : 2 ≤ N d := le_trans (hlong d hd) (hf _)
      have := freq_zero (n := N d) (dx := dxOf p.cm d) false (by simp) (by omega) (hdx d hd) (fun _ => Or.inr ⟨hl, by rw [← spacing_dx]; exact hpos d hd⟩)
      simpa using this) hb hbs
  refine ⟨R, g1, ⟨g2.dims, g2.shape, ?_, g2.labels, g2.lost, g2.none⟩, g3, g4⟩
  intro i hi
  rw [g2.data i hi]
  show b.get i = weightedWaves p N g d1 d2 i
  have hi' : InRange p.data.shape i := hi
  have hiq : InRange q.data.shape i := by
    refine inRange_iff.2 ⟨?_, ?_⟩
    · rw [inRange_length hi', hql, hpsh]; simp
    · intro ax hax
      have hax' : ax < p.cm.dims.length := by rw [← hql]; exact hax
      have h1 := (inRange_iff.1 hi').2 ax (by rw [hpsh]; simpa using hax')
      refine lt_of_lt_of_le h1 ?_
      rw [hpsh, hT.shape, List.getD_eq_getElem?_getD, List.getD_eq_getElem?_getD, List.getElem?_map, List.getElem?_map, List.getElem?_eq_getElem hax']
      simp only [Option.map_some, Option.getD_some, reduceCtorEq, if_false]
      split_ifs with hdL
      · exact hf _
      · exact le_refl _
  have hl1 : p.cm.dims.idxOf d1 < i.length := by rw [inRange_length hiq]; exact hlt d1 (by simp)
  have hl2 : p.cm.dims.idxOf d2 < i.length := by rw [inRange_length hiq]; exact hlt d2 (by simp)
  have hev := ifftn_unshift (a := a.scale (1 / (s : ℂ))) hax (hlt d1 (by simp)) (hlt d2 (by simp)) hiq
  have hs1 : (a.scale (1 / (s : ℂ))).shape = q.data.shape := rfl
  rw [hs1, hsd d1 (by simp), hsd d2 (by simp)] at hev
  refine hev.trans ?_
  unfold weightedWaves
  rw [list_sum_range, Finset.sum_div]
  refine Finset.sum_congr rfl fun j hj => ?_
  rw [list_sum_range, Finset.sum_div, Finset.sum_mul, Finset.sum_div]
  refine Finset.sum_congr rfl fun l hl => ?_
  have hj' := Finset.mem_range.1 hj
  have hl' := Finset.mem_range.1 hl
  set i' := (i.set (p.cm.dims.idxOf d1) j).set (p.cm.dims.idxOf d2) l with hi'd
  have hin : InRange q.data.shape i' := inRange_set (inRange_set hiq (by rw [hsd d1 (by simp)]; exact hj')) (by rw [hsd d2 (by simp)]; exact hl')
  have hp1 : posAlong p d1 i' = j := by
    unfold posAlong
    rw [hi'd, getD_set_ne (Ne.symm hax), getD_set_self hl1]
  have hp2 : posAlong p d2 i' = l := by
    unfold posAlong
    rw [hi'd, getD_set_self (by simpa using hl2)]
  have hL1 : label q ("ft_" ++ d1) i' = some (some (frequency (N d1) (spacingOf p.cm d1) j)) := by
    rw [hT.freq d1 (by simp) i' hin, hp1]
    simp [frequency]
  have hL2 : label q ("ft_" ++ d2) i' = some (some (frequency (N d2) (spacingOf p.cm d2) l)) := by
    rw [hT.freq d2 (by simp) i' hin, hp2]
    simp [frequency]
  have hget : (a.scale (1 / (s : ℂ))).get i' = q.data.get i' * (G i' : ℂ) * (1 / (s : ℂ)) := rfl
  rw [hget, hG i' hin _ _ hL1 hL2, hT.data i' hin (fun d => if d = d1 then frequency (N d1) (spacingOf p.cm d1) j else frequency (N d2) (spacingOf p.cm d2) l) (by
    intro d hd
    simp only [List.mem_cons, List.not_mem_nil, or_false] at hd
    rcases hd with rfl | rfl
    · rw [if_pos rfl]; exact hL1
    · rw [if_neg (Ne.symm hne12)]; exact hL2)]
  have hfs : ∀ f, fourierSum p f [d1, d2] i' = fourierSum p f [d1, d2] i := by
    intro f
    have hnest := fourierSum_nest p (f := f) (n := fun ax => if ax = p.cm.dims.idxOf d1 then lenDim p.cm d1 else lenDim p.cm d2)
      (φ := fun ax j => if ax = p.cm.dims.idxOf d1 then wave (f d1 * (j * spacingOf p.cm d1)) else wave (f d2 * (j * spacingOf p.cm d2)))
      (D := [d1, d2]) (by
        intro d hd
        simp only [List.mem_cons, List.not_mem_nil, or_false] at hd
        rcases hd with rfl | rfl
        · simp
        · simp [Ne.symm hax]) (by
        intro d hd j
        simp only [List.mem_cons, List.not_mem_nil, or_false] at hd
        rcases hd with rfl | rfl
        · simp
        · simp [Ne.symm hax])
    rw [hnest, hnest, hi'd, nest_set (by simp), nest_set (by simp)]
  rw [hfs]
  have hx1 : spacingOf p.cm d1 ≠ 0 := by rw [spacing_dx]; exact hdx d1 (by simp)
  have hx2 : spacingOf p.cm d2 ≠ 0 := by rw [spacing_dx]; exact hdx d2 (by simp)
  have hn1 : ((N d1 : ℕ) : ℚ) ≠ 0 := by exact_mod_cast (by omega : N d1 ≠ 0)
  have hn2 : ((N d2 : ℕ) : ℚ) ≠ 0 := by exact_mod_cast (by omega : N d2 ≠ 0)
  have w1 : expi (-(((j : ℚ) - (N d1 / 2 : ℕ)) * (i.getD (p.cm.dims.idxOf d1) 0 : ℕ) / (N d1 : ℕ))) =
      wave (-(frequency (N d1) (spacingOf p.cm d1) j * (posAlong p d1 i * spacingOf p.cm d1))) := by
    show wave _ = _
    congr 1
    unfold frequency posAlong
    field_simp
  have w2 : expi (-(((l : ℚ) - (N d2 / 2 : ℕ)) * (i.getD (p.cm.dims.idxOf d2) 0 : ℕ) / (N d2 : ℕ))) =
      wave (-(frequency (N d2) (spacingOf p.cm d2) l * (posAlong p d2 i * spacingOf p.cm d2))) := by
    show wave _ = _
    congr 1
    unfold frequency posAlong
    field_simp
  rw [w1, w2]
  have hs : (s : ℚ) = spacingOf p.cm d1 * spacingOf p.cm d2 := by simp [s, spacing_dx]
  rw [hs]
  push_cast
  generalize fourierSum p _ [d1, d2] i = F
  generalize (g _ _ : ℝ) = γ
  generalize wave _ = W1
  generalize wave _ = W2
  have cx1 : ((spacingOf p.cm d1 : ℚ) : ℂ) ≠ 0 := by exact_mod_cast hx1
  have cx2 : ((spacingOf p.cm d2 : ℚ) : ℂ) ≠ 0 := by exact_mod_cast hx2
  have cn1 : ((N d1 : ℕ) : ℂ) ≠ 0 := by exact_mod_cast (by omega : N d1 ≠ 0)
  have cn2 : ((N d2 : ℕ) : ℂ) ≠ 0 := by exact_mod_cast (by omega : N d2 ≠ 0)
  field_simp

end Verif
