import Verif.Proof.Interp
import Verif.Proof.GetCoord
/-! # Resampling -/
namespace Verif
open Spec

theorem truncZ_int (z : ℤ) : truncZ (z : ℚ) = z := by
  unfold truncZ; split_ifs <;> simp

theorem resampledLabels_eq {k : Kind} {r : RangeCoord} {num : ℕ} (h : EvenTimes k (r.step * r.len / num)) :
    resampledLabels k r num = progression r.start (r.step * r.len / num) num := by
  unfold resampledLabels progression
  refine List.map_congr_left fun i _ => ?_
  have e : (i : ℚ) * r.step * r.len / num = i * (r.step * r.len / num) := by rw [mul_div_assoc', ← mul_assoc]
  rw [e]
  split_ifs with hk
  · obtain ⟨z, hz⟩ := h hk
    rw [hz, show (i : ℚ) * z = ((i * z : ℤ) : ℚ) by push_cast; rfl, truncZ_int]
    ring
  · ring

theorem resampledLabels_length (k : Kind) (r : RangeCoord) (num : ℕ) : (resampledLabels k r num).length = num := by simp [resampledLabels]

theorem storable_progression {s d : ℚ} (hd : d ≠ 0) (n : ℕ) : Storable (progression s d n) := Or.inr (Or.inl ⟨s, d, n, hd, rfl⟩)

variable {p : PatchM ℚ} {d : String} {k : Kind} {r : RangeCoord}

/-- Resampling to a number of samples. -/
theorem resampleTo_spec {q : PatchM ℚ} {rs : LineResampler} (hm : Regular p.cm) (hsh : p.cm.shape = p.data.shape) (hd : d ∈ p.cm.dims)
    (hc : p.cm.ents.get? d = some ([d], .one k (.range r))) {num : ℤ} (h : p.resampleTo rs d num = .ok q) :
    2 ≤ r.len ∧ 0 < num ∧ ∃ cm, p.cm.update [(d, .simple (.one k.divided (.arr (resampledLabels k r num.toNat))))] = .ok cm ∧
      q = ⟨cm, p.data.resampleAxis rs (p.cm.dims.idxOf d) num.toNat⟩ ∧
      Regridded p q d (resampledLabels k r num.toNat) ∧ FromLines rs p q d := by
  unfold PatchM.resampleTo at h
  rw [if_neg (not_not.2 hd), hc] at h
  simp only at h
  split_ifs at h with h1 h2
  obtain ⟨cm, hcm, h⟩ := bind_split h
  have hq : q = ⟨cm, p.data.resampleAxis rs (p.cm.dims.idxOf d) num.toNat⟩ := by
    unfold PatchM.new at h
    split_ifs at h
    cases h; rfl
  subst hq
  have hR := regrid_spec hm hd hc (a := .simple (.one k.divided (.arr (resampledLabels k r num.toNat)))) rfl hcm hsh
    (data := p.data.resampleAxis rs (p.cm.dims.idxOf d) num.toNat) (by rw [resampledLabels_length]; rfl)
  refine ⟨by omega, by omega, cm, hcm, rfl, hR, ?_⟩
  intro i hi
  obtain ⟨h3, h4, h5, h6, _⟩ := regrid_regular hm hd (a := .simple (.one k.divided (.arr (resampledLabels k r num.toNat)))) rfl hcm
  have hlen : lenDim cm d = num.toNat := by
    have hdc : d ∈ cm.dims := h3 ▸ hd
    have e1 : cm.shape = cm.dims.map (lenDim cm) := by
      unfold CM.shape
      rw [if_neg (by rintro h; rw [h] at hdc; cases hdc)]
      rfl
    rw [e1, h3] at h6
    have := List.map_inj_left.1 h6 d hd
    rw [this, if_pos rfl, resampledLabels_length]
  show (rs (p.data.lineThrough _ i) _).getD _ _ = _
  simp only [hlen, posAlong, h3]
  unfold Nd.lineThrough
  rw [shape_getD hsh hd]

theorem resampleTo_total {rs : LineResampler} (hm : Regular p.cm) (hr : Readable p.cm) (hsh : p.cm.shape = p.data.shape) (hd : d ∈ p.cm.dims)
    (hc : p.cm.ents.get? d = some ([d], .one k (.range r))) {num : ℤ} (hl : 2 ≤ r.len) (hn : 0 < num)
    (hs : Storable (resampledLabels k r num.toNat)) : ∃ q, p.resampleTo rs d num = .ok q := by
  obtain ⟨y, hy, _⟩ := C14_represents_partial k.divided _ hs
  obtain ⟨cm, hcm⟩ := regrid_total hm hr hd (a := .simple (.one k.divided (.arr (resampledLabels k r num.toNat)))) rfl
    (y := .one k.divided y) (by show (getCoordData k.divided _).map _ = _; rw [hy]; rfl)
  obtain ⟨_, _, _, h4, _⟩ := regrid_regular hm hd (a := .simple (.one k.divided (.arr (resampledLabels k r num.toNat)))) rfl hcm
  refine ⟨⟨cm, p.data.resampleAxis rs (p.cm.dims.idxOf d) num.toNat⟩, ?_⟩
  unfold PatchM.resampleTo
  rw [if_neg (not_not.2 hd), hc]
  simp only
  rw [if_neg (by omega), if_neg (by omega)]
  simp only [bind, Except.bind, hcm]
  unfold PatchM.new
  rw [if_pos]
  rw [h4]
  show _ = p.data.shape.set _ _
  rw [shape_dims hsh hd, map_set_idx hm.distinct, resampledLabels_length]

/-- The patch resampled to a number of samples is again regular, and evenly sampled. -/
theorem resampleTo_even {q : PatchM ℚ} {rs : LineResampler} (hm : Regular p.cm) (hsh : p.cm.shape = p.data.shape) (hd : d ∈ p.cm.dims)
    (hc : p.cm.ents.get? d = some ([d], .one k (.range r))) {num : ℤ} (h : p.resampleTo rs d num = .ok q) (he : EvenTimes k (r.step * r.len / num.toNat))
    (hn : 2 ≤ num) :
    Regular q.cm ∧ Readable q.cm ∧ q.cm.shape = q.data.shape ∧
      EvenAlong q.cm d k.divided r.start (r.step * r.len / num) num.toNat := by
  obtain ⟨hl, h0, cm, hcm, rfl, hR, _⟩ := resampleTo_spec hm hsh hd hc h
  obtain ⟨h3, h4, h5, h6, c, h7, h8⟩ := regrid_regular hm hd (a := .simple (.one k.divided (.arr (resampledLabels k r num.toNat)))) rfl hcm
  refine ⟨h4, h5, ?_, h3 ▸ hd, ?_⟩
  · rw [h6, hR.shape]
  · have hv : r.Valid := hm.classes _ _ _ _ (Dict.mem_of_get? hc)
    have hst : r.step * r.len / (num.toNat : ℚ) ≠ 0 := by
      refine div_ne_zero (mul_ne_zero hv.1 ?_) ?_ <;> (norm_cast; omega)
    have hnum : ((num.toNat : ℕ) : ℚ) = num := by
      rw [show (num : ℚ) = ((num.toNat : ℤ) : ℚ) by rw [Int.toNat_of_nonneg h0.le]]; norm_cast
    rw [resampledLabels_eq he] at h8
    have := getCoordData_progression k.divided r.start (r.step * r.len / num.toNat) num.toNat hst (by omega) none
    change (getCoordData k.divided _).map _ = _ at h8
    rw [this] at h8
    rw [h7]
    cases h8
    rw [hnum]
    exact ⟨_, rfl⟩

end Verif
