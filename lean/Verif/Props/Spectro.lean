import Verif.Spec.Spectro
import Verif.Proof.CoordRange
import Verif.Props.Taper
/-! # C109: labels of the older transforms -/
namespace Verif
open Spec

/-! ### `rfft` -/

/-- The labels of `rfft` are right for samples one unit (one second) apart, and for no others. -/
theorem C109_rfft_iff {c : RangeCoord} (hc : c.Valid) (h2 : 2 ≤ c.len) (k : Kind) :
    ∃ fs, rfftLabels k c = .ok fs ∧ (BinLabels c.len (stepFloat k c.step) fs ↔ |stepFloat k c.step| = 1) := by
  have hs : stepFloat k c.step ≠ 0 := by
    unfold stepFloat
    have := hc.step_ne
    split <;> simp [this]
  have hn : (c.len : ℚ) ≠ 0 := by exact_mod_cast (by omega : c.len ≠ 0)
  unfold rfftLabels
  generalize stepFloat k c.step = d at hs ⊢
  refine ⟨_, if_neg (mul_ne_zero hn (one_div_ne_zero hs)), ?_⟩
  have key : ∀ j : ℕ, (j : ℚ) / (c.len * (1 / d)) * (c.len * d) = j * (d * d) := by intro j; field_simp
  have habs : |d| = 1 ↔ d ^ 2 = 1 := by
    have := sq_eq_sq_iff_abs_eq_abs d 1
    rw [one_pow, abs_one] at this
    exact this.symm
  rw [habs]
  constructor
  · intro h
    have := h.2 1 ((1 : ℕ) / (c.len * (1 / d))) (by
      rw [List.getElem?_map, List.getElem?_range (by omega)]; rfl)
    rw [key] at this
    push_cast at this
    linarith
  · intro h
    refine ⟨by simp, fun j f hf => ?_⟩
    rw [List.getElem?_map] at hf
    obtain ⟨i, hi, rfl⟩ := Option.map_eq_some_iff.1 hf
    obtain ⟨_, rfl⟩ := List.getElem?_eq_some_iff.1 hi
    rw [List.getElem_range, key]
    linear_combination (j : ℚ) * h

/-- A patch of 8 samples, a quarter apart: label 1 should be 1/2, and is 1/32. -/
theorem C109_rfft_violated : ∃ c : RangeCoord, c.Valid ∧ ∃ fs, rfftLabels .float c = .ok fs ∧ fs[1]? = some (1 / 32) ∧ ¬ BinLabels c.len c.step fs := by
  refine ⟨⟨0, 2, 1 / 4, 8⟩, ⟨by norm_num, by norm_num, by norm_num⟩, [0, 1 / 32, 1 / 16, 3 / 32, 1 / 8], by decide +kernel, by decide +kernel, fun h => ?_⟩
  have := h.2 1 (1 / 32) (by decide +kernel)
  norm_num at this

/-! ### Spectrograms -/

theorem sum_progression (a d : ℚ) (w : ℕ) : ((List.range w).map fun j : ℕ => a + j * d).sum = w * a + d * (w * (w - 1) / 2) := by
  induction w with
  | zero => simp
  | succ w ih =>
    rw [List.range_succ, List.map_append, List.sum_append, ih]
    simp
    ring

theorem fits_iff {n w hop i : ℕ} (hw : w ≤ n) (hh : 0 < hop) : i < (n - w) / hop + 1 ↔ i * hop + w ≤ n := by
  rw [Nat.lt_succ_iff, Nat.le_div_iff_mul_le hh]
  omega

theorem ceil_slices {n w hop : ℕ} (hw : w ≤ n) (hh : 0 < hop) : ⌈(((n : ℚ) - w / 2 + 1) - w / 2) / hop⌉.toNat = (n - w) / hop + 1 := by
  have hh' : (0 : ℚ) < hop := by exact_mod_cast hh
  have h1 : (((n : ℚ) - w / 2 + 1) - w / 2) = ((n - w + 1 : ℕ) : ℚ) := by push_cast [Nat.cast_sub hw]; ring
  have h2 : ⌈(((n : ℚ) - w / 2 + 1) - w / 2) / hop⌉ = (((n - w) / hop + 1 : ℕ) : ℤ) := by
    rw [h1, Int.ceil_eq_iff]
    have a := Nat.div_add_mod (n - w) hop
    have b := Nat.mod_lt (n - w) hh
    have a' := Nat.div_mul_le_self (n - w) hop
    generalize (n - w) / hop = q at a a' ⊢
    constructor
    · rw [lt_div_iff₀ hh']
      have t : ((q * hop : ℕ) : ℚ) < ((n - w + 1 : ℕ) : ℚ) := by exact_mod_cast Nat.lt_succ_of_le a'
      push_cast at t ⊢
      linarith
    · rw [div_le_iff₀ hh']
      have : n - w + 1 ≤ (q + 1) * hop := by
        have : (q + 1) * hop = hop * q + hop := by ring
        omega
      exact_mod_cast this
  rw [h2]
  rfl

/-- Along ascending coordinates slices are labelled half a sample after the mean of the labels of their samples (scipy's convention), and frequencies
correctly. -/
theorem C109_spectrogram_partial {c : RangeCoord} (hc : c.Valid) (hasc : 0 < c.step) {w o : ℕ} (hw : 1 ≤ w) (hn : w ≤ c.len) (ho : o < w) :
    ∃ s, spectrogram c w (some o) = .ok s ∧ SlicesOf c w (w - o) (c.step / 2) s := by
  have hmin := range_min hc hasc
  have hwin : spectroWindow c.len w (some o) = .ok (w, o) := by
    unfold spectroWindow
    rw [Nat.min_eq_left hn, if_neg (by omega), if_neg (by simpa using ho)]
    rfl
  have hh : 0 < w - o := by omega
  refine ⟨_, by unfold spectrogram; rw [hwin]; rfl, ?_⟩
  have hsl : ∀ i, (spectroSlices c.len w (w - o))[i]? = if i * (w - o) + w ≤ c.len then some (List.range' (i * (w - o)) w) else none := by
    intro i
    unfold spectroSlices
    rw [List.getElem?_map]
    by_cases h : i < (c.len - w) / (w - o) + 1
    · rw [List.getElem?_range h, if_pos ((fits_iff hn hh).1 h), List.range'_eq_map_range]
      rfl
    · rw [List.getElem?_eq_none (by simpa using h), if_neg (fun g => h ((fits_iff hn hh).2 g))]
      rfl
  have hw0 : (w : ℚ) ≠ 0 := by exact_mod_cast (by omega : w ≠ 0)
  refine ⟨hsl, ?_, ?_, ?_, ?_⟩
  · simp only [spectroTimes, spectroSlices, List.length_map, List.length_range]
    exact ceil_slices hn hh
  · intro i l v hl hv
    rw [hsl] at hl
    split at hl
    case isFalse => exact absurd hl (by simp)
    rename_i hfit
    obtain rfl := Option.some.inj hl
    simp only [spectroTimes] at hv
    rw [List.getElem?_map, List.getElem?_map] at hv
    obtain ⟨t, ht, rfl⟩ := Option.map_eq_some_iff.1 hv
    obtain ⟨i', hi, rfl⟩ := Option.map_eq_some_iff.1 ht
    obtain ⟨_, rfl⟩ := List.getElem?_eq_some_iff.1 hi
    rw [List.getElem_range, hmin]
    have hlab : labelsAt c (List.range' (i * (w - o)) w) = (List.range w).map fun j : ℕ => (c.start + (i * (w - o) : ℕ) * c.step) + j * c.step := by
      unfold labelsAt
      rw [List.range'_eq_map_range, List.map_map]
      refine List.map_congr_left fun j hj => ?_
      have hj' := List.mem_range.1 hj
      simp only [Function.comp]
      rw [List.getD_eq_getElem?_getD, hc.getElem?_values, if_pos (by omega)]
      push_cast
      simp only [Option.getD_some]
      ring
    have hs := hc.step_ne
    unfold sliceMean
    rw [hlab, sum_progression, List.length_map, List.length_range]
    push_cast
    field_simp
    ring
  · simp
  · intro k f hf
    simp only at hf
    rw [List.getElem?_map] at hf
    obtain ⟨i, hi, rfl⟩ := Option.map_eq_some_iff.1 hf
    obtain ⟨_, rfl⟩ := List.getElem?_eq_some_iff.1 hi
    rw [List.getElem_range]
    have hs := hc.step_ne
    field_simp

/-- Windows longer than the data are cut to them, the overlap is then an eighth unless it is given; windows of no samples and overlaps of whole windows
are refused. -/
theorem C109_window {c : RangeCoord} (w : ℕ) :
    (c.len ≤ w → 1 ≤ c.len → ∀ o, spectrogram c w o = spectrogram c c.len o) ∧
    (1 ≤ w → w ≤ c.len → spectrogram c w none = spectrogram c w (some (w / 8))) ∧
    (∀ o, spectrogram c 0 o = .error .valueError) ∧ (∀ o, min w c.len ≤ o → spectrogram c w (some o) = .error .valueError) := by
  refine ⟨fun h h1 o => ?_, fun h h1 => ?_, fun o => rfl, fun o h => ?_⟩
  · unfold spectrogram spectroWindow
    rw [Nat.min_eq_right h, Nat.min_self, if_neg (by omega : ¬ w = 0), if_neg (by omega : ¬ c.len = 0)]
  · unfold spectrogram spectroWindow
    rw [Nat.min_eq_left h1]
    rfl
  · unfold spectrogram spectroWindow
    by_cases h0 : w = 0
    · rw [if_pos h0]; rfl
    · rw [if_neg h0, if_pos (by simpa using h)]; rfl

/-- Labels of slices of a descending coordinate do not even lie among those of the samples. -/
theorem C109_descending_violated : ∃ c : RangeCoord, c.Valid ∧ c.values = [7, 6, 5, 4] ∧ ∃ s, spectrogram c 2 (some 0) = .ok s ∧ s.slices = [[0, 1], [2, 3]] ∧
    s.labels = [3, 1] ∧ ∀ shift, |shift| ≤ 1 → ¬ SlicesOf c 2 2 shift s := by
  refine ⟨⟨7, 3, -1, 4⟩, ⟨by norm_num, by norm_num, by norm_num⟩, by decide +kernel, ⟨[0, -1 / 2], [3, 1], [[0, 1], [2, 3]]⟩, by decide +kernel, rfl, rfl, fun sh hsh h => ?_⟩
  have h0 := h.labels 0 [0, 1] 3 rfl rfl
  have e : sliceMean (labelsAt ⟨7, 3, -1, 4⟩ [0, 1]) = 13 / 2 := by decide +kernel
  rw [e] at h0
  have := abs_le.1 hsh
  linarith [this.1]

/-- The frequencies take the place of the dimension, which becomes the last; the others stay where they are. -/
theorem C109_dims {dims : List String} (hnd : dims.Nodup) {dim : String} (hd : dim ∈ dims) (hnew : ftName dim ∉ dims) :
    (spectroDims dims dim).length = dims.length + 1 ∧ (spectroDims dims dim).getLast? = some dim ∧
    (∀ (j : ℕ) d, dims[j]? = some d → (spectroDims dims dim)[j]? = some (if d = dim then ftName dim else d)) ∧ (spectroDims dims dim).Nodup := by
  have hlt := List.idxOf_lt_length_of_mem hd
  have hget : ∀ (j : ℕ) d, dims[j]? = some d → (spectroDims dims dim)[j]? = some (if d = dim then ftName dim else d) := by
    intro j d hj
    obtain ⟨hj1, hj2⟩ := List.getElem?_eq_some_iff.1 hj
    unfold spectroDims
    rw [List.getElem?_append_left (by simpa using hj1), List.getElem?_set]
    by_cases h : d = dim
    · have : dims.idxOf dim = j := by rw [← h, ← hj2]; exact hnd.idxOf_getElem j hj1
      rw [if_pos this, if_pos h, if_pos hlt]
    · have : dims.idxOf dim ≠ j := fun g => h (by rw [← hj2]; subst g; exact List.getElem_idxOf hlt)
      rw [if_neg this, if_neg h, hj]
  refine ⟨by simp [spectroDims], by simp [spectroDims], hget, ?_⟩
  have hset : dims.set (dims.idxOf dim) (ftName dim) = dims.map fun d => if d = dim then ftName dim else d := by
    refine List.ext_getElem? fun j => ?_
    rw [List.getElem?_map]
    by_cases hj : j < dims.length
    · have := hget j _ (List.getElem?_eq_getElem hj)
      unfold spectroDims at this
      rw [List.getElem?_append_left (by simpa using hj)] at this
      rw [this, List.getElem?_eq_getElem hj]
      rfl
    · rw [List.getElem?_eq_none (by simpa using hj), List.getElem?_eq_none (by simpa using hj)]
      rfl
  have hne : ftName dim ≠ dim := fun h => hnew (by rw [h]; exact hd)
  unfold spectroDims
  rw [hset, List.nodup_append]
  refine ⟨?_, by simp, ?_⟩
  · refine hnd.map_on fun a ha b hb hab => ?_
    split at hab <;> split at hab
    · simp_all
    · exact absurd (hab ▸ hb) hnew
    · exact absurd (hab ▸ ha) hnew
    · exact hab
  · intro a ha b hb
    obtain ⟨d, _, rfl⟩ := List.mem_map.1 ha
    obtain rfl := List.mem_singleton.1 hb
    split
    · exact hne
    · assumption

/-! ### Cases that meet the hypotheses -/

/-- Samples one second apart. -/
example : (⟨0, 8000000000, 1000000000, 8⟩ : RangeCoord).Valid ∧ stepFloat .time 1000000000 = 1 ∧
    rfftLabels .time ⟨0, 8000000000, 1000000000, 8⟩ = .ok [0, 1 / 8, 1 / 4, 3 / 8, 1 / 2] :=
  ⟨⟨by norm_num, by norm_num, by norm_num⟩, by decide +kernel, by decide +kernel⟩

/-- Seven samples in windows of four which overlap by two. -/
example : (⟨10, 27 / 2, 1 / 2, 7⟩ : RangeCoord).Valid ∧
    spectrogram ⟨10, 27 / 2, 1 / 2, 7⟩ 4 (some 2) = .ok ⟨[0, 1 / 2, 1], [11, 12], [[0, 1, 2, 3], [2, 3, 4, 5]]⟩ :=
  ⟨⟨by norm_num, by norm_num, by norm_num⟩, by decide +kernel⟩

example : spectroDims ["time", "distance"] "time" = ["ft_time", "distance", "time"] ∧ ftName "time" ∉ ["time", "distance"] := by decide +kernel

end Verif
