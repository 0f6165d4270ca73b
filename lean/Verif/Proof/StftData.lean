import Verif.Proof.ShortTime
import Verif.Proof.Moving
/-! # Lemmas: the data of short-time Fourier transforms -/
namespace Verif
open Spec

theorem mod_back {m d j : ℕ} (hd : d ≤ m) (hj : j < m) : ((j + m - d) % m + d) % m = j := by
  rw [Nat.mod_add_mod, show j + m - d + d = j + m by omega, Nat.add_mod_right, Nat.mod_eq_of_lt hj]

theorem mod_forth {m d l : ℕ} (hd : d ≤ m) (hl : l < m) : ((l + d) % m + m - d) % m = l := by
  have h1 : (l + d) % m + m - d = (l + d) % m + (m - d) := by omega
  rw [h1, Nat.mod_add_mod, show l + d + (m - d) = l + m by omega, Nat.add_mod_right, Nat.mod_eq_of_lt hl]

/-- The transform of a rolled frame counts from the centre of the window. -/
theorem rolled_sum {s : ShortTime} (hm : s.len ≤ s.mfft) (h0 : 0 < s.mfft) (y : ℕ → ℂ) (g : ℤ) :
    ∑ l ∈ Finset.range s.mfft, s.rolled y l * expi (l * ((g : ℚ) / s.mfft)) =
      ∑ j ∈ Finset.range s.len, y j * (s.win.getD j 0 : ℚ) * expi ((((j : ℤ) - s.mid : ℤ) : ℚ) * ((g : ℚ) / s.mfft)) := by
  have hmid : s.mid ≤ s.mfft := by unfold ShortTime.mid; unfold ShortTime.len at hm; omega
  have hsub : Finset.range s.len ⊆ Finset.range s.mfft := Finset.range_subset_range.2 hm
  have h1 : ∑ j ∈ Finset.range s.len, y j * (s.win.getD j 0 : ℚ) * expi ((((j : ℤ) - s.mid : ℤ) : ℚ) * ((g : ℚ) / s.mfft)) =
      ∑ j ∈ Finset.range s.mfft, (if j < s.len then y j * (s.win.getD j 0 : ℚ) else 0) * expi ((((j : ℤ) - s.mid : ℤ) : ℚ) * ((g : ℚ) / s.mfft)) := by
    rw [← Finset.sum_subset hsub]
    · apply Finset.sum_congr rfl
      intro j hj
      rw [if_pos (Finset.mem_range.1 hj)]
    · intro j _ hj
      rw [if_neg (by simpa using hj), zero_mul]
  rw [h1]
  apply Finset.sum_nbij' (fun l => (l + s.mid) % s.mfft) (fun j => (j + s.mfft - s.mid) % s.mfft)
  · intro l _
    exact Finset.mem_range.2 (Nat.mod_lt _ h0)
  · intro j _
    exact Finset.mem_range.2 (Nat.mod_lt _ h0)
  · intro l hl
    exact mod_forth hmid (Finset.mem_range.1 hl)
  · intro j hj
    exact mod_back hmid (Finset.mem_range.1 hj)
  · intro l _
    unfold ShortTime.rolled
    congr 1
    have h2 := Nat.div_add_mod (l + s.mid) s.mfft
    generalize (l + s.mid) / s.mfft = Q at h2
    have hq : (s.mfft : ℚ) ≠ 0 := by exact_mod_cast h0.ne'
    have h3 : ((((((l + s.mid) % s.mfft : ℕ) : ℤ) - s.mid : ℤ)) : ℚ) = l - s.mfft * (Q : ℕ) := by
      have : ((((l + s.mid) % s.mfft : ℕ) : ℤ) - s.mid : ℤ) = l - s.mfft * (Q : ℕ) := by
        have h4 : ((s.mfft * Q + (l + s.mid) % s.mfft : ℕ) : ℤ) = ((l + s.mid : ℕ) : ℤ) := by rw [h2]
        push_cast at h4 ⊢
        linarith
      rw [this]
      push_cast
      ring
    rw [h3]
    have h4 : ((l : ℚ) - s.mfft * (Q : ℕ)) * ((g : ℚ) / s.mfft) =
        l * ((g : ℚ) / s.mfft) + ((-((Q : ℕ) * g) : ℤ) : ℚ) := by
      push_cast
      field_simp
      ring
    rw [h4, expi_add, expi_int, mul_one]

/-- A frame is a part of the line. -/
theorem frame_sum {s : ShortTime} (n : ℕ) (x : ℕ → ℂ) (p : ℕ) (E : ℤ → ℂ) :
    ∑ j ∈ Finset.range s.len, s.frame n x p j * (s.win.getD j 0 : ℚ) * E ((j : ℤ) - s.mid) =
      ∑ k ∈ Finset.range n, x k * (windowVal s.win (k - ((p : ℤ) - s.before) * s.hop + (s.win.length / 2 : ℕ)) : ℚ) * E (k - ((p : ℤ) - s.before) * s.hop) := by
  have hm : s.mid = s.win.length / 2 := rfl
  have e1 : ∀ j ∈ Finset.range s.len, s.frame n x p j * (s.win.getD j 0 : ℚ) * E ((j : ℤ) - s.mid) =
      ∑ k ∈ Finset.range n, if (k : ℤ) - ((p : ℤ) - s.before) * s.hop + s.mid = j then x k * (windowVal s.win j : ℚ) * E ((j : ℤ) - s.mid) else 0 := by
    intro j _
    unfold ShortTime.frame
    rw [windowVal_nat]
    have hring : ((p : ℤ) - s.before) * s.hop = ((p * s.hop : ℕ) : ℤ) - ((s.before * s.hop : ℕ) : ℤ) := by push_cast; ring
    rw [hring]
    split_ifs with h
    · rw [Finset.sum_eq_single (p * s.hop + j - (s.before * s.hop + s.mid))]
      · rw [if_pos (by omega)]
      · intro k _ hk
        rw [if_neg (by omega)]
      · intro hk
        exact absurd (Finset.mem_range.2 h.2) hk
    · rw [zero_mul, zero_mul]
      symm
      apply Finset.sum_eq_zero
      intro k hk
      rw [Finset.mem_range] at hk
      rw [if_neg (by intro hc; apply h; omega)]
  rw [Finset.sum_congr rfl e1, Finset.sum_comm]
  apply Finset.sum_congr rfl
  intro k _
  by_cases hin : windowVal s.win (k - ((p : ℤ) - s.before) * s.hop + (s.win.length / 2 : ℕ)) = 0
  · rw [hin]
    simp only [Rat.cast_zero, mul_zero, zero_mul]
    apply Finset.sum_eq_zero
    intro j _
    split_ifs with hc
    · rw [← hc, hm, hin]; simp
    · rfl
  · obtain ⟨h1, h2⟩ := windowVal_in hin
    rw [Finset.sum_eq_single ((k : ℤ) - ((p : ℤ) - s.before) * s.hop + (s.win.length / 2 : ℕ)).toNat]
    · have h3 : ((((k : ℤ) - ((p : ℤ) - s.before) * s.hop + (s.win.length / 2 : ℕ)).toNat : ℕ) : ℤ) =
          (k : ℤ) - ((p : ℤ) - s.before) * s.hop + (s.win.length / 2 : ℕ) := Int.toNat_of_nonneg h1
      rw [if_pos (by rw [h3, hm]), h3, hm, add_sub_cancel_right]
    · intro j _ hj
      rw [if_neg]
      intro hc
      apply hj
      rw [hm] at hc
      omega
    · intro hc
      exfalso
      apply hc
      rw [Finset.mem_range]
      unfold ShortTime.len
      omega

theorem inRange_concat {sh i : List ℕ} {n p : ℕ} (h : InRange sh i) (hp : p < n) : InRange (sh ++ [n]) (i ++ [p]) :=
  List.rel_append h (List.Forall₂.cons hp List.Forall₂.nil)

theorem inRange_dropLast {sh i : List ℕ} {n : ℕ} (h : InRange (sh ++ [n]) i) :
    InRange sh i.dropLast ∧ i.getD sh.length 0 < n ∧ i = i.dropLast ++ [i.getD sh.length 0] := by
  have hl := inRange_length h
  rw [List.length_append, List.length_singleton] at hl
  obtain ⟨a, b, rfl⟩ : ∃ a b, i = a ++ [b] := ⟨i.dropLast, i.getLast (by rintro rfl; simp at hl), (List.dropLast_append_getLast _).symm⟩
  have hla : a.length = sh.length := by simpa using hl
  rw [List.dropLast_concat]
  have hb : (a ++ [b]).getD sh.length 0 = b := by rw [← hla]; simp
  rw [hb]
  have := List.Forall₂.length_eq h
  refine ⟨?_, ?_, rfl⟩
  · have h1 := List.forall₂_take sh.length h
    rw [List.take_left, ← hla, List.take_left] at h1
    exact h1
  · have h1 := (inRange_iff.1 h).2 sh.length (by simp)
    rw [hb] at h1
    simpa using h1

theorem frames_shape (s : ShortTime) (detr : (ℕ → ℂ) → ℕ → ℂ) (a : Nd ℂ) (axis : ℕ) :
    (s.frames detr a axis).shape = a.shape.set axis s.mfft ++ [s.slices (a.shape.getD axis 0)] := rfl

theorem set_concat_getD {sh : List ℕ} {axis x y : ℕ} (h : axis < sh.length) : (sh.set axis x ++ [y]).getD axis 0 = x := by
  rw [List.getD_eq_getElem?_getD, List.getElem?_append_left (by rw [List.length_set]; exact h), ← List.getD_eq_getElem?_getD, getD_set_self h]

theorem set_concat_set {sh : List ℕ} {axis x y z : ℕ} (h : axis < sh.length) : (sh.set axis x ++ [y]).set axis z = sh.set axis z ++ [y] := by
  rw [List.set_append_left _ _ (by rw [List.length_set]; exact h), List.set_set]

/-- The shape of a transform. -/
theorem transform_shape {s : ShortTime} {detr : (ℕ → ℂ) → ℕ → ℂ} {a A : Nd ℂ} {axis : ℕ} {dx : ℚ} (hax : axis < a.shape.length)
    (h : s.transform detr a axis dx = .ok A) : A.shape = a.shape.set axis s.freqs ++ [s.slices (a.shape.getD axis 0)] := by
  unfold ShortTime.transform at h
  split_ifs at h with h1 h2
  · cases h
    rw [shiftAll_shape]
    show ((s.frames detr a axis).rfftn ([] ++ [axis])).shape = _
    rw [rfftn_shape, frames_shape, set_concat_getD hax, set_concat_set hax]
    unfold ShortTime.freqs
    rw [if_pos h2]
  · cases h
    rw [shiftAll_shape]
    show ((s.frames detr a axis).fftn [axis]).shape = _
    rw [fftn_shape, frames_shape]
    unfold ShortTime.freqs
    rw [if_neg h2]

/-- The elements of a transform are Fourier sums. -/
theorem transform_get {s : ShortTime} {detr : (ℕ → ℂ) → ℕ → ℂ} {a A : Nd ℂ} {axis : ℕ} {dx : ℚ} (hax : axis < a.shape.length)
    (h : s.transform detr a axis dx = .ok A) {i : List ℕ} (hi : i.length = a.shape.length + 1) : A.get i =
    (∑ l ∈ Finset.range s.mfft, (s.frames detr a axis).get (i.set axis l) *
      expi (l * ((((i.getD axis 0 : ℤ) - if s.onesided then 0 else ((s.mfft / 2 : ℕ) : ℤ) : ℤ) : ℚ) / s.mfft))) * dx := by
  have hg : (s.frames detr a axis).shape.getD axis 0 = s.mfft := by rw [frames_shape, set_concat_getD hax]
  unfold ShortTime.transform at h
  split_ifs at h with h1 h2
  · cases h
    rw [scale_shiftAll]
    show ((Nd.rfftn (s.frames detr a axis) ([] ++ [axis])).shiftAll []).get i * _ = _
    rw [shifted_fftn (a := s.frames detr a axis) (axes := [axis]) (by simp) (by simp) (by simp) (rfftn_get (axes := []) (by simp)) (by simp)
      (by intro ax hx; rw [List.mem_singleton] at hx; rw [hx, hi]; omega)]
    simp only [nest, List.not_mem_nil, if_false, sub_zero, hg, if_pos h2]
    congr 1
  · cases h
    rw [scale_shiftAll]
    show ((Nd.fftn (s.frames detr a axis) [axis]).shiftAll [axis]).get i * _ = _
    rw [shifted_fftn (a := s.frames detr a axis) (axes := [axis]) (by simp) (by simp) (by simp) rfl (by intro ax _; rw [fftn_shape])
      (by intro ax hx; rw [List.mem_singleton] at hx; rw [hx, hi]; omega)]
    simp only [nest, List.mem_singleton, if_true, hg, if_neg h2]
    congr 1
    apply Finset.sum_congr rfl
    intro l _
    congr 3
    push_cast
    rfl

/-- Without detrending these are the Fourier sums of the samples under the window. -/
theorem transform_slices {s : ShortTime} (hm : s.len ≤ s.mfft) (h0 : 0 < s.mfft) {a A : Nd ℂ} {axis : ℕ} {dx : ℚ} (hdx : dx ≠ 0) (hax : axis < a.shape.length)
    (h : s.transform id a axis dx = .ok A) {i : List ℕ} (hi : i.length = a.shape.length + 1) : A.get i =
    sliceSum (a.shape.getD axis 0) (fun k => a.get (i.dropLast.set axis k)) s.win (((i.getD a.shape.length 0 : ℤ) - s.before) * s.hop)
      (((i.getD axis 0 : ℚ) - if s.onesided then 0 else ((s.mfft / 2 : ℕ) : ℚ)) / (s.mfft * dx)) dx := by
  rw [transform_get hax h hi]
  obtain ⟨u, v, rfl⟩ : ∃ u v, i = u ++ [v] := ⟨i.dropLast, i.getLast (by rintro rfl; simp at hi), (List.dropLast_append_getLast _).symm⟩
  have hu : u.length = a.shape.length := by simpa using hi
  have hv : (u ++ [v]).getD a.shape.length 0 = v := by rw [← hu]; simp
  rw [hv, List.dropLast_concat]
  set g : ℤ := ((u ++ [v]).getD axis 0 : ℤ) - if s.onesided then 0 else ((s.mfft / 2 : ℕ) : ℤ) with hgdef
  have hf : ∀ l, (s.frames id a axis).get ((u ++ [v]).set axis l) = s.rolled (s.frame (a.shape.getD axis 0) (fun k => a.get (u.set axis k)) v) l := by
    intro l
    have h1 : (u ++ [v]).set axis l = u.set axis l ++ [v] := List.set_append_left _ _ (by omega)
    rw [h1]
    show s.rolled (id (s.frame (a.shape.getD axis 0) (fun k => a.get ((u.set axis l ++ [v]).dropLast.set axis k)) ((u.set axis l ++ [v]).getD a.shape.length 0)))
      ((u.set axis l ++ [v]).getD axis 0) = _
    have h2 : (u.set axis l ++ [v]).getD a.shape.length 0 = v := by
      have : a.shape.length = (u.set axis l).length := by rw [List.length_set, hu]
      rw [this]; simp
    rw [h2, List.dropLast_concat, set_concat_getD (by omega)]
    simp only [List.set_set, id]
  rw [Finset.sum_congr rfl fun l _ => by rw [hf l], rolled_sum hm h0,
    frame_sum _ _ _ fun j => expi ((j : ℚ) * ((g : ℚ) / s.mfft))]
  unfold sliceSum
  rw [list_sum_range, Finset.sum_mul]
  apply Finset.sum_congr rfl
  intro k _
  rw [mul_assoc]
  congr 2
  show expi _ = expi _
  congr 1
  have hq : (s.mfft : ℚ) ≠ 0 := by exact_mod_cast h0.ne'
  have hgq : (g : ℚ) = ((u ++ [v]).getD axis 0 : ℚ) - if s.onesided then 0 else ((s.mfft / 2 : ℕ) : ℚ) := by
    rw [hgdef]; split_ifs <;> simp only [Int.cast_sub, Int.cast_natCast, Int.cast_zero]
  rw [← hgq]
  push_cast
  field_simp

/-- The frames of real data are real. -/
theorem frames_real {s : ShortTime} {a : Nd ℂ} {axis : ℕ} (hax : axis < a.shape.length) (ha : RealData a) : RealData (s.frames id a axis) := by
  intro i hi
  rw [frames_shape] at hi
  obtain ⟨h1, _, h2⟩ := inRange_dropLast hi
  show (s.rolled (id (s.frame (a.shape.getD axis 0) (fun k => a.get (i.dropLast.set axis k)) (i.getD a.shape.length 0))) (i.getD axis 0)).im = 0
  unfold ShortTime.rolled
  split_ifs
  · have : ∀ z : ℂ, z.im = 0 → ∀ q : ℚ, (z * (q : ℂ)).im = 0 := by
      intro z hz q
      have : ((q : ℚ) : ℂ).im = 0 := by
        rw [show ((q : ℚ) : ℂ) = ((q : ℝ) : ℂ) by push_cast; rfl]
        exact Complex.ofReal_im _
      rw [Complex.mul_im, hz, this]; ring
    apply this
    show (s.frame _ _ _ _).im = 0
    unfold ShortTime.frame
    split_ifs with hf
    · apply ha
      have h3 : InRange (a.shape.set axis s.mfft) i.dropLast := h1
      rw [inRange_iff] at h3 ⊢
      refine ⟨by rw [List.length_set, h3.1, List.length_set], fun k hk => ?_⟩
      by_cases hka : axis = k
      · subst hka
        rw [getD_set_self (by rw [h3.1, List.length_set]; exact hax)]
        exact hf.2
      · rw [getD_set_ne hka]
        have := h3.2 k (by rw [List.length_set]; exact hk)
        rwa [getD_set_ne hka] at this
    · rfl
  · rfl

/-- Adding up the frames under the dual window gives the samples again. -/
theorem overlap_frames {s : ShortTime} (hh : 1 ≤ s.hop) (hm : s.len ≤ s.mfft) (hc : SeesAll s.win s.hop) {a b : Nd ℂ} {axis : ℕ} (hax : axis < a.shape.length)
    (hb : Agree b (s.frames id a axis)) {dual : ℕ → ℚ} (hd : s.dual = .ok dual) {N : ℕ} {i : List ℕ} (hi : InRange a.shape i) :
    (s.overlapAdd dual b axis a.shape.length N).get i = a.get i := by
  have hil := inRange_length hi
  have hbs : b.shape = a.shape.set axis s.mfft ++ [s.slices (a.shape.getD axis 0)] := hb.1
  have hbl : b.shape.length = a.shape.length + 1 := by rw [hbs]; simp
  have hback : ShortTime.axisBack b axis a.shape.length = axis := by
    unfold ShortTime.axisBack
    rw [if_pos (by rw [hbl]; omega)]
  have hbt : b.shape.getD a.shape.length 0 = s.slices (a.shape.getD axis 0) := by
    rw [hbs]
    have : a.shape.length = (a.shape.set axis s.mfft).length := by rw [List.length_set]
    conv_lhs => rw [this]
    simp
  set n := a.shape.getD axis 0 with hn
  set k := i.getD axis 0 with hkdef
  have hk : k < n := inRange_axis hi hax
  obtain ⟨c, hcw⟩ := some_window hh hc (k : ℤ)
  have hc1 := ShortTime.before_zero hh hcw
  have hc2 := ShortTime.last_zero hh hk hcw
  obtain ⟨hj1, hj2⟩ := windowVal_in hcw
  set j0 := ((k : ℤ) - c * s.hop + (s.win.length / 2 : ℕ)).toNat with hj0
  have hj0l : j0 < s.len := by unfold ShortTime.len; omega
  set T := s.norm j0 with hT
  have hTpos : 0 < T := norm_pos hh hc hj0l
  have hsum : ∑ q ∈ Finset.range (s.slices n), windowVal s.win (k - ((q : ℤ) - s.before) * s.hop + (s.win.length / 2 : ℕ)) ^ 2 = T := by
    apply slices_sum hh hk (p := (c + s.before).toNat) hj0l
    have hz2 : (((c + s.before).toNat : ℕ) : ℤ) = c + s.before := Int.toNat_of_nonneg (by omega)
    have hz : ((j0 : ℕ) : ℤ) = (k : ℤ) - c * s.hop + (s.win.length / 2 : ℕ) := by rw [hj0]; exact Int.toNat_of_nonneg hj1
    rw [hz, hz2]
    ring
  have hdual : ∀ j, j < s.len → dual j = s.win.getD j 0 / s.norm j := by
    unfold ShortTime.dual at hd
    split_ifs at hd
    cases hd
    intro j _; rfl
  have hterm : ∀ p ∈ Finset.range (s.slices n), (if p * s.hop ≤ k + s.before * s.hop + s.mid ∧ k + s.before * s.hop + s.mid < p * s.hop + s.len then
      b.get (ShortTime.putTwo axis a.shape.length ((k + s.before * s.hop + s.mid - p * s.hop + s.mfft - s.mid) % s.mfft) p (i.eraseIdx axis)) *
        (dual (k + s.before * s.hop + s.mid - p * s.hop) : ℚ) else 0) =
      a.get i * ((windowVal s.win (k - ((p : ℤ) - s.before) * s.hop + (s.win.length / 2 : ℕ)) ^ 2 / T : ℚ) : ℂ) := by
    intro p hp
    have hring : (k : ℤ) - ((p : ℤ) - s.before) * s.hop + (s.win.length / 2 : ℕ) =
        ((k + s.before * s.hop + s.mid : ℕ) : ℤ) - ((p * s.hop : ℕ) : ℤ) := by unfold ShortTime.mid; push_cast; ring
    by_cases hcond : p * s.hop ≤ k + s.before * s.hop + s.mid ∧ k + s.before * s.hop + s.mid < p * s.hop + s.len
    · rw [if_pos hcond]
      set j := k + s.before * s.hop + s.mid - p * s.hop with hj
      have hjl : j < s.len := by omega
      have hpos : (k : ℤ) - ((p : ℤ) - s.before) * s.hop + (s.win.length / 2 : ℕ) = (j : ℤ) := by rw [hring]; omega
      have hnorm : s.norm j = T := by rw [← hsum]; exact (slices_sum hh hk hjl hpos.symm).symm
      rw [hpos, windowVal_nat, hdual j hjl, hnorm]
      have hmid : s.mid ≤ s.mfft := by unfold ShortTime.mid; unfold ShortTime.len at hm; omega
      set x := (j + s.mfft - s.mid) % s.mfft with hx
      have hm0 : 0 < s.mfft := by omega
      have hxl : x < s.mfft := Nat.mod_lt _ hm0
      have hxj : (x + s.mid) % s.mfft = j := mod_back hmid (by omega)
      have hidx : ShortTime.putTwo axis a.shape.length x p (i.eraseIdx axis) = i.set axis x ++ [p] := by
        unfold ShortTime.putTwo
        rw [if_pos hax]
        have e1 : (i.eraseIdx axis).insertIdx axis x = i.set axis x := by
          rw [List.insertIdx_eraseIdx_self (by omega)]
        rw [e1]
        have : a.shape.length = (i.set axis x).length := by rw [List.length_set, hil]
        rw [this, List.insertIdx_length_self]
      rw [hidx, hb.2 _ (by
        rw [hbs]
        apply inRange_concat _ (Finset.mem_range.1 hp)
        rw [inRange_iff] at hi ⊢
        refine ⟨by rw [List.length_set, List.length_set, hil], fun e he => ?_⟩
        by_cases hea : axis = e
        · subst hea
          rw [getD_set_self (by omega), getD_set_self hax]; exact hxl
        · rw [getD_set_ne hea, getD_set_ne hea]
          exact hi.2 e (by simpa using he))]
      have hval : (s.frames id a axis).get (i.set axis x ++ [p]) = a.get i * (s.win.getD j 0 : ℚ) := by
        show s.rolled (id (s.frame n (fun k => a.get ((i.set axis x ++ [p]).dropLast.set axis k)) ((i.set axis x ++ [p]).getD a.shape.length 0)))
          ((i.set axis x ++ [p]).getD axis 0) = _
        have e1 : (i.set axis x ++ [p]).getD a.shape.length 0 = p := by
          have : a.shape.length = (i.set axis x).length := by rw [List.length_set, hil]
          rw [this]; simp
        rw [e1, List.dropLast_concat, set_concat_getD (by omega)]
        unfold ShortTime.rolled
        rw [hxj, if_pos hjl]
        congr 1
        show s.frame n _ p j = _
        unfold ShortTime.frame
        have e2 : p * s.hop + j - (s.before * s.hop + s.mid) = k := by omega
        rw [if_pos ⟨by omega, by omega⟩, e2]
        show a.get ((i.set axis x).set axis k) = _
        rw [List.set_set, hkdef, set_self_getD]
      rw [hval]
      push_cast
      ring
    · rw [if_neg hcond]
      have : windowVal s.win (k - ((p : ℤ) - s.before) * s.hop + (s.win.length / 2 : ℕ)) = 0 := by
        by_contra hne
        obtain ⟨h1, h2⟩ := windowVal_in hne
        rw [hring] at h1 h2
        apply hcond
        unfold ShortTime.len
        omega
      rw [this]
      simp
  have hget : (s.overlapAdd dual b axis a.shape.length N).get i = ((List.range (s.slices n)).map fun p : ℕ =>
      if p * s.hop ≤ k + s.before * s.hop + s.mid ∧ k + s.before * s.hop + s.mid < p * s.hop + s.len then
        b.get (ShortTime.putTwo axis a.shape.length ((k + s.before * s.hop + s.mid - p * s.hop + s.mfft - s.mid) % s.mfft) p (i.eraseIdx axis)) *
          (dual (k + s.before * s.hop + s.mid - p * s.hop) : ℚ)
      else 0).sum := by
    unfold ShortTime.overlapAdd
    simp only
    rw [hback, hbt]
  rw [hget, list_sum_range, Finset.sum_congr rfl hterm, ← Finset.mul_sum]
  have hone : ∑ p ∈ Finset.range (s.slices n), ((windowVal s.win (k - ((p : ℤ) - s.before) * s.hop + (s.win.length / 2 : ℕ)) ^ 2 / T : ℚ) : ℂ) = 1 := by
    rw [← Rat.cast_sum, ← Finset.sum_div, hsum, div_self hTpos.ne']
    simp
  rw [hone, mul_one]

/-- A transform can be undone. -/
theorem inverse_transform {s : ShortTime} (hh : 1 ≤ s.hop) (hm : s.len ≤ s.mfft) (hc : SeesAll s.win s.hop) {a A : Nd ℂ} {axis : ℕ} (hax : axis < a.shape.length)
    {dx : ℚ} (hdx : dx ≠ 0) (ha : s.onesided = true → RealData a) (h : s.transform id a axis dx = .ok A) :
    ∃ B, s.inverse A axis a.shape.length dx = .ok B ∧ B.shape = a.shape.set axis (s.extent (s.slices (a.shape.getD axis 0))) ∧
      ∀ i, InRange a.shape i → B.get i = a.get i := by
  have hsh := transform_shape hax h
  have hl : s.len - s.mid ≤ a.shape.getD axis 0 := by
    unfold ShortTime.transform at h
    split_ifs at h with h1 <;> omega
  have hl1 : 1 ≤ s.len := by
    have := hc.1
    unfold ShortTime.len; omega
  have hmax : s.maxNorm ≠ 0 := ((covers_iff hh hl1).1 hc).2
  have hdual : ∃ d, s.dual = .ok d := by
    unfold ShortTime.dual
    rw [if_neg hmax]
    exact ⟨_, rfl⟩
  obtain ⟨dual, hdual⟩ := hdual
  have hAf : A.shape.getD axis 0 = s.freqs := by rw [hsh, set_concat_getD hax]
  have hAt : A.shape.getD a.shape.length 0 = s.slices (a.shape.getD axis 0) := by
    rw [hsh]
    have : a.shape.length = (a.shape.set axis s.freqs).length := by rw [List.length_set]
    conv_lhs => rw [this]
    simp
  have hdx' : ((dx : ℚ) : ℂ) ≠ 0 := by exact_mod_cast hdx
  have hfa : axis < (s.frames id a axis).shape.length := by rw [frames_shape]; simp; omega
  have hfm : (s.frames id a axis).shape.getD axis 0 = s.mfft := by rw [frames_shape, set_concat_getD hax]
  set b := if s.onesided then (((A.scale (1 / (dx : ℂ))).unshiftAll []).irfftn s.mfft [axis]) else (((A.scale (1 / (dx : ℂ))).unshiftAll [axis]).ifftn [axis]) with hb
  have hagree : Agree b (s.frames id a axis) := by
    unfold ShortTime.transform at h
    split_ifs at h with h1 h2
    · rw [hb, if_pos h2]
      cases h
      rw [scale_shiftAll, scale_scale hdx', ← hfm]
      refine (irfftn_agree (unshiftAll_shiftAll (by simp)) _ _).trans ?_
      exact irfftn_rfftn (axes := []) (axes' := []) (frames_real hax (ha h2)) (by simp) (by simp) (by simpa using hfa)
    · rw [hb, if_neg h2]
      cases h
      rw [scale_shiftAll, scale_scale hdx']
      refine (ifftn_agree (unshiftAll_shiftAll (by simp)) _).trans ?_
      exact ifftn_fftn (by simp) (by simpa using hfa)
  refine ⟨s.overlapAdd dual b axis a.shape.length (s.extent (s.slices (a.shape.getD axis 0))), ?_, ?_, ?_⟩
  · unfold ShortTime.inverse
    rw [if_neg (by
      rw [hAf, hAt]
      push Not
      refine ⟨rfl, ?_⟩
      unfold ShortTime.slices
      exact Nat.add_le_add_left (ShortTime.last_mono hh hl) _), hdual, hAt]
    rfl
  · show ((b.shape.eraseIdx (max axis a.shape.length)).eraseIdx (min axis a.shape.length)).insertIdx (ShortTime.axisBack b axis a.shape.length) _ = _
    rw [max_eq_right hax.le, min_eq_left hax.le]
    have hbs : b.shape = a.shape.set axis s.mfft ++ [s.slices (a.shape.getD axis 0)] := hagree.1
    have hback : ShortTime.axisBack b axis a.shape.length = axis := by
      unfold ShortTime.axisBack
      rw [if_pos (by rw [hbs]; simp; omega)]
    rw [hback, hbs]
    have e1 : (a.shape.set axis s.mfft ++ [s.slices (a.shape.getD axis 0)]).eraseIdx a.shape.length = a.shape.set axis s.mfft := by
      have : a.shape.length = (a.shape.set axis s.mfft).length := by rw [List.length_set]
      conv_lhs => rw [this]
      rw [List.eraseIdx_append_of_length_le (le_refl _)]
      simp
    rw [e1, List.insertIdx_eraseIdx_self (by rw [List.length_set]; omega), List.set_set]
  · intro i hi
    exact overlap_frames hh hm hc hax hagree hdual hi

end Verif
