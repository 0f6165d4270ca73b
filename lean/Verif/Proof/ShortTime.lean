import Verif.Model.Stft
import Verif.Spec.Stft
import Verif.Proof.FourierRound
import Mathlib.Algebra.BigOperators.Finprod
/-! # Lemmas: slices and windows of short-time Fourier transforms -/
namespace Verif
open Spec

theorem windowVal_nat (w : List ℚ) (j : ℕ) : windowVal w j = w.getD j 0 := by
  unfold windowVal
  rw [if_pos (Int.natCast_nonneg j), Int.toNat_natCast]

theorem windowVal_in {w : List ℚ} {j : ℤ} (h : windowVal w j ≠ 0) : 0 ≤ j ∧ j < w.length := by
  unfold windowVal at h
  split_ifs at h with h0
  · refine ⟨h0, ?_⟩
    by_contra hc
    apply h
    rw [List.getD_eq_getElem?_getD, List.getElem?_eq_none (by omega)]
    rfl
  · exact absurd rfl h

namespace ShortTime

theorem before_found (s : ShortTime) (h : 1 ≤ s.hop) :
    s.len ≤ s.mid + (s.before + 1) * s.hop ∨ ∀ j, s.len - (s.mid + (s.before + 1) * s.hop) ≤ j → s.win.getD j 0 = 0 := by
  have key : ∃ p, ((List.range (s.len + 1)).find? fun p : ℕ => decide (s.len ≤ s.mid + (p + 1) * s.hop) ||
      (s.win.drop (s.len - (s.mid + (p + 1) * s.hop))).all fun x => x == 0) = some p := by
    rw [← Option.isSome_iff_exists, List.find?_isSome]
    refine ⟨s.len, by simp, ?_⟩
    rw [Bool.or_eq_true]
    left
    rw [decide_eq_true_eq]
    nlinarith
  obtain ⟨p, hp⟩ := key
  have hb : s.before = p := by unfold before; rw [hp]; rfl
  have := List.find?_some hp
  rw [hb]
  rw [Bool.or_eq_true, decide_eq_true_eq, List.all_eq_true] at this
  refine this.imp_right fun h j hj => ?_
  rw [List.getD_eq_getElem?_getD]
  cases hg : s.win[j]? with
  | none => rfl
  | some x =>
    have := h x (by
      rw [List.mem_iff_getElem?]
      refine ⟨j - (s.len - (s.mid + (p + 1) * s.hop)), ?_⟩
      rw [List.getElem?_drop, ← hg]
      congr 1
      omega)
    simpa using this

theorem before_tight (s : ShortTime) (h : 1 ≤ s.before) : s.mid + s.before * s.hop < s.len := by
  have key : ∃ p, ((List.range (s.len + 1)).find? fun p : ℕ => decide (s.len ≤ s.mid + (p + 1) * s.hop) ||
      (s.win.drop (s.len - (s.mid + (p + 1) * s.hop))).all fun x => x == 0) = some p := by
    cases hp : (List.range (s.len + 1)).find? fun p : ℕ => decide (s.len ≤ s.mid + (p + 1) * s.hop) ||
      (s.win.drop (s.len - (s.mid + (p + 1) * s.hop))).all fun x => x == 0 with
    | some p => exact ⟨p, rfl⟩
    | none =>
      unfold before at h
      rw [hp] at h
      simp at h
  obtain ⟨p, hp⟩ := key
  have hb : s.before = p := by unfold before; rw [hp]; rfl
  rw [hb] at h ⊢
  obtain ⟨_, as, bs, hl, has⟩ := List.find?_eq_some_iff_append.1 hp
  have hpos : as.length = p := by
    have h1 : (List.range (s.len + 1))[as.length]? = some p := by rw [hl]; simp
    have h2 := (List.getElem?_eq_some_iff.1 h1).1
    rw [List.getElem?_eq_getElem h2, List.getElem_range] at h1
    exact Option.some.inj h1
  have hmem : p - 1 ∈ as := by
    rw [List.mem_iff_getElem?]
    refine ⟨p - 1, ?_⟩
    have h1 : (List.range (s.len + 1))[p - 1]? = as[p - 1]? := by rw [hl, List.getElem?_append_left (by omega)]
    rw [← h1]
    have h2 : p < s.len + 1 := by
      have := List.mem_of_find?_eq_some hp
      simpa using this
    rw [List.getElem?_eq_getElem (by simp; omega), List.getElem_range]
  have := has _ hmem
  simp only [Bool.not_eq_true', Bool.or_eq_false_iff, decide_eq_false_iff_not, not_le] at this
  have h3 : p - 1 + 1 = p := by omega
  rw [h3] at this
  exact this.1

/-- The window at the place of slice `c` is zero at all the samples if the slice comes before the first one. -/
theorem before_zero {s : ShortTime} (h : 1 ≤ s.hop) {c : ℤ} {k : ℕ} (hw : windowVal s.win (k - c * s.hop + (s.win.length / 2 : ℕ)) ≠ 0) :
    -(s.before : ℤ) ≤ c := by
  by_contra hc
  push Not at hc
  obtain ⟨r, hr⟩ : ∃ r : ℕ, c = -((s.before + 1 + r : ℕ) : ℤ) := ⟨(-c - s.before - 1).toNat, by push_cast; omega⟩
  have hpos : (k : ℤ) - c * s.hop + (s.win.length / 2 : ℕ) = ((k + (s.before + 1 + r) * s.hop + s.mid : ℕ) : ℤ) := by
    rw [hr]; unfold mid; push_cast; ring
  have hge : (s.before + 1) * s.hop ≤ (s.before + 1 + r) * s.hop := Nat.mul_le_mul_right _ (by omega)
  rw [hpos] at hw
  have hlt : k + (s.before + 1 + r) * s.hop + s.mid < s.len := by
    have := (windowVal_in hw).2
    unfold len
    omega
  rw [windowVal_nat] at hw
  rcases before_found s h with h1 | h1
  · omega
  · apply hw
    apply h1
    have h2 : s.len ≤ 2 * s.mid + 1 := by unfold len mid; omega
    have h3 : 1 ≤ (s.before + 1) * s.hop := Nat.mul_pos (by omega) h
    omega

/-- The search of `last`. -/
def ends (s : ShortTime) (n L : ℕ) : Bool := decide (n + s.mid ≤ L * s.hop) || (s.win.take (n + s.mid - L * s.hop)).all fun x => x == 0

theorem last_found (s : ShortTime) (h : 1 ≤ s.hop) (n : ℕ) :
    n / s.hop + 1 ≤ s.last n ∧ s.ends n (s.last n) = true ∧ ∀ L, n / s.hop + 1 ≤ L → L < s.last n → s.ends n L = false := by
  have key : ∃ p, ((List.range (s.len + 1)).find? fun t : ℕ => decide (n + s.mid ≤ (n / s.hop + t + 1) * s.hop) ||
    (s.win.take (n + s.mid - (n / s.hop + t + 1) * s.hop)).all fun x => x == 0) = some p := by
    rw [← Option.isSome_iff_exists, List.find?_isSome]
    refine ⟨s.len, by simp, ?_⟩
    rw [Bool.or_eq_true]
    left
    rw [decide_eq_true_eq]
    have h1 : n < s.hop * (n / s.hop + 1) := by
      have := Nat.div_add_mod n s.hop
      have := Nat.mod_lt n (show 0 < s.hop by omega)
      rw [Nat.mul_add]; omega
    have h2 : s.mid ≤ s.len := by unfold mid len; omega
    have h3 : s.len ≤ s.len * s.hop := Nat.le_mul_of_pos_right _ (by omega)
    have h4 : (n / s.hop + s.len + 1) * s.hop = s.hop * (n / s.hop + 1) + s.len * s.hop := by ring
    omega
  obtain ⟨p, hp⟩ := key
  have hb : s.last n = n / s.hop + p + 1 := by unfold last; rw [hp]; rfl
  rw [hb]
  have hs := List.find?_some hp
  refine ⟨by omega, hs, ?_⟩
  intro L h1 h2
  obtain ⟨_, as, bs, hl, has⟩ := List.find?_eq_some_iff_append.1 hp
  have hpos : as.length = p := by
    have h1 : (List.range (s.len + 1))[as.length]? = some p := by rw [hl]; simp
    have h2 := (List.getElem?_eq_some_iff.1 h1).1
    rw [List.getElem?_eq_getElem h2, List.getElem_range] at h1
    exact Option.some.inj h1
  have hmem : L - (n / s.hop + 1) ∈ as := by
    rw [List.mem_iff_getElem?]
    refine ⟨L - (n / s.hop + 1), ?_⟩
    have h1 : (List.range (s.len + 1))[L - (n / s.hop + 1)]? = as[L - (n / s.hop + 1)]? := by rw [hl, List.getElem?_append_left (by omega)]
    rw [← h1]
    have h2 : p < s.len + 1 := by
      have := List.mem_of_find?_eq_some hp
      simpa using this
    rw [List.getElem?_eq_getElem (by simp; omega), List.getElem_range]
  have := has _ hmem
  have h3 : n / s.hop + (L - (n / s.hop + 1)) + 1 = L := by omega
  rw [Bool.not_eq_true', h3] at this
  exact this

theorem ends_spec {s : ShortTime} {n L : ℕ} (h : s.ends n L = true) : n + s.mid ≤ L * s.hop ∨ ∀ j, j < n + s.mid - L * s.hop → s.win.getD j 0 = 0 := by
  unfold ends at h
  rw [Bool.or_eq_true, decide_eq_true_eq, List.all_eq_true] at h
  refine h.imp_right fun h j hj => ?_
  rw [List.getD_eq_getElem?_getD]
  cases hg : s.win[j]? with
  | none => rfl
  | some x =>
    have := h x (by
      rw [List.mem_iff_getElem?]
      exact ⟨j, by rw [List.getElem?_take_of_lt hj, hg]⟩)
    simpa using this

theorem ends_mono {s : ShortTime} {n n' L : ℕ} (hn : n ≤ n') (h : s.ends n' L = true) : s.ends n L = true := by
  rcases ends_spec h with h1 | h1
  · unfold ends
    rw [Bool.or_eq_true, decide_eq_true_eq]
    left; omega
  · unfold ends
    rw [Bool.or_eq_true]
    right
    rw [List.all_eq_true]
    intro x hx
    obtain ⟨j, hj⟩ := List.mem_iff_getElem?.1 hx
    have hlt : j < n + s.mid - L * s.hop := by
      by_contra hc
      rw [List.getElem?_eq_none (by rw [List.length_take]; omega)] at hj
      cases hj
    rw [List.getElem?_take_of_lt hlt] at hj
    have := h1 j (by omega)
    rw [List.getD_eq_getElem?_getD, hj] at this
    simpa using this

theorem last_mono {s : ShortTime} (h : 1 ≤ s.hop) {n n' : ℕ} (hn : n ≤ n') : s.last n ≤ s.last n' := by
  obtain ⟨_, _, h1⟩ := last_found s h n
  obtain ⟨h2, h3, _⟩ := last_found s h n'
  by_contra hc
  push Not at hc
  have := h1 (s.last n') (le_trans (Nat.add_le_add_right (Nat.div_le_div_right hn) 1) h2) hc
  rw [ends_mono hn h3] at this
  cases this

/-- The window at the place of slice `c` is zero at all the samples if the slice comes after the last one. -/
theorem last_zero {s : ShortTime} (h : 1 ≤ s.hop) {n : ℕ} {c : ℤ} {k : ℕ} (hk : k < n)
    (hw : windowVal s.win (k - c * s.hop + (s.win.length / 2 : ℕ)) ≠ 0) : c < s.last n := by
  by_contra hc
  push Not at hc
  obtain ⟨r, hr⟩ : ∃ r : ℕ, c = ((s.last n + r : ℕ) : ℤ) := ⟨(c - s.last n).toNat, by push_cast; omega⟩
  have hin := (windowVal_in hw).1
  have hcast : c * s.hop = (((s.last n + r) * s.hop : ℕ) : ℤ) := by rw [hr]; push_cast; ring
  have hge : s.last n * s.hop ≤ (s.last n + r) * s.hop := Nat.mul_le_mul_right _ (by omega)
  have hm : s.mid = s.win.length / 2 := rfl
  have hpos : (k : ℤ) - c * s.hop + (s.win.length / 2 : ℕ) = ((k + s.mid - (s.last n + r) * s.hop : ℕ) : ℤ) := by
    rw [hcast] at hin ⊢; omega
  have hle : (s.last n + r) * s.hop ≤ k + s.mid := by rw [hcast] at hin; omega
  rw [hpos, windowVal_nat] at hw
  rcases ends_spec (last_found s h n).2.1 with h1 | h1
  · omega
  · exact hw (h1 _ (by omega))

theorem last_near {s : ShortTime} (h : 1 ≤ s.hop) {n : ℕ} : ((s.last n : ℤ) - 1) * s.hop - s.mid ≤ n := by
  obtain ⟨h1, _, h3⟩ := last_found s h n
  by_cases he : s.last n = n / s.hop + 1
  · rw [he]
    have := Nat.div_mul_le_self n s.hop
    push_cast
    have h4 : ((n / s.hop * s.hop : ℕ) : ℤ) ≤ n := by exact_mod_cast this
    push_cast at h4
    have : ((n : ℤ) / s.hop + 1 - 1) * s.hop = (n : ℤ) / s.hop * s.hop := by ring
    rw [this]
    omega
  · have h0 : 1 ≤ s.last n := le_trans (Nat.le_add_left 1 _) h1
    have := h3 (s.last n - 1) (Nat.le_sub_one_of_lt (lt_of_le_of_ne h1 (Ne.symm he))) (by omega)
    unfold ends at this
    rw [Bool.or_eq_false_iff, decide_eq_false_iff_not, not_le] at this
    have h5 := this.1
    have h6 : (((s.last n - 1) * s.hop : ℕ) : ℤ) < ((n + s.mid : ℕ) : ℤ) := by exact_mod_cast h5
    have h7 : (((s.last n - 1) * s.hop : ℕ) : ℤ) = ((s.last n : ℤ) - 1) * s.hop := by
      rw [Nat.cast_mul, Nat.cast_sub (by omega)]; rfl
    rw [h7] at h6
    push_cast at h6
    omega

end ShortTime

/-! ### The sums of the squares -/

/-- All the windows at position `j`, the windows moved by multiples of `hop`. -/
noncomputable def allWindows (w : List ℚ) (hop : ℕ) (j : ℤ) : ℚ := ∑ᶠ q : ℤ, windowVal w (j + q * hop) ^ 2

theorem allWindows_shift (w : List ℚ) (hop : ℕ) (j t : ℤ) : allWindows w hop (j + t * hop) = allWindows w hop j := by
  unfold allWindows
  rw [← finsum_comp_equiv (Equiv.addRight t) (f := fun q : ℤ => windowVal w (j + q * hop) ^ 2)]
  apply finsum_congr
  intro q
  congr 2
  simp only [Equiv.coe_addRight]
  ring

theorem allWindows_sum {w : List ℚ} {hop : ℕ} {j : ℤ} {S : Finset ℤ} (h : ∀ q : ℤ, windowVal w (j + q * hop) ≠ 0 → q ∈ S) :
    allWindows w hop j = ∑ q ∈ S, windowVal w (j + q * hop) ^ 2 := by
  unfold allWindows
  apply finsum_eq_sum_of_support_subset
  intro q hq
  apply h
  intro h0
  apply hq
  simp only [h0]
  norm_num

theorem reach {w : List ℚ} {hop : ℕ} (hh : 1 ≤ hop) {j : ℕ} (hj : j < w.length) {q : ℤ} (h : windowVal w (j + q * hop) ≠ 0) :
    -(w.length : ℤ) < q ∧ q < w.length := by
  obtain ⟨h1, h2⟩ := windowVal_in h
  have hh' : (1 : ℤ) ≤ hop := by exact_mod_cast hh
  constructor
  · by_contra hc
    push Not at hc
    have : q * hop ≤ -(w.length : ℤ) := by nlinarith
    omega
  · by_contra hc
    push Not at hc
    have : (w.length : ℤ) ≤ q * hop := by nlinarith
    omega

/-- A sum over the numbers around zero. -/
theorem sum_around (f : ℤ → ℚ) (n : ℕ) : ∑ q ∈ Finset.Ioo (-((n : ℤ) + 1)) (n + 1), f q =
    f 0 + ((List.range (n + 1)).map fun t : ℕ => if t = 0 then 0 else f (-t) + f t).sum := by
  induction n with
  | zero =>
    have : Finset.Ioo (-((0 : ℕ) : ℤ) - 1) (((0 : ℕ) : ℤ) + 1) = {0} := by decide
    rw [show -(((0 : ℕ) : ℤ) + 1) = -((0 : ℕ) : ℤ) - 1 by ring, this]
    simp
  | succ n ih =>
    have hset : Finset.Ioo (-(((n + 1 : ℕ) : ℤ) + 1)) (((n + 1 : ℕ) : ℤ) + 1) =
        insert (-((n + 1 : ℕ) : ℤ)) (insert ((n + 1 : ℕ) : ℤ) (Finset.Ioo (-((n : ℤ) + 1)) (n + 1))) := by
      ext x
      simp only [Finset.mem_Ioo, Finset.mem_insert]
      push_cast
      omega
    rw [hset, Finset.sum_insert, Finset.sum_insert, ih, List.range_succ (n := n + 1), List.map_append, List.sum_append]
    · simp
      ring
    · simp
    · simp only [Finset.mem_insert, Finset.mem_Ioo, not_or]
      push_cast
      omega

theorem norm_all {s : ShortTime} (hh : 1 ≤ s.hop) {j : ℕ} (hj : j < s.len) : s.norm j = allWindows s.win s.hop j := by
  obtain ⟨n, hn⟩ : ∃ n, s.len = n + 1 := ⟨s.len - 1, by omega⟩
  have hlen : s.win.length = n + 1 := hn
  rw [allWindows_sum (S := Finset.Ioo (-((n : ℤ) + 1)) (n + 1)) (by
    intro q hq
    have := reach hh hj hq
    rw [hlen] at this
    rw [Finset.mem_Ioo]
    push_cast at this
    omega), sum_around]
  unfold ShortTime.norm
  congr 1
  · rw [zero_mul, add_zero, windowVal_nat]
  · rw [hn]
    congr 1
    apply List.map_congr_left
    intro t _
    split_ifs with h0 h1
    · rfl
    · rw [← windowVal_nat, ← windowVal_nat]
      congr 3
      · push_cast [Nat.cast_sub h1]; ring
    · rw [← windowVal_nat]
      congr 1
      · symm
        have : windowVal s.win (↑j + -↑t * ↑s.hop) = 0 := by
          by_contra hc
          have := (windowVal_in hc).1
          have h2 : ((j : ℕ) : ℤ) < ((t * s.hop : ℕ) : ℤ) := by exact_mod_cast not_le.1 h1
          push_cast at h2
          linarith
        rw [this]; norm_num

theorem overlapTotal_all {w : List ℚ} {hop : ℕ} (hh : 1 ≤ hop) {j : ℕ} (hj : j < w.length) : overlapTotal w hop j = allWindows w hop j := by
  rw [allWindows_sum (S := (Finset.range (2 * w.length + 1)).image fun t : ℕ => (t : ℤ) - w.length) (by
    intro q hq
    have := reach hh hj hq
    rw [Finset.mem_image]
    exact ⟨(q + w.length).toNat, by rw [Finset.mem_range]; omega, by omega⟩)]
  rw [Finset.sum_image (by intro a _ b _ h; simpa using h)]
  unfold overlapTotal
  rw [list_sum_range]

theorem allWindows_nonneg (w : List ℚ) (hop : ℕ) (j : ℤ) : 0 ≤ allWindows w hop j := finsum_nonneg fun _ => sq_nonneg _

theorem maxNorm_le {s : ShortTime} {j : ℕ} (hj : j < s.len) : s.norm j ≤ s.maxNorm := by
  unfold ShortTime.maxNorm
  have : ∀ (l : List ℚ) (x : ℚ), x ∈ l → x ≤ l.foldr max 0 := by
    intro l
    induction l with
    | nil => simp
    | cons y l ih =>
      intro x hx
      rw [List.mem_cons] at hx
      rw [List.foldr_cons]
      rcases hx with rfl | hx
      · exact le_max_left _ _
      · exact le_trans (ih x hx) (le_max_right _ _)
  exact this _ _ (List.mem_map.2 ⟨j, by simpa using hj, rfl⟩)

theorem maxNorm_mem (s : ShortTime) : s.maxNorm = 0 ∨ ∃ j, j < s.len ∧ s.maxNorm = s.norm j := by
  unfold ShortTime.maxNorm
  have : ∀ l : List ℚ, l.foldr max 0 = 0 ∨ l.foldr max 0 ∈ l := by
    intro l
    induction l with
    | nil => left; rfl
    | cons y l ih =>
      rw [List.foldr_cons]
      rcases le_total y (l.foldr max 0) with h | h
      · rw [max_eq_right h]
        exact ih.imp_right fun h => List.mem_cons_of_mem _ h
      · rw [max_eq_left h]
        exact Or.inr (List.mem_cons_self ..)
  rcases this ((List.range s.len).map s.norm) with h | h
  · exact Or.inl h
  · obtain ⟨j, hj, he⟩ := List.mem_map.1 h
    exact Or.inr ⟨j, by simpa using hj, he.symm⟩

/-- When a transform can be undone. -/
theorem covers_iff {s : ShortTime} (hh : 1 ≤ s.hop) (hl : 1 ≤ s.len) : SeesAll s.win s.hop ↔ s.invertible = true ∧ s.maxNorm ≠ 0 := by
  unfold SeesAll ShortTime.invertible
  rw [Bool.and_eq_true, decide_eq_true_eq, List.all_eq_true]
  constructor
  · rintro ⟨h1, h2⟩
    refine ⟨⟨h1, ?_⟩, ?_⟩
    · intro j hj
      have hj' : j < s.len := by simpa using hj
      rw [decide_eq_true_eq]
      rcases maxNorm_mem s with h | ⟨i, hi, h⟩
      · rw [h, mul_zero, norm_all hh hj']
        exact allWindows_nonneg _ _ _
      · rw [h, norm_all hh hi, norm_all hh hj', ← overlapTotal_all hh hi, ← overlapTotal_all hh hj']
        have := (h2 i j hi hj').2
        norm_num at this ⊢
        exact this
    · have h3 := (h2 0 0 hl hl).1
      have h4 := maxNorm_le hl
      rw [norm_all hh hl, ← overlapTotal_all hh hl] at h4
      intro h0
      rw [h0] at h4
      exact absurd h4 (not_le.2 h3)
  · rintro ⟨⟨h1, h2⟩, h3⟩
    refine ⟨h1, ?_⟩
    intro i j hi hj
    have h4 := h2 j (List.mem_range.2 hj)
    rw [decide_eq_true_eq] at h4
    have h0 : 0 < s.maxNorm := by
      rcases maxNorm_mem s with h | ⟨k, hk, h⟩
      · exact absurd h h3
      · refine lt_of_le_of_ne ?_ (Ne.symm h3)
        rw [h, norm_all hh hk]
        exact allWindows_nonneg _ _ _
    rw [overlapTotal_all hh hi, overlapTotal_all hh hj, ← norm_all hh hi, ← norm_all hh hj]
    have h5 := maxNorm_le (s := s) hi
    constructor
    · linarith
    · norm_num
      norm_num at h4
      linarith

theorem norm_pos {s : ShortTime} (hh : 1 ≤ s.hop) (h : SeesAll s.win s.hop) {j : ℕ} (hj : j < s.len) : 0 < s.norm j := by
  rw [norm_all hh hj, ← overlapTotal_all hh hj]
  exact (h.2 j j hj hj).1

/-- Around every position there is a window which is not zero there. -/
theorem some_window {s : ShortTime} (hh : 1 ≤ s.hop) (hc : SeesAll s.win s.hop) (k : ℤ) :
    ∃ c : ℤ, windowVal s.win (k - c * s.hop + (s.win.length / 2 : ℕ)) ≠ 0 := by
  have hh' : (0 : ℤ) < s.hop := by exact_mod_cast hh
  have hm := Int.emod_nonneg (k + (s.win.length / 2 : ℕ)) (ne_of_gt hh')
  have hm2 := Int.emod_lt_of_pos (k + (s.win.length / 2 : ℕ)) hh'
  set j := ((k + (s.win.length / 2 : ℕ)) % s.hop).toNat with hj
  have hjl : j < s.len := by
    have : (s.hop : ℤ) ≤ s.win.length := by exact_mod_cast hc.1
    unfold ShortTime.len; omega
  have hpos := norm_pos hh hc hjl
  rw [norm_all hh hjl] at hpos
  by_contra hno
  push Not at hno
  have : allWindows s.win s.hop j = 0 := by
    unfold allWindows
    apply finsum_eq_zero_of_forall_eq_zero
    intro q
    have h1 := hno ((k + (s.win.length / 2 : ℕ)) / s.hop - q)
    have h2 : (k : ℤ) - ((k + (s.win.length / 2 : ℕ)) / s.hop - q) * s.hop + (s.win.length / 2 : ℕ) = j + q * s.hop := by
      have := Int.emod_add_mul_ediv (k + (s.win.length / 2 : ℕ)) s.hop
      have h3 : (j : ℤ) = (k + (s.win.length / 2 : ℕ)) % s.hop := by omega
      rw [h3]
      linarith
    rw [h2] at h1
    rw [h1]; norm_num
  rw [this] at hpos
  exact lt_irrefl _ hpos

theorem extent_ge {s : ShortTime} (hh : 1 ≤ s.hop) (hc : SeesAll s.win s.hop) (n : ℕ) : n ≤ s.extent (s.slices n) := by
  by_contra hlt
  push Not at hlt
  obtain ⟨c, hw⟩ := some_window hh hc (s.extent (s.slices n))
  have h1 := ShortTime.last_zero hh hlt hw
  have h2 := (windowVal_in hw).2
  have h3 : 1 ≤ s.last n := le_trans (Nat.le_add_left 1 _) (ShortTime.last_found s hh n).1
  have h4 : s.slices n - s.before - 1 = s.last n - 1 := by unfold ShortTime.slices; omega
  have hmid : s.mid ≤ s.len := by unfold ShortTime.mid ShortTime.len; omega
  have h5 : (s.extent (s.slices n) : ℤ) = ((s.last n : ℤ) - 1) * s.hop + s.len - s.mid := by
    unfold ShortTime.extent
    rw [h4, Nat.cast_sub (by omega), Nat.cast_add, Nat.cast_mul, Nat.cast_sub (by omega)]
    rfl
  rw [h5] at h2
  have hh' : (0 : ℤ) ≤ s.hop := by omega
  have h6 : c * s.hop ≤ ((s.last n : ℤ) - 1) * s.hop := mul_le_mul_of_nonneg_right (by omega) hh'
  unfold ShortTime.len ShortTime.mid at h2
  omega

/-- The squares of the windows of the slices add up to the same at every sample. -/
theorem slices_sum {s : ShortTime} (hh : 1 ≤ s.hop) {n k : ℕ} (hk : k < n) {j : ℕ} {p : ℕ} (hj : j < s.len)
    (hp : (j : ℤ) = k - ((p : ℤ) - s.before) * s.hop + (s.win.length / 2 : ℕ)) :
    ∑ q ∈ Finset.range (s.slices n), windowVal s.win (k - ((q : ℤ) - s.before) * s.hop + (s.win.length / 2 : ℕ)) ^ 2 = s.norm j := by
  rw [norm_all hh hj, hp]
  have h1 : (k : ℤ) - ((p : ℤ) - s.before) * s.hop + (s.win.length / 2 : ℕ) = k + (s.win.length / 2 : ℕ) + ((s.before : ℤ) - p) * s.hop := by ring
  rw [h1, allWindows_shift, allWindows_sum (S := (Finset.range (s.slices n)).image fun q : ℕ => (s.before : ℤ) - q) (by
    intro c hc
    have h2 : (k : ℤ) + (s.win.length / 2 : ℕ) + c * s.hop = k - (-c) * s.hop + (s.win.length / 2 : ℕ) := by ring
    rw [h2] at hc
    have h3 := ShortTime.before_zero hh hc
    have h4 := ShortTime.last_zero hh hk hc
    rw [Finset.mem_image]
    refine ⟨((s.before : ℤ) - c).toNat, ?_, by omega⟩
    rw [Finset.mem_range]
    unfold ShortTime.slices
    omega), Finset.sum_image (by intro a _ b _ h; simp only [sub_right_inj, Nat.cast_inj] at h; exact h)]
  apply Finset.sum_congr rfl
  intro q _
  congr 2
  ring

end Verif
