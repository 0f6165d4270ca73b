import Verif.Spec.Calculus
import Verif.Proof.Correlate
import Verif.Proof.Arith
import Mathlib.Tactic.FieldSimp
import Mathlib.Tactic.LinearCombination
/-! # Derivatives and integrals of one line -/
namespace Verif
open Spec

/-- `s` describes the `n` places `x 0`, `x 1`, …, which are different. -/
def Spaced (s : Spacing) (n : ℕ) (x : ℕ → ℚ) : Prop :=
  match s with
  | .dx h => h ≠ 0 ∧ ∀ i < n, x i = x 0 + i * h
  | .places xs => xs = (List.range n).map x ∧ ∀ i j, i < j → j < n → x i ≠ x j

theorem diffs_getD (l : List ℚ) (i : ℕ) (h : i + 1 < l.length) : (diffs l).getD i 0 = l.getD (i + 1) 0 - l.getD i 0 := by
  induction l generalizing i with
  | nil => simp at h
  | cons a l ih =>
    cases l with
    | nil => simp at h
    | cons b l =>
      cases i with
      | zero => simp [diffs]
      | succ i =>
        have := ih i (by simpa using h)
        simpa [diffs] using this

theorem getD_range_map {β} (n : ℕ) (g : ℕ → β) (i : ℕ) (d : β) (h : i < n) : ((List.range n).map g).getD i d = g i := by
  rw [List.getD_eq_getElem?_getD, List.getElem?_map, List.getElem?_range h]; rfl

theorem diffs_places {n : ℕ} {x : ℕ → ℚ} {i : ℕ} (h : i + 1 < n) : (diffs ((List.range n).map x)).getD i 0 = x (i + 1) - x i := by
  rw [diffs_getD _ _ (by simpa using h), getD_range_map _ _ _ _ h, getD_range_map _ _ _ _ (by omega)]

/-- The three point formula for a polynomial of degree two. -/
theorem stencilFirst_exact {a b c x y z : ℚ} (h1 : x ≠ y) (h2 : y ≠ z) (h3 : x ≠ z) :
    stencilFirst (y - x) (z - y) (a + b * x + c * x ^ 2) (a + b * y + c * y ^ 2) (a + b * z + c * z ^ 2) = b + 2 * c * x := by
  have e1 : y - x ≠ 0 := sub_ne_zero.2 h1.symm
  have e2 : z - y ≠ 0 := sub_ne_zero.2 h2.symm
  have e3 : y - x + (z - y) ≠ 0 := by rw [show y - x + (z - y) = z - x by ring]; exact sub_ne_zero.2 h3.symm
  unfold stencilFirst
  field_simp
  ring

theorem stencilMiddle_exact {a b c x y z : ℚ} (h1 : x ≠ y) (h2 : y ≠ z) (h3 : x ≠ z) :
    stencilMiddle (y - x) (z - y) (a + b * x + c * x ^ 2) (a + b * y + c * y ^ 2) (a + b * z + c * z ^ 2) = b + 2 * c * y := by
  have e1 : y - x ≠ 0 := sub_ne_zero.2 h1.symm
  have e2 : z - y ≠ 0 := sub_ne_zero.2 h2.symm
  have e3 : y - x + (z - y) ≠ 0 := by rw [show y - x + (z - y) = z - x by ring]; exact sub_ne_zero.2 h3.symm
  unfold stencilMiddle
  field_simp
  ring

theorem stencilLast_exact {a b c x y z : ℚ} (h1 : x ≠ y) (h2 : y ≠ z) (h3 : x ≠ z) :
    stencilLast (y - x) (z - y) (a + b * x + c * x ^ 2) (a + b * y + c * y ^ 2) (a + b * z + c * z ^ 2) = b + 2 * c * z := by
  have e1 : y - x ≠ 0 := sub_ne_zero.2 h1.symm
  have e2 : z - y ≠ 0 := sub_ne_zero.2 h2.symm
  have e3 : y - x + (z - y) ≠ 0 := by rw [show y - x + (z - y) = z - x by ring]; exact sub_ne_zero.2 h3.symm
  unfold stencilLast
  field_simp
  ring

theorem gradEven_exact {h : ℚ} (hh : h ≠ 0) {n : ℕ} (hn : 3 ≤ n) {x f : ℕ → ℚ} (hx : ∀ i < n, x i = x 0 + i * h) {a b c : ℚ}
    (hf : ∀ i < n, f i = a + b * x i + c * x i ^ 2) {i : ℕ} (hi : i < n) :
    (gradEven h ((List.range n).map f)).getD i 0 = b + 2 * c * x i := by
  unfold gradEven
  rw [getD_range_map _ _ _ _ (by simpa using hi)]
  simp only [List.length_map, List.length_range]
  split
  · rename_i h0
    subst h0
    rw [getD_range_map _ _ _ _ (by omega), getD_range_map _ _ _ _ (by omega), getD_range_map _ _ _ _ (by omega), hf 0 (by omega), hf 1 (by omega),
      hf 2 (by omega), hx 1 (by omega), hx 2 (by omega)]
    field_simp
    push_cast
    ring
  · rename_i h0
    split
    · rename_i h1
      obtain ⟨m, rfl⟩ : ∃ m, i = m + 2 := ⟨i - 2, by omega⟩
      rw [getD_range_map _ _ _ _ (by omega), getD_range_map _ _ _ _ (by omega), getD_range_map _ _ _ _ (by omega), hf _ (by omega), hf _ (by omega),
        hf (m + 2) (by omega), show m + 2 - 2 = m by omega, show m + 2 - 1 = m + 1 by omega, hx m (by omega), hx (m + 1) (by omega), hx (m + 2) (by omega)]
      field_simp
      push_cast
      ring
    · obtain ⟨m, rfl⟩ : ∃ m, i = m + 1 := ⟨i - 1, by omega⟩
      rw [getD_range_map _ _ _ _ (by omega), getD_range_map _ _ _ _ (by omega), hf _ (by omega), hf _ (by omega),
        show m + 1 - 1 = m by omega, hx m (by omega), hx (m + 1 + 1) (by omega), hx (m + 1) (by omega)]
      field_simp
      push_cast
      ring

theorem gradUneven_exact {n : ℕ} (hn : 3 ≤ n) {x f : ℕ → ℚ} (hx : ∀ i j, i < j → j < n → x i ≠ x j) {a b c : ℚ}
    (hf : ∀ i < n, f i = a + b * x i + c * x i ^ 2) {i : ℕ} (hi : i < n) :
    (gradUneven (diffs ((List.range n).map x)) ((List.range n).map f)).getD i 0 = b + 2 * c * x i := by
  unfold gradUneven
  rw [getD_range_map _ _ _ _ (by simpa using hi)]
  simp only [List.length_map, List.length_range]
  split
  · rename_i h0
    subst h0
    rw [getD_range_map _ _ _ _ (by omega), getD_range_map _ _ _ _ (by omega), getD_range_map _ _ _ _ (by omega), hf 0 (by omega), hf 1 (by omega),
      hf 2 (by omega), diffs_places (by omega), diffs_places (by omega)]
    exact stencilFirst_exact (hx 0 1 (by omega) (by omega)) (hx 1 2 (by omega) (by omega)) (hx 0 2 (by omega) (by omega))
  · rename_i h0
    split
    · rename_i h1
      obtain ⟨m, rfl⟩ : ∃ m, i = m + 2 := ⟨i - 2, by omega⟩
      rw [show m + 2 - 2 = m by omega, show m + 2 - 1 = m + 1 by omega,
        getD_range_map _ _ _ _ (by omega), getD_range_map _ _ _ _ (by omega), getD_range_map _ _ _ _ (by omega), hf _ (by omega), hf _ (by omega),
        hf (m + 2) (by omega), diffs_places (by omega), diffs_places (by omega)]
      exact stencilLast_exact (hx _ _ (by omega) (by omega)) (hx _ _ (by omega) (by omega)) (hx _ _ (by omega) (by omega))
    · obtain ⟨m, rfl⟩ : ∃ m, i = m + 1 := ⟨i - 1, by omega⟩
      rw [show m + 1 - 1 = m by omega,
        getD_range_map _ _ _ _ (by omega), getD_range_map _ _ _ _ (by omega), getD_range_map _ _ _ _ (by omega), hf _ (by omega), hf _ (by omega),
        hf (m + 1 + 1) (by omega), diffs_places (by omega), diffs_places (by omega)]
      exact stencilMiddle_exact (hx _ _ (by omega) (by omega)) (hx _ _ (by omega) (by omega)) (hx _ _ (by omega) (by omega))

/-- Evenly spaced places given one by one. -/
theorem even_places {n : ℕ} {x : ℕ → ℚ} (h : (diffs ((List.range n).map x)).all (fun d => decide (d = (diffs ((List.range n).map x)).getD 0 0)) = true)
    (hn : 2 ≤ n) : ∀ i < n, x i = x 0 + i * (diffs ((List.range n).map x)).getD 0 0 := by
  have hd : ∀ i, i + 1 < n → x (i + 1) - x i = (diffs ((List.range n).map x)).getD 0 0 := by
    intro i hi
    rw [List.all_eq_true] at h
    have hl : i < (diffs ((List.range n).map x)).length := by rw [diffs_length]; simp; omega
    have := h _ (List.getElem_mem hl)
    simp only [decide_eq_true_eq] at this
    rw [← this, ← diffs_places hi, List.getD_eq_getElem?_getD, List.getElem?_eq_getElem hl]
    rfl
  intro i hi
  induction i with
  | zero => simp
  | succ i ih =>
    have h1 := hd i hi
    have h2 := ih (by omega)
    push_cast
    linarith

theorem gradLine_exact {s : Spacing} {n : ℕ} (hn : 3 ≤ n) {x f : ℕ → ℚ} (hs : Spaced s n x) {a b c : ℚ}
    (hf : ∀ i < n, f i = a + b * x i + c * x i ^ 2) {i : ℕ} (hi : i < n) :
    (gradLine s ((List.range n).map f)).getD i 0 = b + 2 * c * x i := by
  cases s with
  | dx h => exact gradEven_exact hs.1 hn hs.2 hf hi
  | places xs =>
    obtain ⟨rfl, h2⟩ := hs
    simp only [gradLine]
    split
    · rename_i h
      refine gradEven_exact ?_ hn (even_places h (by omega)) hf hi
      rw [diffs_places (by omega)]
      exact sub_ne_zero.2 (h2 0 1 (by omega) (by omega)).symm
    · exact gradUneven_exact hn h2 hf hi

/-- Central differences. -/
theorem gradEven_central {h : ℚ} {n : ℕ} {x f : ℕ → ℚ} (hx : ∀ i < n, x i = x 0 + i * h) {i : ℕ} (hi : i + 2 < n) :
    (gradEven h ((List.range n).map f)).getD (i + 1) 0 = (f (i + 2) - f i) / (x (i + 2) - x i) := by
  unfold gradEven
  rw [getD_range_map _ _ _ _ (by simp; omega)]
  simp only [List.length_map, List.length_range]
  rw [if_neg (by omega), if_neg (by omega), show i + 1 - 1 = i by omega, getD_range_map _ _ _ _ (by omega), getD_range_map _ _ _ _ (by omega),
    hx i (by omega), hx (i + 2) (by omega)]
  congr 1
  push_cast
  ring

theorem gradLine_central {s : Spacing} {n : ℕ} {x f : ℕ → ℚ} (hs : Spaced s n x) {i : ℕ} (hi : i + 2 < n)
    (he : x (i + 2) - x (i + 1) = x (i + 1) - x i) :
    (gradLine s ((List.range n).map f)).getD (i + 1) 0 = (f (i + 2) - f i) / (x (i + 2) - x i) := by
  cases s with
  | dx h => exact gradEven_central hs.2 hi
  | places xs =>
    obtain ⟨rfl, h2⟩ := hs
    simp only [gradLine]
    split
    · rename_i h
      exact gradEven_central (even_places h (by omega)) hi
    · unfold gradUneven
      rw [getD_range_map _ _ _ _ (by simp; omega)]
      simp only [List.length_map, List.length_range]
      rw [if_neg (by omega), if_neg (by omega), show i + 1 - 1 = i by omega, getD_range_map _ _ _ _ (by omega), getD_range_map _ _ _ _ (by omega),
        getD_range_map _ _ _ _ (by omega), diffs_places (by omega), diffs_places (by omega), he]
      have e1 : x (i + 1) - x i ≠ 0 := sub_ne_zero.2 (h2 i (i + 1) (by omega) (by omega)).symm
      have e2 : x (i + 2) - x i = 2 * (x (i + 1) - x i) := by linarith
      rw [e2]
      unfold stencilMiddle
      field_simp
      ring

/-! ### Strides -/

theorem strideIdx_length (n step r : ℕ) : (strideIdx n step r).length = (n - r + step - 1) / step := by simp [strideIdx]

theorem strideIdx_getD {n step r j : ℕ} (h : j < (strideIdx n step r).length) : (strideIdx n step r).getD j 0 = r + step * j := by
  unfold strideIdx at h ⊢
  rw [getD_range_map _ _ _ _ (by simpa using h)]

/-- The positions of a stride are exactly those with the same remainder. -/
theorem stride_lt {n step r j : ℕ} (hs : 0 < step) : j < (n - r + step - 1) / step ↔ r + step * j < n := by
  rw [Nat.lt_iff_add_one_le, Nat.le_div_iff_mul_le hs]
  rw [add_mul, one_mul, mul_comm j step]
  omega

theorem Spaced.every {s : Spacing} {n : ℕ} {x : ℕ → ℚ} (hs : Spaced s n x) {step r : ℕ} (h0 : 0 < step) (hr : r < n) :
    Spaced (s.every step r) ((n - r + step - 1) / step) fun j => x (r + step * j) := by
  cases s with
  | dx h =>
    obtain ⟨h1, h2⟩ := hs
    refine ⟨mul_ne_zero h1 (by exact_mod_cast h0.ne'), fun i hi => ?_⟩
    rw [stride_lt h0] at hi
    show x (r + step * i) = x (r + step * 0) + i * (h * step)
    rw [h2 _ hi, h2 (r + step * 0) (by simpa using hr)]
    push_cast
    ring
  | places xs =>
    obtain ⟨rfl, h2⟩ := hs
    refine ⟨?_, fun i j hij hj => ?_⟩
    · simp only [List.length_map, List.length_range]
      unfold takeIdx strideIdx
      rw [List.filterMap_map]
      rw [← List.filterMap_eq_map (f := fun j => x (r + step * j))]
      apply List.filterMap_congr
      intro j hj
      rw [List.mem_range, stride_lt h0] at hj
      simp [hj]
    · rw [stride_lt h0] at hj
      exact h2 _ _ (by nlinarith) hj

end Verif
