import Verif.Model.Num
import Mathlib.Tactic.Linarith
import Mathlib.Tactic.Ring
import Mathlib.Tactic.FieldSimp
import Mathlib.Tactic.Push
import Mathlib.Tactic.NormNum
/-! Lemmas on rounding and on Python slices. -/
namespace Verif

theorem rint_int (m : ℤ) : rint (m : ℚ) = m := by
  simp [rint]

/-- `rint` is within one half. -/
theorem rint_bounds (q : ℚ) : q - 1 / 2 ≤ rint q ∧ (rint q : ℚ) ≤ q + 1 / 2 := by
  unfold rint
  have h1 := Int.floor_le q
  have h2 := Int.lt_floor_add_one q
  simp only
  split_ifs <;> (try push_cast) <;> constructor <;> linarith

/-- Ties go to even, so comparison of `rint q` with an even bound is exact. -/
theorem rint_le_even {q : ℚ} {m : ℤ} (hm : m % 2 = 0) : rint q ≤ m ↔ q ≤ m + 1 / 2 := by
  have h1 := Int.floor_le q
  have h2 := Int.lt_floor_add_one q
  constructor
  · intro h
    have hb := (rint_bounds q).1
    have : (rint q : ℚ) ≤ m := by exact_mod_cast h
    linarith
  · intro h
    by_contra hlt
    push Not at hlt
    have hfm : ⌊q⌋ ≤ m := by
      have : (⌊q⌋ : ℚ) < m + 1 := by linarith
      have : ⌊q⌋ < m + 1 := by exact_mod_cast this
      omega
    unfold rint at hlt
    simp only at hlt
    split_ifs at hlt with c1 c2 c3
    · omega
    · have : ⌊q⌋ = m := by omega
      rw [this] at c2
      linarith
    · omega
    · have : ⌊q⌋ = m := by omega
      omega

theorem rint_neg (q : ℚ) : rint (-q) = - rint q := by
  have h1 := Int.floor_le q
  have h2 := Int.lt_floor_add_one q
  by_cases hq : (⌊q⌋ : ℚ) = q
  · rw [← hq]
    rw [← Int.cast_neg, rint_int, rint_int]
  · have hlt : (⌊q⌋ : ℚ) < q := lt_of_le_of_ne h1 hq
    have hf : ⌊-q⌋ = -⌊q⌋ - 1 := by
      rw [Int.floor_eq_iff]
      push_cast
      constructor <;> linarith
    unfold rint
    simp only [hf]
    push_cast
    split_ifs <;> first | omega | (exfalso; linarith)

theorem even_le_rint {q : ℚ} {m : ℤ} (hm : m % 2 = 0) : m ≤ rint q ↔ m - 1 / 2 ≤ q := by
  have h := @rint_le_even (-q) (-m) (by omega)
  rw [rint_neg] at h
  push_cast at h
  constructor
  · intro hh
    have := h.1 (by omega)
    linarith
  · intro hh
    have := h.2 (by linarith)
    omega

theorem rint_mono {p q : ℚ} (h : p ≤ q) : rint p ≤ rint q := by
  have hp1 := Int.floor_le p
  have hp2 := Int.lt_floor_add_one p
  have hq1 := Int.floor_le q
  have hq2 := Int.lt_floor_add_one q
  have hf : ⌊p⌋ ≤ ⌊q⌋ := Int.floor_le_floor h
  rcases eq_or_lt_of_le hf with he | hl
  · unfold rint
    simp only [← he]
    rw [← he] at hq1 hq2
    split_ifs <;> first | omega | (exfalso; linarith)
  · have : ⌊p⌋ + 1 ≤ ⌊q⌋ := hl
    have a : rint p ≤ ⌊p⌋ + 1 := by unfold rint; simp only; split_ifs <;> omega
    have b : ⌊q⌋ ≤ rint q := by unfold rint; simp only; split_ifs <;> omega
    omega

theorem ten_pow_even {k : ℕ} (hk : 0 < k) (m : ℤ) : (m * 10 ^ k) % 2 = 0 := by
  obtain ⟨j, rfl⟩ : ∃ j, k = j + 1 := ⟨k - 1, by omega⟩
  have : m * 10 ^ (j + 1) = 2 * (m * 10 ^ j * 5) := by ring
  omega

/-- Rounding to `k ≥ 1` decimals compares exactly with integers, up to half of the last decimal. -/
theorem roundDec_le_int {k : ℕ} (hk : 0 < k) {q : ℚ} {m : ℤ} :
    roundDec k q ≤ m ↔ q ≤ m + 1 / (2 * 10 ^ k) := by
  have hp : (0 : ℚ) < 10 ^ k := by positivity
  unfold roundDec
  rw [div_le_iff₀ hp]
  have : ((rint (q * 10 ^ k) : ℚ) ≤ m * 10 ^ k) ↔ rint (q * 10 ^ k) ≤ m * 10 ^ k := by
    exact_mod_cast Iff.rfl
  rw [this, rint_le_even (ten_pow_even hk m)]
  push_cast
  have e : (m : ℚ) + 1 / (2 * 10 ^ k) = (m * 10 ^ k + 1 / 2) / 10 ^ k := by
    field_simp
  rw [e, le_div_iff₀ hp]

theorem int_le_roundDec {k : ℕ} (hk : 0 < k) {q : ℚ} {m : ℤ} :
    m ≤ roundDec k q ↔ m - 1 / (2 * 10 ^ k) ≤ q := by
  have hp : (0 : ℚ) < 10 ^ k := by positivity
  unfold roundDec
  rw [le_div_iff₀ hp]
  have : ((m : ℚ) * 10 ^ k ≤ rint (q * 10 ^ k)) ↔ m * 10 ^ k ≤ rint (q * 10 ^ k) := by
    exact_mod_cast Iff.rfl
  rw [this, even_le_rint (ten_pow_even hk m)]
  push_cast
  have e : (m : ℚ) - 1 / (2 * 10 ^ k) = (m * 10 ^ k - 1 / 2) / 10 ^ k := by
    field_simp
  rw [e, div_le_iff₀ hp]

theorem roundDec_mono {k : ℕ} {p q : ℚ} (h : p ≤ q) : roundDec k p ≤ roundDec k q := by
  have hp : (0 : ℚ) < 10 ^ k := by positivity
  unfold roundDec
  apply div_le_div_of_nonneg_right _ hp.le
  exact_mod_cast rint_mono (mul_le_mul_of_nonneg_right h hp.le)

theorem ceil_roundDec_le {k : ℕ} (hk : 0 < k) {q : ℚ} {m : ℤ} :
    ⌈roundDec k q⌉ ≤ m ↔ q ≤ m + 1 / (2 * 10 ^ k) := by
  rw [Int.ceil_le, roundDec_le_int hk]

theorem le_floor_roundDec {k : ℕ} (hk : 0 < k) {q : ℚ} {m : ℤ} :
    m ≤ ⌊roundDec k q⌋ ↔ m - 1 / (2 * 10 ^ k) ≤ q := by
  rw [Int.le_floor, int_le_roundDec hk]

theorem roundDec_int (k : ℕ) (m : ℤ) : roundDec k m = m := by
  have hp : (10 : ℚ) ^ k ≠ 0 := by positivity
  unfold roundDec
  have : (m : ℚ) * 10 ^ k = ((m * 10 ^ k : ℤ) : ℚ) := by push_cast; rfl
  rw [this, rint_int]
  push_cast
  field_simp

end Verif
