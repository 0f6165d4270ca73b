import Verif.Spec.Time
import Verif.Proof.Num
import Mathlib.Tactic.Linarith
import Mathlib.Tactic.FieldSimp
import Mathlib.Tactic.Positivity
import Mathlib.Tactic.Ring
import Mathlib.Algebra.Order.Field.Power
namespace Verif
open Spec

theorem absQ_abs' (q : ℚ) : absQ q = |q| := by
  unfold absQ
  split_ifs with h
  · exact (abs_of_neg h).symm
  · exact (abs_of_nonneg (not_lt.1 h)).symm

theorem abs_num_den (q : ℚ) : |q| = (q.num.natAbs : ℚ) / (q.den : ℚ) := by
  conv_lhs => rw [← Rat.num_div_den q]
  rw [abs_div, Nat.abs_cast]
  congr 1
  rw [Nat.cast_natAbs, Int.cast_abs]

theorem log2Q_spec {q : ℚ} (hq : q ≠ 0) : (2 : ℚ) ^ log2Q q ≤ |q| ∧ |q| < (2 : ℚ) ^ (log2Q q + 1) := by
  have hn : q.num.natAbs ≠ 0 := by simpa using hq
  have hd : q.den ≠ 0 := q.den_nz
  obtain ⟨n1, n2⟩ := (Nat.log2_eq_iff hn).1 rfl
  obtain ⟨d1, d2⟩ := (Nat.log2_eq_iff hd).1 rfl
  set a := Nat.log2 q.num.natAbs with ha
  set b := Nat.log2 q.den with hb
  have n1' : (2 : ℚ) ^ (a : ℤ) ≤ (q.num.natAbs : ℚ) := by rw [zpow_natCast]; exact_mod_cast n1
  have n2' : (q.num.natAbs : ℚ) < (2 : ℚ) ^ ((a : ℤ) + 1) := by
    have : (2 : ℚ) ^ ((a : ℤ) + 1) = (2 : ℚ) ^ (a + 1) := by rw [← zpow_natCast]; norm_num
    rw [this]; exact_mod_cast n2
  have d1' : (2 : ℚ) ^ (b : ℤ) ≤ (q.den : ℚ) := by rw [zpow_natCast]; exact_mod_cast d1
  have d2' : (q.den : ℚ) < (2 : ℚ) ^ ((b : ℤ) + 1) := by
    have : (2 : ℚ) ^ ((b : ℤ) + 1) = (2 : ℚ) ^ (b + 1) := by rw [← zpow_natCast]; norm_num
    rw [this]; exact_mod_cast d2
  have hdpos : (0 : ℚ) < (q.den : ℚ) := by exact_mod_cast Nat.pos_of_ne_zero hd
  have hup : |q| < (2 : ℚ) ^ ((a : ℤ) - b + 1) := by
    rw [abs_num_den, div_lt_iff₀ hdpos]
    have h1 : (2 : ℚ) ^ ((a : ℤ) - b + 1) * (2 : ℚ) ^ (b : ℤ) = (2 : ℚ) ^ ((a : ℤ) + 1) := by
      rw [← zpow_add₀ (by norm_num)]; congr 1; ring
    have h2 : (2 : ℚ) ^ ((a : ℤ) - b + 1) * (2 : ℚ) ^ (b : ℤ) ≤ (2 : ℚ) ^ ((a : ℤ) - b + 1) * (q.den : ℚ) :=
      mul_le_mul_of_nonneg_left d1' (by positivity)
    linarith
  have hlo : (2 : ℚ) ^ ((a : ℤ) - b - 1) ≤ |q| := by
    rw [abs_num_den, le_div_iff₀ hdpos]
    have h1 : (2 : ℚ) ^ ((a : ℤ) - b - 1) * (2 : ℚ) ^ ((b : ℤ) + 1) = (2 : ℚ) ^ (a : ℤ) := by
      rw [← zpow_add₀ (by norm_num)]; congr 1; ring
    have h2 : (2 : ℚ) ^ ((a : ℤ) - b - 1) * (q.den : ℚ) ≤ (2 : ℚ) ^ ((a : ℤ) - b - 1) * (2 : ℚ) ^ ((b : ℤ) + 1) :=
      mul_le_mul_of_nonneg_left d2'.le (by positivity)
    linarith
  unfold log2Q
  simp only [← ha, ← hb]
  rw [absQ_abs']
  split
  · rename_i h
    exact ⟨h, hup⟩
  · rename_i h
    refine ⟨hlo, ?_⟩
    rw [show (a : ℤ) - b - 1 + 1 = (a : ℤ) - b by ring]
    exact not_le.1 h

theorem ulp_pos (q : ℚ) : 0 < ulp q := by unfold ulp; positivity

theorem rint_abs (q : ℚ) : |(rint q : ℚ) - q| ≤ 1 / 2 := by
  obtain ⟨h1, h2⟩ := rint_bounds q
  rw [abs_le]
  constructor <;> linarith

theorem rint_nearest (q : ℚ) (z : ℤ) : |(rint q : ℚ) - q| ≤ |(z : ℚ) - q| := by
  by_cases h : z = rint q
  · rw [h]
  · have h1 : (1 : ℚ) ≤ |(z : ℚ) - (rint q : ℚ)| := by
      have : (1 : ℤ) ≤ |z - rint q| := Int.one_le_abs (sub_ne_zero.2 h)
      exact_mod_cast this
    have h2 := rint_abs q
    have h3 : |(z : ℚ) - (rint q : ℚ)| ≤ |(z : ℚ) - q| + |(rint q : ℚ) - q| := by
      have := abs_sub_le (z : ℚ) q (rint q : ℚ)
      rw [abs_sub_comm q] at this
      exact this
    linarith

theorem rint_eq_of_lt {q : ℚ} {z : ℤ} (h : |q - z| < 1 / 2) : rint q = z := by
  have h1 := rint_abs q
  have h2 : |(rint q : ℚ) - (z : ℚ)| ≤ |(rint q : ℚ) - q| + |q - z| := abs_sub_le _ _ _
  have h3 : |(rint q : ℚ) - (z : ℚ)| < 1 := by linarith
  have h4 : |rint q - z| < 1 := by exact_mod_cast h3
  have := Int.abs_lt_one_iff.1 h4
  omega

/-- The rounding error is at most half the distance of neighbouring values. -/
theorem float64_ulp (q : ℚ) : |float64 q - q| ≤ ulp q / 2 := by
  unfold float64
  split
  · rename_i h
    subst h
    simp only [sub_zero, abs_zero]
    have := ulp_pos 0
    linarith
  · have hu := ulp_pos q
    have h := rint_abs (q / ulp q)
    have he : (rint (q / ulp q) : ℚ) * ulp q - q = ((rint (q / ulp q) : ℚ) - q / ulp q) * ulp q := by
      field_simp
    rw [he, abs_mul, abs_of_pos hu]
    calc |(rint (q / ulp q) : ℚ) - q / ulp q| * ulp q ≤ 1 / 2 * ulp q := mul_le_mul_of_nonneg_right h hu.le
      _ = ulp q / 2 := by ring

theorem float64_error (q : ℚ) : |float64 q - q| ≤ |q| / 2 ^ 53 := by
  by_cases hq : q = 0
  · subst hq; simp [float64]
  · refine le_trans (float64_ulp q) ?_
    have h := (log2Q_spec hq).1
    unfold ulp
    rw [show log2Q q - 52 = log2Q q + (-52) by ring, zpow_add₀ (by norm_num)]
    rw [show (2 : ℚ) ^ (-52 : ℤ) = 1 / 2 ^ 52 by norm_num]
    rw [div_le_div_iff₀ (by norm_num) (by positivity)]
    have : (2 : ℚ) ^ log2Q q * (1 / 2 ^ 52) * 2 ^ 53 = 2 ^ log2Q q * 2 := by ring
    rw [this]
    linarith

theorem float64_exact {q : ℚ} (h : Representable q) : float64 q = q := by
  obtain ⟨m, k, hm, rfl⟩ := h
  unfold float64
  split
  · rename_i h0
    exact h0.symm
  · rename_i h0
    obtain ⟨h1, -⟩ := log2Q_spec h0
    set e := log2Q ((m : ℚ) * (2 : ℚ) ^ k) with he
    have hlt : |(m : ℚ) * (2 : ℚ) ^ k| < (2 : ℚ) ^ (53 + k) := by
      rw [abs_mul, abs_of_pos (show (0 : ℚ) < (2 : ℚ) ^ k by positivity), zpow_add₀ (by norm_num)]
      apply mul_lt_mul_of_pos_right _ (by positivity)
      have : (|m| : ℤ) < 2 ^ 53 := hm
      have h' : ((|m| : ℤ) : ℚ) < 2 ^ 53 := by exact_mod_cast this
      rw [Int.cast_abs] at h'
      calc |(m : ℚ)| < 2 ^ 53 := h'
        _ = (2 : ℚ) ^ (53 : ℤ) := by norm_num
    have hek : e < 53 + k := (zpow_lt_zpow_iff_right₀ (by norm_num : (1 : ℚ) < 2)).1 (lt_of_le_of_lt h1 hlt)
    have hu : ulp ((m : ℚ) * (2 : ℚ) ^ k) = (2 : ℚ) ^ (e - 52) := rfl
    rw [hu]
    obtain ⟨n, hn⟩ : ∃ n : ℕ, k - (e - 52) = n := ⟨(k - (e - 52)).toNat, by omega⟩
    have hdiv : (m : ℚ) * (2 : ℚ) ^ k / (2 : ℚ) ^ (e - 52) = ((m * 2 ^ n : ℤ) : ℚ) := by
      rw [mul_div_assoc, ← zpow_sub₀ (by norm_num), hn, zpow_natCast]
      push_cast
      rfl
    rw [hdiv, rint_int, ← hdiv]
    field_simp

theorem float64_representable (q : ℚ) : Representable (float64 q) := by
  unfold float64
  split
  · exact ⟨0, 0, by norm_num, by simp⟩
  · rename_i h0
    obtain ⟨-, h2⟩ := log2Q_spec h0
    set e := log2Q q with he
    have hu : ulp q = (2 : ℚ) ^ (e - 52) := rfl
    have hb : |q / ulp q| < 2 ^ 53 := by
      rw [hu, abs_div, abs_of_pos (show (0 : ℚ) < (2 : ℚ) ^ (e - 52) by positivity), div_lt_iff₀ (by positivity)]
      calc |q| < (2 : ℚ) ^ (e + 1) := h2
        _ = 2 ^ 53 * (2 : ℚ) ^ (e - 52) := by
          rw [show (2 : ℚ) ^ 53 = (2 : ℚ) ^ (53 : ℤ) by norm_num, ← zpow_add₀ (by norm_num)]
          congr 1; ring
    have hr := rint_abs (q / ulp q)
    set z := rint (q / ulp q) with hz
    have hzle : |(z : ℚ)| < 2 ^ 53 + 1 / 2 + 1 / 2 := by
      have := abs_sub_abs_le_abs_sub (z : ℚ) (q / ulp q)
      linarith
    have hz' : |z| ≤ 2 ^ 53 := by
      have h3 : ((|z| : ℤ) : ℚ) < ((2 ^ 53 + 1 : ℤ) : ℚ) := by
        rw [Int.cast_abs]
        push_cast
        linarith
      have : |z| < 2 ^ 53 + 1 := by exact_mod_cast h3
      omega
    rw [hu]
    by_cases hlt : |z| < 2 ^ 53
    · exact ⟨z, e - 52, hlt, rfl⟩
    · have heq : |z| = 2 ^ 53 := by omega
      rcases abs_choice z with hc | hc
      · refine ⟨2 ^ 52, e - 51, by norm_num, ?_⟩
        have : z = 2 ^ 53 := by omega
        rw [this, show e - 51 = 1 + (e - 52) by ring, zpow_add₀ (by norm_num)]
        push_cast
        ring
      · refine ⟨-2 ^ 52, e - 51, by norm_num, ?_⟩
        have : z = -2 ^ 53 := by omega
        rw [this, show e - 51 = 1 + (e - 52) by ring, zpow_add₀ (by norm_num)]
        push_cast
        ring

/-- Rounding to float64 gives a nearest number with 53 significant bits. -/
theorem float64_nearest (q r : ℚ) (hr : Representable r) : |float64 q - q| ≤ |r - q| := by
  by_cases h0 : q = 0
  · subst h0; simp [float64]
  obtain ⟨h1, h2⟩ := log2Q_spec h0
  have hu := ulp_pos q
  have hmul : ∀ z : ℤ, |float64 q - q| ≤ |(z : ℚ) * ulp q - q| := by
    intro z
    have hf : float64 q = (rint (q / ulp q) : ℚ) * ulp q := by unfold float64; rw [if_neg h0]
    have he : ∀ y : ℤ, |(y : ℚ) * ulp q - q| = |(y : ℚ) - q / ulp q| * ulp q := by
      intro y
      rw [← abs_of_pos hu, ← abs_mul, abs_of_pos hu]
      congr 1
      field_simp
    rw [hf, he, he]
    exact mul_le_mul_of_nonneg_right (rint_nearest _ _) hu.le
  obtain ⟨m, k, hm, rfl⟩ := hr
  set e := log2Q q with he
  have hue : ulp q = (2 : ℚ) ^ (e - 52) := rfl
  by_cases hk : e - 52 ≤ k
  · obtain ⟨n, hn⟩ : ∃ n : ℕ, k = (e - 52) + n := ⟨(k - (e - 52)).toNat, by omega⟩
    have := hmul (m * 2 ^ n)
    rw [hue] at this
    have hx : ((m * 2 ^ n : ℤ) : ℚ) * (2 : ℚ) ^ (e - 52) = (m : ℚ) * (2 : ℚ) ^ k := by
      rw [hn, zpow_add₀ (by norm_num), zpow_natCast]
      push_cast
      ring
    rw [hx] at this
    exact this
  · have hlt : |(m : ℚ) * (2 : ℚ) ^ k| ≤ (2 : ℚ) ^ e := by
      rw [abs_mul, abs_of_pos (show (0 : ℚ) < (2 : ℚ) ^ k by positivity)]
      have h' : ((|m| : ℤ) : ℚ) < 2 ^ 53 := by exact_mod_cast hm
      rw [Int.cast_abs] at h'
      calc |(m : ℚ)| * (2 : ℚ) ^ k ≤ 2 ^ 53 * (2 : ℚ) ^ k := mul_le_mul_of_nonneg_right h'.le (by positivity)
        _ = (2 : ℚ) ^ (53 + k) := by rw [zpow_add₀ (by norm_num)]; norm_num
        _ ≤ (2 : ℚ) ^ e := (zpow_le_zpow_iff_right₀ (by norm_num)).2 (by omega)
    have hsign : ∃ z : ℤ, |(z : ℚ) * ulp q - q| = |q| - (2 : ℚ) ^ e := by
      have hp : (2 : ℚ) ^ e = 4503599627370496 * ulp q := by
        rw [hue, show (4503599627370496 : ℚ) = (2 : ℚ) ^ (52 : ℤ) by norm_num, ← zpow_add₀ (by norm_num)]
        congr 1; ring
      rcases le_total 0 q with hq | hq
      · refine ⟨2 ^ 52, ?_⟩
        push_cast
        rw [← hp, abs_of_nonneg hq, abs_sub_comm, abs_of_nonneg]
        rw [abs_of_nonneg hq] at h1
        linarith
      · refine ⟨-2 ^ 52, ?_⟩
        push_cast
        rw [abs_of_nonpos hq] at h1 ⊢
        rw [neg_mul, ← hp, abs_of_nonneg] <;> linarith
    obtain ⟨z, hz⟩ := hsign
    have h3 := hmul z
    rw [hz] at h3
    have h4 := abs_sub_abs_le_abs_sub q ((m : ℚ) * (2 : ℚ) ^ k)
    rw [abs_sub_comm q] at h4
    linarith

end Verif
