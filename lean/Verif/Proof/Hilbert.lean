import Verif.Spec.Hilbert
import Verif.Proof.FourierData
import Verif.Proof.Scale
import Verif.Proof.Moving
/-! # The analytic signal of a line -/
namespace Verif
open Spec Complex

theorem wave_expi (x : ℚ) : wave x = expi x := rfl

theorem flip_sum {M : Type} [AddCommMonoid M] (n : ℕ) (f : ℕ → M) : ∑ k ∈ Finset.range n, f k = ∑ k ∈ Finset.range n, f (if k = 0 then 0 else n - k) := by
  cases n with
  | zero => rfl
  | succ n =>
    rw [Finset.sum_range_succ', Finset.sum_range_succ' (fun k => f (if k = 0 then 0 else n + 1 - k))]
    simp only [Nat.add_eq_zero_iff, one_ne_zero, and_false, if_false, if_true, Nat.add_sub_add_right]
    congr 1
    rw [← Finset.sum_range_reflect]
    refine Finset.sum_congr rfl fun k hk => ?_
    have := Finset.mem_range.1 hk
    congr 1
    omega

theorem weight_flip {n k : ℕ} (hk : k < n) : hilbertWeight n k + hilbertWeight n (if k = 0 then 0 else n - k) = 2 := by
  unfold hilbertWeight
  by_cases h0 : k = 0
  · simp [h0]; norm_num
  · rw [if_neg h0]
    by_cases h1 : 2 * k = n
    · rw [if_pos (Or.inr h1), if_pos (Or.inr (by omega))]; norm_num
    · have e1 : ¬ (k = 0 ∨ 2 * k = n) := by omega
      have e2 : ¬ (n - k = 0 ∨ 2 * (n - k) = n) := by omega
      rw [if_neg e1, if_neg e2]
      by_cases h2 : 2 * k < n
      · have e3 : ¬ 2 * (n - k) < n := by omega
        rw [if_pos h2, if_neg e3]; norm_num
      · have e3 : 2 * (n - k) < n := by omega
        rw [if_neg h2, if_pos e3]; norm_num

/-- The Fourier sum of a line. -/
noncomputable def lineSum (n : ℕ) (a : ℕ → ℂ) (k : ℕ) : ℂ := ∑ j ∈ Finset.range n, a j * expi ((j : ℚ) * k / n)

/-- The analytic signal of a line. -/
noncomputable def lineAnalytic (n : ℕ) (x : ℕ → ℝ) (m : ℕ) : ℂ :=
  (∑ k ∈ Finset.range n, lineSum n (fun j => (x j : ℂ)) k * hilbertWeight n k * expi (-((k : ℚ) * m / n))) / n

theorem analytic_line {a : Nd ℝ} {axis : ℕ} {i : List ℕ} (h : axis < i.length) :
    (a.analytic axis).get i = lineAnalytic (a.shape.getD axis 0) (traceOn a axis i) (i.getD axis 0) := by
  unfold Nd.analytic
  rw [Nd.ifft_get]
  unfold lineAnalytic
  congr 1
  refine Finset.sum_congr rfl fun k _ => ?_
  simp only
  rw [getD_set_self h]
  congr 2
  rw [Nd.fft_get]
  simp only [List.set_set, getD_set_self h]
  rfl

/-- The transform of an inverse transform. -/
theorem lineSum_inverse {n : ℕ} (G : ℕ → ℂ) {q : ℕ} (hq : q < n) :
    lineSum n (fun m => (∑ k ∈ Finset.range n, G k * expi (-((k : ℚ) * m / n))) / n) q = G q := by
  have hn : (n : ℂ) ≠ 0 := by
    have : n ≠ 0 := by omega
    exact_mod_cast this
  unfold lineSum
  have h1 : ∀ m ∈ Finset.range n, (∑ k ∈ Finset.range n, G k * expi (-((k : ℚ) * m / n))) / n * expi ((m : ℚ) * q / n) =
      ∑ k ∈ Finset.range n, G k / n * (expi ((q : ℚ) * m / n) * expi (-((m : ℚ) * k / n))) := by
    intro m _
    rw [Finset.sum_div, Finset.sum_mul]
    refine Finset.sum_congr rfl fun k _ => ?_
    rw [mul_comm (m : ℚ) k, mul_comm (q : ℚ) m]
    ring
  rw [Finset.sum_congr rfl h1, Finset.sum_comm]
  have h2 : ∀ k ∈ Finset.range n, ∑ m ∈ Finset.range n, G k / n * (expi ((q : ℚ) * m / n) * expi (-((m : ℚ) * k / n))) =
      if q = k then G k else 0 := by
    intro k hk
    rw [← Finset.mul_sum, wave_sum hq (Finset.mem_range.1 hk)]
    split_ifs
    · field_simp
    · ring
  rw [Finset.sum_congr rfl h2, Finset.sum_ite_eq, if_pos (Finset.mem_range.2 hq)]

theorem inverse_lineSum {n : ℕ} (a : ℕ → ℂ) {m : ℕ} (hm : m < n) :
    (∑ k ∈ Finset.range n, lineSum n a k * expi (-((k : ℚ) * m / n))) / n = a m := by
  have hn : (n : ℂ) ≠ 0 := by
    have : n ≠ 0 := by omega
    exact_mod_cast this
  have h1 : ∀ k ∈ Finset.range n, lineSum n a k * expi (-((k : ℚ) * m / n)) =
      ∑ j ∈ Finset.range n, a j * (expi ((j : ℚ) * k / n) * expi (-((k : ℚ) * m / n))) := by
    intro k _
    unfold lineSum
    rw [Finset.sum_mul]
    exact Finset.sum_congr rfl fun j _ => by ring
  rw [Finset.sum_congr rfl h1, Finset.sum_comm]
  have h2 : ∀ j ∈ Finset.range n, ∑ k ∈ Finset.range n, a j * (expi ((j : ℚ) * k / n) * expi (-((k : ℚ) * m / n))) = if j = m then a j * n else 0 := by
    intro j hj
    rw [← Finset.mul_sum, wave_sum (Finset.mem_range.1 hj) hm]
    split_ifs <;> simp
  rw [Finset.sum_congr rfl h2, Finset.sum_ite_eq', if_pos (Finset.mem_range.2 hm)]
  field_simp

theorem expi_flip {n k : ℕ} (hk : k < n) (j : ℕ) : expi ((j : ℚ) * ((n - k : ℕ) : ℚ) / n) = expi (-((j : ℚ) * k / n)) := by
  have hn : (n : ℚ) ≠ 0 := by
    have : n ≠ 0 := by omega
    exact_mod_cast this
  rw [Nat.cast_sub hk.le, show (j : ℚ) * ((n : ℚ) - k) / n = (j : ℕ) + -((j : ℚ) * k / n) by field_simp; ring, expi_add, expi_nat, one_mul]

theorem lineSum_conj {n : ℕ} (x : ℕ → ℝ) {k : ℕ} (hk : k < n) :
    lineSum n (fun j => (x j : ℂ)) (if k = 0 then 0 else n - k) = star (lineSum n (fun j => (x j : ℂ)) k) := by
  unfold lineSum
  rw [star_sum]
  refine Finset.sum_congr rfl fun j _ => ?_
  rw [star_mul', star_expi, show star ((x j : ℝ) : ℂ) = (x j : ℂ) from Complex.conj_ofReal _]
  by_cases h0 : k = 0
  · rw [if_pos h0, h0]; simp
  · rw [if_neg h0, expi_flip hk]

theorem half_wave {n k : ℕ} (h : 2 * k = n) (hn : n ≠ 0) (j : ℕ) : expi ((j : ℚ) * k / n) = (-1) ^ j := by
  have hq : (n : ℚ) = 2 * k := by exact_mod_cast h.symm
  have hk : (k : ℚ) ≠ 0 := by
    have : k ≠ 0 := by omega
    exact_mod_cast this
  rw [show (j : ℚ) * k / n = (j : ℚ) * (1 / 2) by rw [hq]; field_simp, expi_mul]
  congr 1
  unfold expi
  push_cast
  rw [show -(2 * (Real.pi : ℂ) * (1 / 2)) * I = -(Real.pi * I) by ring, Complex.exp_neg, Complex.exp_pi_mul_I]
  norm_num

theorem lineSum_analytic {n : ℕ} (x : ℕ → ℝ) {q : ℕ} (hq : q < n) : lineSum n (lineAnalytic n x) q = lineSum n (fun j => (x j : ℂ)) q * hilbertWeight n q :=
  lineSum_inverse (fun k => lineSum n (fun j => (x j : ℂ)) k * hilbertWeight n k) hq

theorem lineAnalytic_real {n : ℕ} (x : ℕ → ℝ) {m : ℕ} (hm : m < n) : (lineAnalytic n x m).re = x m := by
  set X := lineSum n (fun j => (x j : ℂ)) with hX
  have h1 : star (lineAnalytic n x m) = (∑ k ∈ Finset.range n, X k * hilbertWeight n (if k = 0 then 0 else n - k) * expi (-((k : ℚ) * m / n))) / n := by
    unfold lineAnalytic
    rw [star_div₀, star_sum, show star ((n : ℕ) : ℂ) = (n : ℂ) by simp]
    congr 1
    rw [flip_sum n fun k => star (lineSum n (fun j => (x j : ℂ)) k * hilbertWeight n k * expi (-((k : ℚ) * m / n)))]
    refine Finset.sum_congr rfl fun k hk => ?_
    have hk := Finset.mem_range.1 hk
    rw [star_mul', star_mul', star_expi, neg_neg, lineSum_conj x hk, star_star]
    have hw : star (hilbertWeight n (if k = 0 then 0 else n - k)) = hilbertWeight n (if k = 0 then 0 else n - k) := by
      unfold hilbertWeight
      split_ifs <;> simp
    rw [hw]
    congr 1
    by_cases h0 : k = 0
    · simp [h0]
    · rw [if_neg h0, mul_comm, expi_flip hk, mul_comm]
  have h2 : lineAnalytic n x m + star (lineAnalytic n x m) = 2 * (x m : ℂ) := by
    rw [h1, lineAnalytic, ← add_div, ← Finset.sum_add_distrib]
    have h3 : ∀ k ∈ Finset.range n, lineSum n (fun j => (x j : ℂ)) k * hilbertWeight n k * expi (-((k : ℚ) * m / n)) +
        X k * hilbertWeight n (if k = 0 then 0 else n - k) * expi (-((k : ℚ) * m / n)) = 2 * (X k * expi (-((k : ℚ) * m / n))) := by
      intro k hk
      rw [← hX, show ∀ u v w z : ℂ, u * v * z + u * w * z = (v + w) * (u * z) from fun u v w z => by ring, weight_flip (Finset.mem_range.1 hk)]
    rw [Finset.sum_congr rfl h3, ← Finset.mul_sum, mul_div_assoc, inverse_lineSum _ hm]
  have h4 := congrArg Complex.re h2
  simp only [Complex.add_re, show (star (lineAnalytic n x m)).re = (lineAnalytic n x m).re from Complex.conj_re _, Complex.mul_re, Complex.ofReal_re, Complex.ofReal_im] at h4
  norm_num at h4
  linarith

theorem lineAnalytic_spec {n : ℕ} (x : ℕ → ℝ) : Analytic n x (lineAnalytic n x) := by
  have hreal : ∀ (a : ℕ → ℝ), (∑ j ∈ Finset.range n, ((a j : ℝ) : ℂ)).im = 0 := by
    intro a
    rw [← Complex.ofReal_sum]
    exact Complex.ofReal_im _
  refine ⟨fun j hj => lineAnalytic_real x hj, fun k hk h2 => ?_, ?_, fun he => ?_⟩
  · have := lineSum_analytic x hk
    rw [show hilbertWeight n k = 0 by unfold hilbertWeight; rw [if_neg (by omega), if_neg (by omega)], mul_zero] at this
    exact this
  · by_cases hn : n = 0
    · subst hn; rfl
    · have := lineSum_analytic (n := n) x (q := 0) (by omega)
      unfold lineSum at this
      simp only [Nat.cast_zero, mul_zero, zero_div, expi_zero, mul_one] at this
      rw [show hilbertWeight n 0 = 1 by simp [hilbertWeight], mul_one] at this
      rw [← Complex.im_sum, this]
      exact hreal x
  · by_cases hn : n = 0
    · subst hn; rfl
    · have h2 : 2 * (n / 2) = n := by omega
      have := lineSum_analytic (n := n) x (q := n / 2) (by omega)
      unfold lineSum at this
      simp only [half_wave h2 hn] at this
      rw [show hilbertWeight n (n / 2) = 1 by unfold hilbertWeight; rw [if_pos (Or.inr h2)], mul_one] at this
      have him := congrArg Complex.im this
      have hl : ∀ (a : ℂ) (j : ℕ), (a * (-1) ^ j).im = (-1) ^ j * a.im := by
        intro a j
        rcases Nat.even_or_odd j with h | h
        · simp [h.neg_one_pow]
        · simp [h.neg_one_pow]
      rw [Complex.im_sum, Complex.im_sum] at him
      simp only [hl, Complex.ofReal_im, mul_zero, Finset.sum_const_zero] at him
      exact him

/-- There is only one analytic signal. -/
theorem analytic_unique {n : ℕ} {x : ℕ → ℝ} {a b : ℕ → ℂ} (ha : Analytic n x a) (hb : Analytic n x b) {m : ℕ} (hm : m < n) : a m = b m := by
  set d : ℕ → ℂ := fun j => a j - b j with hd
  have hn : n ≠ 0 := by omega
  have hre : ∀ j < n, (d j).re = 0 := fun j hj => by simp [hd, ha.real j hj, hb.real j hj]
  have hstar : ∀ j < n, star (d j) = -d j := by
    intro j hj
    refine Complex.ext ?_ ?_
    · show ((starRingEnd ℂ) (d j)).re = _
      rw [Complex.conj_re, Complex.neg_re, hre j hj, neg_zero]
    · show ((starRingEnd ℂ) (d j)).im = _
      rw [Complex.conj_im, Complex.neg_im]
  have hneg : ∀ k < n, n < 2 * k → lineSum n d k = 0 := by
    intro k hk h2
    have h3 := ha.positive k hk h2
    have h4 := hb.positive k hk h2
    simp only [wave_expi] at h3 h4
    unfold lineSum
    simp only [hd, sub_mul, Finset.sum_sub_distrib, h3, h4, sub_zero]
  have hflip : ∀ k < n, k ≠ 0 → lineSum n d (n - k) = -star (lineSum n d k) := by
    intro k hk h0
    unfold lineSum
    rw [star_sum, ← Finset.sum_neg_distrib]
    refine Finset.sum_congr rfl fun j hj => ?_
    rw [star_mul', star_expi, hstar j (Finset.mem_range.1 hj), expi_flip hk]
    ring
  have hd0 : ∀ j < n, d j = ((d j).im : ℂ) * I := by
    intro j hj
    refine Complex.ext ?_ ?_
    · simp [hre j hj]
    · simp
  have hzero : ∀ k < n, lineSum n d k = 0 := by
    intro k hk
    by_cases h0 : k = 0
    · subst h0
      unfold lineSum
      simp only [Nat.cast_zero, mul_zero, zero_div, expi_zero, mul_one]
      rw [Finset.sum_congr rfl fun j hj => hd0 j (Finset.mem_range.1 hj), ← Finset.sum_mul, ← Complex.ofReal_sum]
      simp only [hd, Complex.sub_im, Finset.sum_sub_distrib, ha.constant, hb.constant]
      simp
    · rcases lt_trichotomy (2 * k) n with h | h | h
      · have h1 := hflip (n - k) (by omega) (by omega)
        rw [hneg (n - k) (by omega) (by omega), star_zero, neg_zero] at h1
        rwa [Nat.sub_sub_self hk.le] at h1
      · unfold lineSum
        simp only [half_wave h hn]
        rw [Finset.sum_congr rfl fun j hj => by rw [hd0 j (Finset.mem_range.1 hj), show ((d j).im : ℂ) * I * (-1) ^ j = (((-1) ^ j * (d j).im : ℝ) : ℂ) * I by
          push_cast; ring], ← Finset.sum_mul, ← Complex.ofReal_sum]
        simp only [hd, Complex.sub_im, mul_sub, Finset.sum_sub_distrib, ha.alternating (by omega), hb.alternating (by omega)]
        simp
      · exact hneg k hk h
  have hfin := inverse_lineSum d hm
  rw [Finset.sum_congr rfl fun k hk => by rw [hzero k (Finset.mem_range.1 hk), zero_mul]] at hfin
  simp only [Finset.sum_const_zero, zero_div] at hfin
  exact sub_eq_zero.1 hfin.symm

end Verif
