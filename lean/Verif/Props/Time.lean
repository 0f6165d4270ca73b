import Verif.Proof.Time
namespace Verif
open Spec

/-- The rounding of the model is the rounding of float64: to a nearest number with 53 significant bits. -/
theorem C38_float64 (q : ℚ) : Representable (float64 q) ∧ (∀ r, Representable r → |float64 q - q| ≤ |r - q|) ∧
    (Representable q → float64 q = q) :=
  ⟨float64_representable q, float64_nearest q, float64_exact⟩

/-- C38: any number of seconds becomes a number of nanoseconds that is right up to one half and the error of one float64
multiplication. -/
theorem C38_close_partial (x : ℚ) : ∃ t, toDatetime64 (.flt x) = some t ∧ toTimedelta64 (.flt x) = some t ∧
    |(t : ℚ) - x * 10 ^ 9| ≤ 1 / 2 + |x| * 10 ^ 9 / 2 ^ 53 := by
  refine ⟨floatToNs x, rfl, rfl, ?_⟩
  unfold floatToNs
  have h1 := rint_abs (float64 (x * 1000000000))
  have h2 := float64_error (x * 1000000000)
  have h3 := abs_sub_le (rint (float64 (x * 1000000000)) : ℚ) (float64 (x * 1000000000)) (x * 1000000000)
  rw [abs_mul, abs_of_pos (show (0 : ℚ) < 1000000000 by norm_num)] at h2
  rw [show (10 : ℚ) ^ 9 = 1000000000 by norm_num]
  linarith

theorem exact_billion {m k : ℤ} (hm : |m| * 5 ^ 9 < 2 ^ 53) :
    float64 ((m : ℚ) * (2 : ℚ) ^ k * 1000000000) = (m : ℚ) * (2 : ℚ) ^ k * 1000000000 := by
  apply float64_exact
  refine ⟨m * 5 ^ 9, k + 9, ?_, ?_⟩
  · rw [abs_mul]
    simpa using hm
  · rw [zpow_add₀ (by norm_num)]
    push_cast
    ring

/-- C38: a number of seconds with a short significand (up to about 32 bits) becomes the nearest number of nanoseconds. -/
theorem C38_nearest_partial (m k : ℤ) (hm : |m| * 5 ^ 9 < 2 ^ 53) : ∃ t, toDatetime64 (.flt (m * (2 : ℚ) ^ k)) = some t ∧
    toTimedelta64 (.flt (m * (2 : ℚ) ^ k)) = some t ∧ NearestInt t (m * (2 : ℚ) ^ k * 10 ^ 9) := by
  refine ⟨_, rfl, rfl, ?_⟩
  unfold NearestInt floatToNs
  rw [exact_billion hm, show (10 : ℚ) ^ 9 = 1000000000 by norm_num]
  exact rint_abs _

/-- C38: whole seconds (up to the year 2116) become exactly that many nanoseconds, and the time is that many seconds. -/
theorem C38_whole_seconds (n : ℤ) (hn : |n| * 5 ^ 9 < 2 ^ 53) : toDatetime64 (.int n) = some (n * 10 ^ 9) ∧ toTimedelta64 (.int n) = some (n * 10 ^ 9) ∧
    toDatetime64 (.flt n) = some (n * 10 ^ 9) ∧ timeToFloat (some (n * 10 ^ 9)) = .flt n := by
  have hn' : |n| < 2 ^ 53 := by
    have : (0 : ℤ) ≤ |n| := abs_nonneg n
    omega
  have h1 : float64 (n : ℚ) = n := float64_exact ⟨n, 0, hn', by simp⟩
  have h2 : float64 ((n : ℚ) * 1000000000) = (n : ℚ) * 1000000000 := by
    have := exact_billion (k := 0) hn
    simpa using this
  have h3 : floatToNs (n : ℚ) = n * 10 ^ 9 := by
    unfold floatToNs
    rw [h2]
    have : (n : ℚ) * 1000000000 = ((n * 10 ^ 9 : ℤ) : ℚ) := by push_cast; norm_num
    rw [this, rint_int]
  refine ⟨?_, ?_, ?_, ?_⟩
  · simp only [toDatetime64, h1, h3]
  · simp only [toTimedelta64]
    have : ((n * 1000000000 : ℤ) : ℚ) = (n : ℚ) * 1000000000 := by push_cast; ring
    rw [this, h2]
    have : (n : ℚ) * 1000000000 = ((n * 10 ^ 9 : ℤ) : ℚ) := by push_cast; norm_num
    rw [this, rint_int]
  · simp only [toDatetime64, h3]
  · simp only [timeToFloat]
    have : ((n * 10 ^ 9 : ℤ) : ℚ) = (n : ℚ) * 1000000000 := by push_cast; norm_num
    rw [this, h2, mul_div_cancel_right₀ _ (by norm_num), h1]

/-- C38: times within 26 days of 1970, and durations of up to 26 days, survive the conversion to seconds and back. -/
theorem C38_roundtrip_partial (t : ℤ) (ht : |t| < 2 ^ 51) :
    toDatetime64 (timeToFloat (some t)) = some t ∧ toTimedelta64 (timeToFloat (some t)) = some t ∧
    toDatetime64 (timeToFloat none) = none ∧ toTimedelta64 (timeToFloat none) = none := by
  have h0 : float64 (t : ℚ) = t := float64_exact ⟨t, 0, by omega, by simp⟩
  have hkey : floatToNs (float64 ((t : ℚ) / 1000000000)) = t := by
    unfold floatToNs
    apply rint_eq_of_lt
    set b := float64 ((t : ℚ) / 1000000000) with hb
    have e1 := float64_error ((t : ℚ) / 1000000000)
    rw [← hb, abs_div, abs_of_pos (show (0 : ℚ) < 1000000000 by norm_num)] at e1
    have e2 := float64_error (b * 1000000000)
    have h1 : |b * 1000000000 - t| ≤ |(t : ℚ)| / 2 ^ 53 := by
      have he : b * 1000000000 - t = (b - (t : ℚ) / 1000000000) * 1000000000 := by ring
      rw [he, abs_mul, abs_of_pos (show (0 : ℚ) < 1000000000 by norm_num)]
      calc |b - (t : ℚ) / 1000000000| * 1000000000 ≤ |(t : ℚ)| / 1000000000 / 2 ^ 53 * 1000000000 :=
            mul_le_mul_of_nonneg_right e1 (by norm_num)
        _ = |(t : ℚ)| / 2 ^ 53 := by ring
    have h2 : |b * 1000000000| ≤ |(t : ℚ)| + |(t : ℚ)| / 2 ^ 53 := by
      have := abs_sub_abs_le_abs_sub (b * 1000000000) (t : ℚ)
      linarith
    have h3 := abs_sub_le (float64 (b * 1000000000)) (b * 1000000000) (t : ℚ)
    have ht' : |(t : ℚ)| ≤ 2 ^ 51 - 1 := by
      have : |t| ≤ 2 ^ 51 - 1 := by omega
      have h : ((|t| : ℤ) : ℚ) ≤ ((2 ^ 51 - 1 : ℤ) : ℚ) := by exact_mod_cast this
      rw [Int.cast_abs] at h
      push_cast at h
      linarith
    have h4 : |b * 1000000000| / 2 ^ 53 ≤ (|(t : ℚ)| + |(t : ℚ)| / 2 ^ 53) / 2 ^ 53 :=
      div_le_div_of_nonneg_right h2 (by positivity)
    have h5 : (|(t : ℚ)| + |(t : ℚ)| / 2 ^ 53) / 2 ^ 53 + |(t : ℚ)| / 2 ^ 53 < 1 / 2 := by
      have hpos : (0 : ℚ) ≤ |(t : ℚ)| := abs_nonneg _
      norm_num at ht' ⊢
      linarith
    linarith
  refine ⟨?_, ?_, rfl, rfl⟩
  · simp only [timeToFloat, toDatetime64, h0, hkey]
  · simp only [timeToFloat, toTimedelta64, h0, hkey]

theorem ns_seconds (u : TUnit) : (u.ns : ℚ) = unitSeconds u * 10 ^ 9 := by
  cases u <;> norm_num [TUnit.ns, unitSeconds]

/-- C38: a duration printed by numpy is read as itself: as many nanoseconds as there are in `n` of the units. -/
theorem C38_words (n : ℤ) (u : TUnit) : ∃ t, deltaFromWords (some n) (unitName u) = .ok t ∧ (t : ℚ) = n * unitSeconds u * 10 ^ 9 := by
  refine ⟨n * u.ns, by cases u <;> rfl, ?_⟩
  rw [Int.cast_mul, ns_seconds]; ring

/-- C38: a datetime in any unit is the same time in nanoseconds. -/
theorem C38_units (n : ℤ) (u : TUnit) : (datetimeToNs u n : ℚ) = n * unitSeconds u * 10 ^ 9 := by
  unfold datetimeToNs
  rw [Int.cast_mul, ns_seconds]; ring

example : deltaFromWords (some 2) "hours" = .ok 7200000000000 ∧ datetimeToNs .minute 2 = 120000000000 := by decide +kernel

/-! ### Where the property fails -/

/-- C38: for times of today the result need not be the nearest number of nanoseconds. -/
theorem C38_nearest_violated : ∃ x t, Representable x ∧ toDatetime64 (.flt x) = some t ∧ ¬ NearestInt t (x * 10 ^ 9) := by
  refine ⟨7130316800000001 / 4194304, 1700000000000000256, ⟨7130316800000001, -22, by norm_num, by norm_num⟩, by decide +kernel, ?_⟩
  unfold NearestInt
  norm_num

/-- C38: times of today do not survive the conversion to seconds and back. -/
theorem C38_roundtrip_violated : ∃ t : ℤ, toDatetime64 (timeToFloat (some t)) ≠ some t :=
  ⟨1700000000123456789, by decide +kernel⟩

/-- C38: an array of datetimes that are not in nanoseconds becomes wrong durations. -/
theorem C38_view_violated : ∃ u ticks, datetimesToDeltas u ticks ≠ ticks.map (datetimeToNs u) :=
  ⟨.second, [1577836800], by decide +kernel⟩

/-- C38: the usual short unit names are not read. -/
theorem C38_words_violated : deltaFromWords (some 10) "s" = .error .keyError ∧ deltaFromWords (some 10) "ms" = .error .keyError := by
  decide +kernel

/-- The hypotheses are met: 1.7e9 seconds, half a second, and a duration of 3 s and 1 ns. -/
example : |(1700000000 : ℤ)| * 5 ^ 9 < 2 ^ 53 ∧ |(4294967295 : ℤ)| * 5 ^ 9 < 2 ^ 53 ∧ |(3000000001 : ℤ)| < 2 ^ 51 ∧
    toDatetime64 (.int 1700000000) = some 1700000000000000000 ∧ toTimedelta64 (.flt (1 / 2)) = some 500000000 ∧
    toTimedelta64 (timeToFloat (some 3000000001)) = some 3000000001 := by
  decide +kernel

end Verif
