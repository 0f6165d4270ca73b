import Verif.Model.CoordRange
import Verif.Spec.Coord
import Verif.Proof.Num
/-! Lemmas on `CoordRange`. -/
namespace Verif
open Spec

/-- The invariant of every successfully built range coordinate with a non-zero step. -/
structure RangeCoord.Valid (c : RangeCoord) : Prop where
  step_ne : c.step ≠ 0
  len_pos : 1 ≤ c.len
  stop_eq : c.stop = c.start + c.step * c.len

theorem sgn_pos {q : ℚ} (h : 0 < q) : sgn q = 1 := by simp [sgn, h]
theorem sgn_neg {q : ℚ} (h : q < 0) : sgn q = -1 := by simp [sgn, h, not_lt.2 h.le]
theorem sgn_zero : sgn 0 = 0 := by simp [sgn]

theorem sgn_mul_pos {a b : ℚ} (hb : 0 < b) : sgn (a * b) = sgn a := by
  rcases lt_trichotomy a 0 with h | h | h
  · rw [sgn_neg h, sgn_neg (mul_neg_of_neg_of_pos h hb)]
  · subst h; simp
  · rw [sgn_pos h, sgn_pos (mul_pos h hb)]

/-- The full behaviour of the constructor for a non-zero step. -/
theorem mkRange_eq (start stop step : ℚ) (hs : step ≠ 0) :
    mkRange start stop step =
      (let n := ⌈roundDec 1 ((stop - start) / step)⌉
       if 1 ≤ n then .ok ⟨start, start + step * n, step, n.toNat⟩ else .error .coordError) := by
  unfold mkRange
  simp only [hs, ne_eq, not_false_eq_true, if_true, and_false, if_false]
  set n := ⌈roundDec 1 ((stop - start) / step)⌉ with hn
  have hdiff : start + step * (n : ℚ) - start = step * n := by ring
  rw [hdiff]
  by_cases h1 : 1 ≤ n
  · have hnq : (0 : ℚ) < n := by exact_mod_cast (by omega : 0 < n)
    have hne : start ≠ start + step * (n : ℚ) := by
      intro h
      have : step * (n : ℚ) = 0 := by linarith
      rcases mul_eq_zero.1 this with h | h
      · exact hs h
      · exact hnq.ne' h
    have hdiv : step * (n : ℚ) / step = n := by field_simp
    simp only [h1, if_true, hne, if_false, hdiv, rint_int, sgn_mul_pos hnq, not_true]
  · simp only [h1, if_false]
    have hnq : (n : ℚ) ≤ 0 := by exact_mod_cast (by omega : n ≤ 0)
    have hsg : sgn step ≠ sgn (step * (n : ℚ)) := by
      rcases eq_or_lt_of_le hnq with h | h
      · rw [h, mul_zero, sgn_zero]
        rcases lt_or_gt_of_ne hs with h' | h'
        · rw [sgn_neg h']; decide
        · rw [sgn_pos h']; decide
      · rcases lt_or_gt_of_ne hs with h' | h'
        · rw [sgn_neg h', sgn_pos (mul_pos_of_neg_of_neg h' h)]; decide
        · rw [sgn_pos h', sgn_neg (mul_neg_of_pos_of_neg h' h)]; decide
    rw [if_pos hsg]

theorem mkRange_zero (start stop : ℚ) :
    mkRange start stop 0 = if start = stop then .ok ⟨start, stop, 0, 1⟩ else .error .zeroDivision := by
  unfold mkRange
  by_cases h : start = stop
  · subst h; simp [sgn]
  · simp [h]

theorem mkRange_valid {start stop step : ℚ} {c : RangeCoord} (hs : step ≠ 0)
    (h : mkRange start stop step = .ok c) : c.Valid := by
  rw [mkRange_eq _ _ _ hs] at h
  simp only at h
  split_ifs at h with h1
  cases h
  refine ⟨hs, ?_, ?_⟩
  · simp only; omega
  · simp only
    congr 2
    have : (⌈roundDec 1 ((stop - start) / step)⌉ : ℚ) =
      ((⌈roundDec 1 ((stop - start) / step)⌉.toNat : ℤ) : ℚ) := by
      congr 1; omega
    rw [this]; rfl

/-- Building from a canonical start/stop/step reproduces the length. -/
theorem mkRange_canonical {start step : ℚ} {n : ℕ} (hs : step ≠ 0) (hn : 1 ≤ n) :
    mkRange start (start + step * n) step = .ok ⟨start, start + step * n, step, n⟩ := by
  rw [mkRange_eq _ _ _ hs]
  have h1 : (start + step * (n : ℚ) - start) / step = ((n : ℤ) : ℚ) := by
    field_simp; push_cast; ring
  rw [h1, roundDec_int, Int.ceil_intCast]
  have h2 : (1 : ℤ) ≤ (n : ℤ) := by exact_mod_cast hn
  simp only [h2, if_true, Int.toNat_natCast, Int.cast_natCast]

theorem new_canonical {c : RangeCoord} {start step stop : ℚ} {n : ℕ} (hs : step ≠ 0) (hn : 1 ≤ n)
    (hstop : stop = start + step * n) :
    c.new start stop step = .ok (.range ⟨start, stop, step, n⟩) := by
  subst hstop
  simp [RangeCoord.new, getCoordParts, mkRangeParts, mkRange_canonical hs hn]

namespace RangeCoord
variable {c : RangeCoord}

theorem Valid.values_eq (h : c.Valid) : c.values = progression c.start c.step c.len := by
  unfold values progression
  by_cases h1 : c.len = 1
  · simp [h1]
  · simp only [h1, if_false]
    rw [List.take_of_length_le (by simp)]
    apply List.map_congr_left
    intro i _
    have hl := h.len_pos
    have : (c.len : ℚ) - 1 ≠ 0 := by
      have : (1 : ℚ) < c.len := by exact_mod_cast (by omega : 1 < c.len)
      linarith
    rw [h.stop_eq]
    field_simp
    ring

theorem Valid.timeValues_eq (h : c.Valid) : c.timeValues = progression c.start c.step c.len := by
  unfold timeValues progression
  by_cases h1 : c.len = 1
  · simp [h1]
  · simp only [h1, if_false]
    have : (c.stop - c.start) / c.step = ((c.len : ℤ) : ℚ) := by
      rw [h.stop_eq]; have := h.step_ne; field_simp; push_cast; ring
    rw [this, Int.ceil_intCast, Int.toNat_natCast, List.take_of_length_le (by simp)]

theorem Valid.length_values (h : c.Valid) : c.values.length = c.len := by
  rw [h.values_eq]; simp [progression]

theorem Valid.getElem?_values (h : c.Valid) (i : ℕ) :
    c.values[i]? = if i < c.len then some (c.start + i * c.step) else none := by
  rw [h.values_eq]
  unfold progression
  rw [List.getElem?_map]
  by_cases hi : i < c.len
  · simp [hi]
  · simp [hi]

theorem Valid.getInt_nonneg (h : c.Valid) {i : ℤ} (h0 : 0 ≤ i) (hi : i < c.len) :
    c.getInt i = .ok (c.start + i * c.step) := by
  unfold getInt
  have hlt : i.toNat < c.len := by omega
  have hc : ((i.toNat : ℤ) : ℚ) = (i : ℚ) := by congr 1; omega
  rw [if_neg (by omega)]
  simp only [not_lt.2 h0, if_false, h.getElem?_values, hlt, if_true]
  rw [← hc]; rfl

theorem Valid.cmin_eq (h : c.Valid) : c.cmin = min c.start (c.start + (c.len - 1) * c.step) := by
  unfold cmin; rw [h.stop_eq]; congr 1; ring

theorem Valid.cmax_eq (h : c.Valid) : c.cmax = max c.start (c.start + (c.len - 1) * c.step) := by
  unfold cmax; rw [h.stop_eq, max_comm]; congr 1; ring

theorem mem_progression {s d : ℚ} {n : ℕ} {x : ℚ} :
    x ∈ progression s d n ↔ ∃ i : ℕ, i < n ∧ x = s + i * d := by
  unfold progression
  simp only [List.mem_map, List.mem_range]
  constructor
  · rintro ⟨i, hi, rfl⟩; exact ⟨i, hi, rfl⟩
  · rintro ⟨i, hi, rfl⟩; exact ⟨i, hi, rfl⟩

end RangeCoord
end Verif
