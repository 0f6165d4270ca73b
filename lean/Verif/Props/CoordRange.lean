import Verif.Model.CoordRange
import Verif.Spec.Coord
import Verif.Proof.RangeSelect
/-!
# Properties C01, C02, C03, C06 (range part), C09, C10
-/
namespace Verif
open Spec

/-- A range coordinate a user can hold: the result of a successful construction with a non-zero step. -/
def BuiltRange (c : RangeCoord) : Prop :=
  ∃ start stop step, step ≠ 0 ∧ mkRange start stop step = .ok c

theorem BuiltRange.valid {c : RangeCoord} (h : BuiltRange c) : c.Valid := by
  obtain ⟨a, b, d, hd, h⟩ := h
  exact mkRange_valid hd h

theorem BuiltRange.of_valid {c : RangeCoord} (h : c.Valid) : BuiltRange c := by
  refine ⟨c.start, c.start + c.step * c.len, c.step, h.step_ne, ?_⟩
  rw [mkRange_canonical h.step_ne h.len_pos, ← h.stop_eq]

/-- An ascending and a descending example used for non-vacuity: 5, 8, 11, 14 and its reverse. -/
def exUp : RangeCoord := ⟨5, 17, 3, 4⟩
def exDown : RangeCoord := ⟨14, 2, -3, 4⟩
theorem exUp_built : BuiltRange exUp := ⟨5, 16, 3, by norm_num, by decide +kernel⟩
theorem exDown_built : BuiltRange exDown := ⟨14, 2, -3, by norm_num, by decide +kernel⟩

/-- **C01** construction from start, stop and a non-zero step: it succeeds exactly when the span is more
than a twentieth of a step in the direction of the step (CoordError otherwise), and then sample `i` is
`start + i*step`, the number of samples is the span in steps rounded up (a trailing twentieth of a step
dropped), `stop` is one step after the last sample and `min`/`max` are attained bounds of the samples. -/
theorem C01_range_construction (start stop step : ℚ) (hs : step ≠ 0) :
    (1 / 20 < (stop - start) / step → ∃ c, mkRange start stop step = .ok c ∧
      c.values = progression start step c.len ∧
      c.timeValues = progression start step c.len ∧
      (c.len : ℤ) = ⌈(stop - start) / step - 1 / 20⌉ ∧ 1 ≤ c.len ∧
      c.start = start ∧ c.step = step ∧ c.stop = start + c.len * step ∧
      c.cmin ∈ c.values ∧ c.cmax ∈ c.values ∧ ∀ x ∈ c.values, c.cmin ≤ x ∧ x ≤ c.cmax) ∧
    ((stop - start) / step ≤ 1 / 20 → mkRange start stop step = .error .coordError) := by
  have hceil : ∀ m : ℤ, ⌈roundDec 1 ((stop - start) / step)⌉ ≤ m ↔ ⌈(stop - start) / step - 1 / 20⌉ ≤ m := by
    intro m
    rw [ceil_roundDec_le (by norm_num), Int.ceil_le]
    norm_num
  have heq : ⌈roundDec 1 ((stop - start) / step)⌉ = ⌈(stop - start) / step - 1 / 20⌉ :=
    le_antisymm ((hceil _).2 le_rfl) ((hceil _).1 le_rfl)
  have hmk := mkRange_eq start stop step hs
  simp only [heq] at hmk
  constructor
  · intro h
    have hn : 1 ≤ ⌈(stop - start) / step - 1 / 20⌉ := by
      have : 0 < ⌈(stop - start) / step - 1 / 20⌉ := Int.ceil_pos.2 (by linarith)
      omega
    rw [if_pos hn] at hmk
    refine ⟨_, hmk, ?_⟩
    have hv := mkRange_valid hs hmk
    have hvals := hv.values_eq
    refine ⟨hv.values_eq, hv.timeValues_eq, ?_, hv.len_pos, rfl, rfl, ?_, ?_, ?_, ?_⟩
    · simp only; omega
    · rw [hv.stop_eq]; ring
    · -- the minimum is a sample
      rw [hvals, hv.cmin_eq, RangeCoord.mem_progression]
      rcases le_total (start) (start + ((⌈(stop - start) / step - 1 / 20⌉.toNat : ℚ) - 1) * step) with h1 | h1
      · exact ⟨0, hv.len_pos, (min_eq_left h1).trans (by simp)⟩
      · refine ⟨⌈(stop - start) / step - 1 / 20⌉.toNat - 1, by simp only; omega, ?_⟩
        simp only [min_eq_right h1]
        rw [Nat.cast_sub hv.len_pos]; simp
    · rw [hvals, hv.cmax_eq, RangeCoord.mem_progression]
      rcases le_total (start) (start + ((⌈(stop - start) / step - 1 / 20⌉.toNat : ℚ) - 1) * step) with h1 | h1
      · refine ⟨⌈(stop - start) / step - 1 / 20⌉.toNat - 1, by simp only; omega, ?_⟩
        simp only [max_eq_right h1]
        rw [Nat.cast_sub hv.len_pos]; simp
      · exact ⟨0, hv.len_pos, (max_eq_left h1).trans (by simp)⟩
    · intro x hx
      rw [hvals, RangeCoord.mem_progression] at hx
      obtain ⟨i, hi, rfl⟩ := hx
      rw [hv.cmin_eq, hv.cmax_eq]
      simp only at hi ⊢
      have hi' : (i : ℚ) ≤ (⌈(stop - start) / step - 1 / 20⌉.toNat : ℚ) - 1 := by
        have : ((i + 1 : ℕ) : ℚ) ≤ (⌈(stop - start) / step - 1 / 20⌉.toNat : ℚ) := by exact_mod_cast hi
        push_cast at this; linarith
      have hi0 : (0 : ℚ) ≤ i := by positivity
      rcases lt_or_gt_of_ne hs with h | h
      · constructor
        · apply min_le_of_right_le; nlinarith
        · apply le_max_of_le_left; nlinarith
      · constructor
        · apply min_le_of_left_le; nlinarith
        · apply le_max_of_le_right; nlinarith
  · intro h
    have hn : ¬ 1 ≤ ⌈(stop - start) / step - 1 / 20⌉ := by
      have : ⌈(stop - start) / step - 1 / 20⌉ ≤ 0 := by
        rw [Int.ceil_le]; push_cast; linarith
      omega
    rw [if_neg hn] at hmk
    exact hmk

example : 1 / 20 < ((16 : ℚ) - 5) / 3 ∧ mkRange 5 16 3 = .ok exUp := by
  refine ⟨by norm_num, by decide +kernel⟩
example : ((1 : ℚ) - 5) / 3 ≤ 1 / 20 := by norm_num

/-- **C01** construction from a length: the requested number of samples is delivered, anchored at the given
start or stop, for every non-zero step. -/
theorem C01_range_from_length (pyInt : Bool) (anchor step : ℚ) (n : ℕ) (hs : step ≠ 0) (hn : 1 ≤ n) :
    (∃ c, getCoordParts pyInt (some anchor) none (some step) (some n) = .ok (.range c) ∧ c.len = n ∧
      c.values = progression anchor step n) ∧
    (∃ c, getCoordParts pyInt none (some anchor) (some step) (some n) = .ok (.range c) ∧ c.len = n ∧
      c.values = progression (anchor - n * step) step n ∧ c.stop = anchor) := by
  constructor
  · refine ⟨⟨anchor, anchor + step * n, step, n⟩, ?_, rfl, ?_⟩
    · simp [getCoordParts, mkRangeParts, mkRange_canonical hs hn]
    · exact RangeCoord.Valid.values_eq ⟨hs, hn, rfl⟩
  · refine ⟨⟨anchor - step * n, anchor, step, n⟩, ?_, rfl, ?_, rfl⟩
    · have h : mkRange (anchor - step * n) anchor step = .ok ⟨anchor - step * n, anchor, step, n⟩ := by
        have := mkRange_canonical (start := anchor - step * n) hs hn
        simpa using this
      simp [getCoordParts, mkRangeParts, h]
    · have := RangeCoord.Valid.values_eq (c := ⟨anchor - step * n, anchor, step, n⟩) ⟨hs, hn, by simp⟩
      rw [this, mul_comm step]
example : (3 : ℚ) ≠ 0 ∧ 1 ≤ 4 := by norm_num

/-- **C01** (start, stop, length), for inputs that are not both Python ints: `n` samples spaced by
`(stop - start)/n`. Missing from the full statement: Python int inputs, for which it is false
(`C01_int_length_violated`). -/
theorem C01_range_from_limits_and_length_partial (start stop : ℚ) (n : ℕ) (hn : 1 ≤ n) (h : start ≠ stop) :
    ∃ c, getCoordParts false (some start) (some stop) none (some n) = .ok (.range c) ∧ c.len = n ∧
      c.values = progression start ((stop - start) / n) n ∧ c.stop = stop := by
  have hnq : (n : ℚ) ≠ 0 := by positivity
  have hd : (stop - start) / n ≠ 0 := div_ne_zero (sub_ne_zero.2 h.symm) hnq
  have hstop : start + (stop - start) / n * n = stop := by field_simp; ring
  have hmk := mkRange_canonical (start := start) hd hn
  rw [hstop] at hmk
  refine ⟨⟨start, stop, (stop - start) / n, n⟩, ?_, rfl, ?_, rfl⟩
  · have : ¬ n = 0 := by omega
    simp [getCoordParts, mkRangeParts, this, hmk]
  · exact RangeCoord.Valid.values_eq ⟨hd, hn, hstop.symm⟩
example : 1 ≤ 4 ∧ (0 : ℚ) ≠ 10 := by norm_num

/-- **C01 violated** for Python ints: asking for 100000 samples from 0 to 299999 truncates the step 2.99999
to 2 and delivers 150000 samples (coords.py 1201-1202). -/
theorem C01_int_length_violated :
    ∃ c, getCoordParts true (some 0) (some 299999) none (some 100000) = .ok (.range c) ∧ c.len = 150000 :=
  ⟨⟨0, 300000, 2, 150000⟩, by decide +kernel, rfl⟩

/-- **C02** slicing: for every slice with a non-zero step the sliced coordinate has exactly the labels of
the sliced value list; a zero step is a ValueError in both. -/
theorem C02_slice (c : RangeCoord) (hc : BuiltRange c) (s : PySlice) :
    (s.step ≠ some 0 → ∃ d l, c.getSlice s = .ok d ∧ pySlice c.values s = .ok l ∧ d.labels = l.map some) ∧
    (s.step = some 0 → c.getSlice s = .error .valueError ∧ pySlice c.values s = .error .valueError) := by
  have hv := hc.valid
  have hlen := hv.length_values
  constructor
  · intro h0
    obtain ⟨r, hr⟩ := indices_ok_or c.len h0
    obtain ⟨hrs, hb⟩ := indices_bounds hr
    have hix : ∀ i ∈ r.toList.map Int.toNat, i < c.len := by
      intro i hi
      unfold PyRange.toList at hi
      simp only [List.map_map, List.mem_map, List.mem_range, Function.comp_apply] at hi
      obtain ⟨j, hj, rfl⟩ := hi
      have := hb j hj
      omega
    have hpy : pySlice c.values s =
        .ok ((r.toList.map Int.toNat).map fun i : ℕ => c.start + (i : ℚ) * c.step) := by
      unfold pySlice
      rw [hlen, hr]
      simp only [bind, Except.bind, pure, Except.pure]
      rw [hv.values_eq]
      unfold progression
      rw [takeIdx_map_range hix]
    by_cases hl : r.len = 0
    · refine ⟨.part 0, _, ?_, hpy, ?_⟩
      · simp [RangeCoord.getSlice, hr, bind, Except.bind, hl, pure, Except.pure]
      · simp [Coord.labels, PyRange.toList, hl]
    · have hst : c.step * (r.step : ℚ) ≠ 0 := mul_ne_zero hv.step_ne (by exact_mod_cast hrs)
      have hnew := new_canonical (c := c) (start := c.start + (r.start : ℚ) * c.step)
        (step := c.step * (r.step : ℚ)) (n := r.len) hst (by omega) rfl
      refine ⟨.range ⟨c.start + (r.start : ℚ) * c.step,
        c.start + (r.start : ℚ) * c.step + c.step * (r.step : ℚ) * r.len, c.step * (r.step : ℚ), r.len⟩,
        _, ?_, hpy, ?_⟩
      · simp only [RangeCoord.getSlice, hr, bind, Except.bind, ne_eq, hl, not_false_eq_true, if_true]
        exact hnew
      · simp only [Coord.labels]
        congr 1
        rw [RangeCoord.Valid.values_eq ⟨hst, by simp only; omega, rfl⟩]
        unfold progression PyRange.toList
        simp only [List.map_map]
        apply List.map_congr_left
        intro i hi
        have := hb i (List.mem_range.1 hi)
        simp only [Function.comp_apply]
        have e : (((r.start + (i : ℤ) * r.step).toNat : ℤ) : ℚ) = ((r.start + (i : ℤ) * r.step : ℤ) : ℚ) := by
          congr 1; omega
        have e' : ((r.start + (i : ℤ) * r.step).toNat : ℚ) = ((r.start + (i : ℤ) * r.step : ℤ) : ℚ) := by
          rw [← e]; rfl
        rw [e']
        push_cast
        ring
  · intro h0
    have := (indices_error (s := s) (n := c.len)).2 h0
    constructor
    · simp [RangeCoord.getSlice, this, bind, Except.bind]
    · simp [pySlice, hlen, this, bind, Except.bind]
example : BuiltRange exUp ∧ (⟨some (-1), none, some (-2)⟩ : PySlice).step ≠ some 0 ∧
    pySlice exUp.values ⟨some (-1), none, some (-2)⟩ = .ok [14, 8] :=
  ⟨exUp_built, by decide, by decide +kernel⟩

/-- **C02** integer indexing agrees with Python list indexing of the values, IndexError where that fails. -/
theorem C02_int (c : RangeCoord) (hc : BuiltRange c) (i : ℤ) :
    c.getInt i = match pyIndex c.values i with
      | some v => .ok v
      | none => .error .indexError := by
  have hv := hc.valid
  have hlen := hv.length_values
  unfold RangeCoord.getInt pyIndex
  rw [hlen]
  by_cases h1 : (c.len : ℤ) ≤ i
  · have h0 : 0 ≤ i := by omega
    have hge : c.values[i.toNat]? = none := by rw [List.getElem?_eq_none]; omega
    rw [if_pos h1, if_pos h0, hge]
  · rw [if_neg h1]
    by_cases h0 : 0 ≤ i
    · simp only [not_lt.2 h0, if_false, h0, if_true]
      cases c.values[i.toNat]? <;> rfl
    · simp only [not_le.1 h0, if_true, h0, if_false]
      by_cases h2 : -(c.len : ℤ) ≤ i
      · rw [if_pos h2, if_neg (by omega)]
        cases c.values[(i + c.len).toNat]? <;> rfl
      · rw [if_neg h2, if_pos (by omega)]
example : BuiltRange exDown ∧ pyIndex exDown.values (-1) = some 5 := ⟨exDown_built, by decide +kernel⟩

/-- **C03** value selection on an evenly sampled coordinate, ascending or descending: exactly the samples
between the limits (each widened by half of 1e-10 steps) are kept, in order, both by the returned
coordinate and by applying the returned slice to the old values. -/
theorem C03_select_exact (c : RangeCoord) (hc : BuiltRange c) (a b : Option ℚ) :
    ∃ d sl, c.select (a, b) = .ok (d, sl) ∧
      d.labels = (samplesBetween (|c.step| / (2 * 10 ^ 10)) a b c.values).map some ∧
      pySlice c.values sl = .ok (samplesBetween (|c.step| / (2 * 10 ^ 10)) a b c.values) := by
  obtain ⟨d, sl, h1, h2, h3, _⟩ := RangeCoord.select_spec hc.valid a b
  have : absQ c.step * RangeCoord.fudge = |c.step| / (2 * 10 ^ 10) := by
    have : absQ c.step = |c.step| := by
      unfold absQ; split_ifs with h
      · exact (abs_of_neg h).symm
      · exact (abs_of_nonneg (not_lt.1 h)).symm
    rw [this, RangeCoord.fudge]; ring
  rw [this] at h2 h3
  exact ⟨d, sl, h1, h2, h3⟩
example : BuiltRange exUp ∧ exUp.select (some 12, some 8) = .ok (.range ⟨8, 14, 3, 2⟩, ⟨some 1, some 3, none⟩) :=
  ⟨exUp_built, by decide +kernel⟩
example : BuiltRange exDown ∧ exDown.select (some 7, none) = .ok (.range ⟨14, 5, -3, 3⟩, ⟨none, some 3, none⟩) :=
  ⟨exDown_built, by decide +kernel⟩
example : exUp.select (some 9, some 10) = .ok (.part 0, ⟨some 0, some 0, none⟩) := by decide +kernel

theorem between_int_exact {tol : ℚ} (h0 : 0 ≤ tol) (h1 : tol < 1) {a b : Option ℚ}
    (ha : ∀ v, a = some v → ∃ z : ℤ, v = z) (hb : ∀ v, b = some v → ∃ z : ℤ, v = z) {x : ℚ}
    (hx : ∃ z : ℤ, x = z) : Between tol a b x ↔ Between 0 a b x := by
  obtain ⟨x, rfl⟩ := hx
  have lo : ∀ z : ℤ, ((z : ℚ) - tol ≤ x ↔ (z : ℚ) - 0 ≤ x) := by
    intro z
    constructor
    · intro h
      have : (z : ℚ) < x + 1 := by linarith
      have : z < x + 1 := by exact_mod_cast this
      have : z ≤ x := by omega
      have : (z : ℚ) ≤ x := by exact_mod_cast this
      linarith
    · intro h; linarith
  have hi : ∀ z : ℤ, ((x : ℚ) ≤ z + tol ↔ (x : ℚ) ≤ z + 0) := by
    intro z
    constructor
    · intro h
      have : (x : ℚ) < z + 1 := by linarith
      have : x < z + 1 := by exact_mod_cast this
      have : x ≤ z := by omega
      have : (x : ℚ) ≤ z := by exact_mod_cast this
      linarith
    · intro h; linarith
  cases a with
  | none =>
    cases b with
    | none => simp [Between]
    | some b => obtain ⟨z, rfl⟩ := hb b rfl; exact hi z
  | some a =>
    obtain ⟨y, rfl⟩ := ha a rfl
    cases b with
    | none => exact lo y
    | some b =>
      obtain ⟨z, rfl⟩ := hb b rfl
      simp only [Between]
      rw [← Int.cast_min, ← Int.cast_max, lo, hi]

/-- **C03** for integer (in particular nanosecond) coordinates and integer limits with a step below 2e10
the interval is exact: no tolerance at all. -/
theorem C03_select_exact_int (c : RangeCoord) (hc : BuiltRange c) (a b : Option ℚ)
    (hstart : ∃ z : ℤ, c.start = z) (hstep : ∃ z : ℤ, c.step = z) (hsmall : |c.step| < 2 * 10 ^ 10)
    (ha : ∀ v, a = some v → ∃ z : ℤ, v = z) (hb : ∀ v, b = some v → ∃ z : ℤ, v = z) :
    ∃ d sl, c.select (a, b) = .ok (d, sl) ∧
      d.labels = (samplesBetween 0 a b c.values).map some ∧
      pySlice c.values sl = .ok (samplesBetween 0 a b c.values) := by
  obtain ⟨d, sl, h1, h2, h3⟩ := C03_select_exact c hc a b
  have : samplesBetween (|c.step| / (2 * 10 ^ 10)) a b c.values = samplesBetween 0 a b c.values := by
    unfold samplesBetween
    apply List.filter_congr
    intro x hx
    have hxi : ∃ z : ℤ, x = z := by
      rw [hc.valid.values_eq, RangeCoord.mem_progression] at hx
      obtain ⟨i, _, rfl⟩ := hx
      obtain ⟨s, hs⟩ := hstart
      obtain ⟨t, ht⟩ := hstep
      exact ⟨s + i * t, by rw [hs, ht]; push_cast; ring⟩
    have hp : (0 : ℚ) < 2 * 10 ^ 10 := by norm_num
    rw [decide_eq_decide]
    exact between_int_exact (by positivity) (by rw [div_lt_one hp]; exact hsmall) ha hb hxi
  rw [this] at h2 h3
  exact ⟨d, sl, h1, h2, h3⟩
example : BuiltRange exUp ∧ (∃ z : ℤ, exUp.start = z) ∧ (∃ z : ℤ, exUp.step = z) ∧ |exUp.step| < 2 * 10 ^ 10 :=
  ⟨exUp_built, ⟨5, by norm_num [exUp]⟩, ⟨3, by norm_num [exUp]⟩, by norm_num [exUp]⟩

/-- The fudge factor is real: with a 100 s step in nanoseconds, a limit 1 ns after the first sample still
selects it (so the exact statement needs the bound on the step). -/
theorem C03_fudge_is_visible :
    (⟨0, 300000000000, 100000000000, 3⟩ : RangeCoord).select (some 1, none) =
      .ok (.range ⟨0, 300000000000, 100000000000, 3⟩, ⟨none, none, none⟩) := by decide +kernel

/-- **C06** sorting a range coordinate: the result is ordered as requested, has the same samples, and the
returned slice turns the old values into the new ones. -/
theorem C06_sort_range (c : RangeCoord) (hc : BuiltRange c) (reverse : Bool) :
    ∃ d sl l, c.sort reverse = .ok (d, sl) ∧ pySlice c.values sl = .ok l ∧ d.labels = l.map some ∧
      l.Perm c.values ∧ l.Pairwise (fun x y => if reverse then y ≤ x else x ≤ y) := by
  have hv := hc.valid
  have hmono : ∀ {s d : ℚ} {n : ℕ}, 0 ≤ d → (progression s d n).Pairwise (fun x y => x ≤ y) := by
    intro s d n hd
    unfold progression
    rw [List.pairwise_map]
    refine List.Pairwise.imp ?_ List.pairwise_lt_range
    intro i j hij
    have : (i : ℚ) ≤ j := by exact_mod_cast hij.le
    nlinarith
  have hanti : ∀ {s d : ℚ} {n : ℕ}, d ≤ 0 → (progression s d n).Pairwise (fun x y => y ≤ x) := by
    intro s d n hd
    unfold progression
    rw [List.pairwise_map]
    refine List.Pairwise.imp ?_ List.pairwise_lt_range
    intro i j hij
    have : (i : ℚ) ≤ j := by exact_mod_cast hij.le
    nlinarith
  by_cases hcase : ((!reverse && c.sorted) || (reverse && c.reverseSorted)) = true
  · refine ⟨.range c, {}, c.values, ?_, pySlice_all _, rfl, List.Perm.refl _, ?_⟩
    · simp [RangeCoord.sort, hcase]
    · rw [hv.values_eq]
      cases reverse with
      | true =>
        simp [RangeCoord.reverseSorted] at hcase
        simpa using hanti hcase.le
      | false =>
        simp [RangeCoord.sorted] at hcase
        simpa using hmono hcase
  · have hrevl : ∀ (p q : ℚ), p = c.start + (c.len - 1) * c.step → q = p + -c.step * c.len →
        c.new p q (-c.step) = .ok (.range ⟨p, q, -c.step, c.len⟩) ∧
        (Coord.range ⟨p, q, -c.step, c.len⟩).labels = c.values.reverse.map some := by
      intro p q hp hq
      have hns : -c.step ≠ 0 := neg_ne_zero.2 hv.step_ne
      refine ⟨new_canonical hns hv.len_pos hq, ?_⟩
      simp only [Coord.labels]
      congr 1
      rw [RangeCoord.Valid.values_eq (c := ⟨p, q, -c.step, c.len⟩) ⟨hns, hv.len_pos, hq⟩, hv.values_eq]
      unfold progression
      apply List.ext_getElem
      · simp
      · intro i h1 h2
        simp only [List.length_map, List.length_range] at h1
        simp only [List.getElem_map, List.getElem_range, List.getElem_reverse, List.length_map,
          List.length_range]
        have : ((c.len - 1 - i : ℕ) : ℚ) = (c.len : ℚ) - 1 - i := by
          rw [Nat.cast_sub (by omega), Nat.cast_sub (by omega)]; simp
        rw [this, hp]; ring
    have hlq : (0 : ℚ) ≤ (c.len : ℚ) - 1 := by
      have : (1 : ℚ) ≤ c.len := by exact_mod_cast hv.len_pos
      linarith
    cases reverse with
    | true =>
      have hs : 0 ≤ c.step := by simpa [RangeCoord.reverseSorted] using hcase
      have hmax : c.cmax = c.start + (c.len - 1) * c.step := by
        rw [hv.cmax_eq]; apply max_eq_right; nlinarith
      have hmin : c.cmin = c.start := by rw [hv.cmin_eq]; apply min_eq_left; nlinarith
      obtain ⟨h1, h2⟩ := hrevl c.cmax (c.cmin + -c.step) hmax (by rw [hmax, hmin]; ring)
      refine ⟨_, ⟨none, none, some (-1)⟩, c.values.reverse, ?_, pySlice_reverse _, h2, List.reverse_perm _, ?_⟩
      · simp only [RangeCoord.sort, hcase, Bool.false_eq_true, if_false, if_true, bind, Except.bind, h1]
        rfl
      · rw [List.pairwise_reverse, hv.values_eq]; simpa using hmono hs
    | false =>
      have hs : c.step < 0 := by simpa [RangeCoord.sorted] using hcase
      have hmin : c.cmin = c.start + (c.len - 1) * c.step := by
        rw [hv.cmin_eq]; apply min_eq_right; nlinarith
      have hmax : c.cmax = c.start := by rw [hv.cmax_eq]; apply max_eq_left; nlinarith
      obtain ⟨h1, h2⟩ := hrevl c.cmin (c.cmax + -c.step) hmin (by rw [hmax, hmin]; ring)
      refine ⟨_, ⟨none, none, some (-1)⟩, c.values.reverse, ?_, pySlice_reverse _, h2, List.reverse_perm _, ?_⟩
      · simp only [RangeCoord.sort, hcase, Bool.false_eq_true, if_false, bind, Except.bind, h1]
        rfl
      · rw [List.pairwise_reverse, hv.values_eq]; simpa using hanti hs.le
example : BuiltRange exDown ∧ exDown.sort false = .ok (.range exUp, ⟨none, none, some (-1)⟩) :=
  ⟨exDown_built, by decide +kernel⟩

/-- **C09** `change_length(n)` on a datetime/timedelta range coordinate: exactly `n` samples continuing with
the same start and step; 0 gives an empty coordinate; negative and non-integer lengths raise. -/
theorem C09_change_length_time (c : RangeCoord) (hc : BuiltRange c) :
    (∀ n : ℕ, ∃ d, c.changeLength true (some n) = .ok d ∧ d.length = n ∧
      d.labels = (progression c.start c.step n).map some) ∧
    (∀ n : ℤ, n < 0 → c.changeLength true (some n) = .error .parameterError) ∧
    c.changeLength true none = .error .parameterError := by
  have hv := hc.valid
  refine ⟨?_, ?_, rfl⟩
  · intro n
    by_cases h1 : c.len = n
    · subst h1
      refine ⟨.range c, ?_, rfl, by simp [Coord.labels, hv.values_eq]⟩
      simp [RangeCoord.changeLength]
    · by_cases h0 : n = 0
      · subst h0
        refine ⟨.part 0, ?_, rfl, rfl⟩
        simp [RangeCoord.changeLength, h1]
      · have hstop : c.stop + c.step * (((n : ℤ) - (c.len : ℤ) : ℤ) : ℚ) = c.start + c.step * n := by
          rw [hv.stop_eq]; push_cast; ring
        have hne : ¬ c.start + c.step * (n : ℚ) = c.stop := by
          rw [hv.stop_eq]
          intro h
          have : c.step * ((n : ℚ) - c.len) = 0 := by linarith
          rcases mul_eq_zero.1 this with h | h
          · exact hv.step_ne h
          · apply h1
            have : (n : ℚ) = c.len := by linarith
            exact_mod_cast this.symm
        have hn1 : 1 ≤ n := by omega
        refine ⟨.range ⟨c.start, c.start + c.step * n, c.step, n⟩, ?_, rfl, ?_⟩
        · unfold RangeCoord.changeLength
          simp only
          rw [if_neg (by omega), if_neg (by exact_mod_cast h1), if_neg (by exact_mod_cast h0), hstop]
          simp only [if_true, hne, decide_false, Bool.false_eq_true, if_false]
          rw [new_canonical hv.step_ne hn1 rfl]
          simp
        · simp only [Coord.labels]
          rw [RangeCoord.Valid.values_eq (c := ⟨c.start, c.start + c.step * n, c.step, n⟩) ⟨hv.step_ne, hn1, rfl⟩]
  · intro n hn
    simp [RangeCoord.changeLength, hn]
example : BuiltRange exUp ∧ exUp.changeLength true (some 6) = .ok (.range ⟨5, 23, 3, 6⟩) :=
  ⟨exUp_built, by decide +kernel⟩

/-- **C09**, numeric coordinates. What is missing from the full statement: when the new stop is within numpy's
`isclose` tolerance of the old one the call fails (`C09_change_length_violated`). -/
theorem C09_change_length_number_partial (c : RangeCoord) (hc : BuiltRange c) (n : ℕ)
    (hfar : isClose (c.start + c.step * n) c.stop = false ∨ n = c.len ∨ n = 0) :
    ∃ d, c.changeLength false (some n) = .ok d ∧ d.length = n ∧
      d.labels = (progression c.start c.step n).map some := by
  have hv := hc.valid
  by_cases h1 : c.len = n
  · subst h1
    refine ⟨.range c, ?_, rfl, by simp [Coord.labels, hv.values_eq]⟩
    simp [RangeCoord.changeLength]
  · by_cases h0 : n = 0
    · subst h0
      refine ⟨.part 0, ?_, rfl, rfl⟩
      simp [RangeCoord.changeLength, h1]
    · have hcl : isClose (c.start + c.step * n) c.stop = false := by
        rcases hfar with h | h | h
        · exact h
        · exact absurd h.symm h1
        · exact absurd h h0
      have hstop : c.stop + c.step * (((n : ℤ) - (c.len : ℤ) : ℤ) : ℚ) = c.start + c.step * n := by
        rw [hv.stop_eq]; push_cast; ring
      have hn1 : 1 ≤ n := by omega
      refine ⟨.range ⟨c.start, c.start + c.step * n, c.step, n⟩, ?_, rfl, ?_⟩
      · unfold RangeCoord.changeLength
        simp only
        rw [if_neg (by omega), if_neg (by exact_mod_cast h1), if_neg (by exact_mod_cast h0), hstop]
        simp only [Bool.false_eq_true, if_false, hcl]
        rw [new_canonical hv.step_ne hn1 rfl]
        simp
      · simp only [Coord.labels]
        rw [RangeCoord.Valid.values_eq (c := ⟨c.start, c.start + c.step * n, c.step, n⟩) ⟨hv.step_ne, hn1, rfl⟩]
example : BuiltRange exUp ∧ isClose (exUp.start + exUp.step * (6 : ℕ)) exUp.stop = false :=
  ⟨exUp_built, by decide +kernel⟩

/-- **C09 violated** for numeric coordinates: lengthening 0, 1, ..., 999999 by one sample fails with an
AssertionError because `update` considers the new stop "close" to the old one. -/
theorem C09_change_length_violated :
    mkRange 0 1000000 1 = .ok ⟨0, 1000000, 1, 1000000⟩ ∧
    (⟨0, 1000000, 1, 1000000⟩ : RangeCoord).changeLength false (some 1000001) = .error .assertionError := by
  constructor <;> decide +kernel

/-- **C10** summary round trip in both directions. -/
theorem C10_summary_roundtrip (c : RangeCoord) (hc : BuiltRange c) : c.toSummary.toCoord = .ok c := by
  have hv := hc.valid
  have hlq : (0 : ℚ) ≤ (c.len : ℚ) - 1 := by
    have : (1 : ℚ) ≤ c.len := by exact_mod_cast hv.len_pos
    linarith
  have hmk := mkRange_canonical (start := c.start) hv.step_ne hv.len_pos
  unfold RangeCoord.toSummary CoordSummary.toCoord
  simp only
  rcases lt_or_gt_of_ne hv.step_ne with h | h
  · have hmin : c.cmin = c.start + (c.len - 1) * c.step := by
      rw [hv.cmin_eq]; apply min_eq_right; nlinarith
    have hmax : c.cmax = c.start := by rw [hv.cmax_eq]; apply max_eq_left; nlinarith
    rw [if_pos (sgn_neg h), hmin, hmax]
    have : c.start + ((c.len : ℚ) - 1) * c.step + c.step = c.start + c.step * c.len := by ring
    rw [this, hmk, ← hv.stop_eq]
  · have hmax : c.cmax = c.start + (c.len - 1) * c.step := by
      rw [hv.cmax_eq]; apply max_eq_right; nlinarith
    have hmin : c.cmin = c.start := by rw [hv.cmin_eq]; apply min_eq_left; nlinarith
    rw [if_neg (by rw [sgn_pos h]; decide), hmin, hmax]
    have : c.start + ((c.len : ℚ) - 1) * c.step + c.step = c.start + c.step * c.len := by ring
    rw [this, hmk, ← hv.stop_eq]
example : BuiltRange exDown ∧ exDown.toSummary = ⟨5, 14, some (-3)⟩ := ⟨exDown_built, by decide +kernel⟩

end Verif
