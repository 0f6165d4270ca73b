import Verif.Props.Units
/-!
# C67: limits of filters given with units
-/
namespace Verif
open Spec

section
variable {K : Type} [Field K] [LinearOrder K] [IsStrictOrderedRing K]

/-- Limits given as rates (frequencies, wavenumbers): a number of cycles per unit of the dimension lies between the two numbers returned
exactly if it lies between the rates. -/
theorem C67_rates (u a b : Quant K) (hm : u.mag = 1) (hs : 0 < u.unit.scale) (hu : HasDim u.unit) (ha : RateFor u.unit a) (hab : a.unit = b.unit) :
    ∃ lo hi, getFilterUnits (.quant a) (.quant b) (some u) = .ok (some lo, some hi) ∧
      ∀ f, (lo ≤ f ∧ f ≤ hi) ↔ (a.base ≤ cyclesPer u.unit f ∧ cyclesPer u.unit f ≤ b.base) := by
  have hb : RateFor u.unit b := by simp only [RateFor, ← hab]; exact ha
  refine ⟨a.base / u.unit.scale⁻¹, b.base / u.unit.scale⁻¹, ?_, ?_⟩
  · rw [filter_of (.inl rfl) hm]
    simp only [FLimit.toQuant, filterLimits, sameUnits, hab, decide_true, if_true, inverted_rate hu ha, inverted_rate hu hb, bind, Except.bind,
      Bool.or_self, Bool.not_true, Bool.false_eq_true, if_false]
  · intro f
    rw [← cyclesPer_le hs (x := a.base / u.unit.scale⁻¹), ← cyclesPer_le hs (x := f), cyclesPer_rate hs, cyclesPer_rate hs]

/-- Limits given as lengths of a cycle (periods, wavelengths): a number of cycles per unit of the dimension lies between the two numbers
returned exactly if the length of its cycle lies between the lengths given. -/
theorem C67_cycles (u a b : Quant K) (hm : u.mag = 1) (hs : 0 < u.unit.scale) (hu : HasDim u.unit) (ha : CycleFor u.unit a) (hab : a.unit = b.unit)
    (h0 : FromZero a) (hpa : 0 < a.base) (hpb : 0 < b.base) :
    ∃ lo hi, getFilterUnits (.quant a) (.quant b) (some u) = .ok (some lo, some hi) ∧
      ∀ f, 0 < f → ((lo ≤ f ∧ f ≤ hi) ↔ (a.base ≤ 1 / cyclesPer u.unit f ∧ 1 / cyclesPer u.unit f ≤ b.base)) := by
  have hb : CycleFor u.unit b := by simp only [CycleFor, ← hab]; exact ha
  have h0b : FromZero b := by simp only [FromZero, ← hab]; exact h0
  have h0a' : a.unit.offset = 0 := h0
  have h0b' : b.unit.offset = 0 := h0b
  have hma : a.mag ≠ 0 := by rintro h; simp only [Quant.base, h, h0a', zero_mul, add_zero, lt_self_iff_false] at hpa
  have hmb : b.mag ≠ 0 := by rintro h; simp only [Quant.base, h, h0b', zero_mul, add_zero, lt_self_iff_false] at hpb
  refine ⟨1 / b.mag * b.unit.scale⁻¹ / u.unit.scale⁻¹, 1 / a.mag * b.unit.scale⁻¹ / u.unit.scale⁻¹, ?_, ?_⟩
  · rw [filter_of (.inl rfl) hm]
    simp only [FLimit.toQuant, filterLimits, sameUnits, hab, decide_true, if_true, inverted_cycle hu ha hma, inverted_cycle hu hb hmb, bind, Except.bind,
      Bool.or_self, Bool.not_false, if_true]
  · intro f hf
    have hfp := (cyclesPer_pos hs).2 hf
    rw [← cyclesPer_le hs (x := 1 / b.mag * b.unit.scale⁻¹ / u.unit.scale⁻¹), ← cyclesPer_le hs (x := f), cyclesPer_cycle hs h0b]
    have h3 : cyclesPer u.unit (1 / a.mag * b.unit.scale⁻¹ / u.unit.scale⁻¹) = 1 / a.base := by rw [← hab]; exact cyclesPer_cycle hs h0
    rw [h3, one_div_le hpb hfp, le_one_div hfp hpa]
    exact and_comm

omit [IsStrictOrderedRing K] in
/-- One limit only: it stays at its place, so a first limit bounds the cycles per unit from below and a second one from above. For lengths of a
cycle this means that the first is the longest, and the second is the shortest. -/
theorem C67_one_limit (u a : Quant K) (hm : u.mag = 1) (hs : 0 < u.unit.scale) (hu : HasDim u.unit) :
    (RateFor u.unit a → ∃ x, getFilterUnits (.quant a) .nothing (some u) = .ok (some x, none) ∧ getFilterUnits .nothing (.quant a) (some u) = .ok (none, some x) ∧
      cyclesPer u.unit x = a.base) ∧
    (CycleFor u.unit a → FromZero a → a.mag ≠ 0 →
      ∃ x, getFilterUnits (.quant a) .nothing (some u) = .ok (some x, none) ∧ getFilterUnits .nothing (.quant a) (some u) = .ok (none, some x) ∧
        cyclesPer u.unit x = 1 / a.base) := by
  refine ⟨?_, ?_⟩
  · intro ha
    refine ⟨_, ?_, ?_, cyclesPer_rate hs _⟩
    · rw [filter_of (.inl rfl) hm]
      simp only [FLimit.toQuant, filterLimits, sameUnits, if_true, inverted_rate hu ha, inverted_none, bind, Except.bind,
        Bool.or_self, Bool.not_true, Bool.false_eq_true, if_false]
    · rw [filter_of (.inr rfl) hm]
      simp only [FLimit.toQuant, filterLimits, sameUnits, if_true, inverted_rate hu ha, inverted_none, bind, Except.bind,
        Bool.or_self, Bool.not_true, Bool.false_eq_true, if_false]
  · intro ha h0 hma
    refine ⟨_, ?_, ?_, cyclesPer_cycle hs h0⟩
    · rw [filter_of (.inl rfl) hm]
      simp only [FLimit.toQuant, filterLimits, sameUnits, if_true, inverted_cycle hu ha hma, inverted_none, bind, Except.bind,
        Bool.false_or, Bool.not_true, Bool.false_eq_true, if_false]
    · rw [filter_of (.inr rfl) hm]
      simp only [FLimit.toQuant, filterLimits, sameUnits, if_true, inverted_cycle hu ha hma, inverted_none, bind, Except.bind,
        Bool.or_false, Bool.not_true, Bool.false_eq_true, if_false]

end

section
variable {K : Type} [Field K] [DecidableEq K]

/-- Limits without units are taken as they are, whatever the units of the dimension. -/
theorem C67_plain (u : Option (Quant K)) (x y : K) :
    getFilterUnits (.num x) (.num y) u = .ok (some x, some y) ∧ getFilterUnits .nothing (.num y) u = .ok (none, some y) ∧
    getFilterUnits (.num x) .nothing u = .ok (some x, none) := ⟨rfl, rfl, rfl⟩

/-- What is refused: limits in different units, one limit with units and one without, units where the dimension has none, and units that
are neither rates nor lengths of a cycle for the dimension, among them plain numbers. -/
theorem C67_refused (u a : Quant K) (hm : u.mag = 1) (b : FLimit K) :
    (∀ c, a.unit ≠ c.unit → getFilterUnits (.quant a) (.quant c) (some u) = .error .unitError) ∧
    (∀ x, HasDim a.unit → getFilterUnits (.quant a) (.num x) (some u) = .error .unitError) ∧
    (getFilterUnits (.quant a) b none = .error .unitError ∧ getFilterUnits b (.quant a) none = .error .unitError) ∧
    (¬ RateFor u.unit a → ¬ CycleFor u.unit a → getFilterUnits (.quant a) b (some u) = .error .unitError) ∧
    (a.unit = PintUnit.plain → getFilterUnits (.quant a) b (some u) = .error .unitError) := by
  refine ⟨?_, ?_, ⟨rfl, ?_⟩, ?_, ?_⟩
  · intro c hc
    rw [filter_of (.inl rfl) hm]
    simp only [FLimit.toQuant, filterLimits, sameUnits, hc, decide_false, Bool.false_eq_true, if_false]
  · intro x hd
    have hne : a.unit ≠ PintUnit.plain := by
      intro h
      obtain ⟨e, he, hne⟩ := hd
      rw [h] at he
      exact hne (plain_dim_zero he)
    rw [filter_of (.inl rfl) hm]
    simp only [FLimit.toQuant, filterLimits, sameUnits, hne, decide_false, Bool.false_eq_true, if_false]
  · cases b <;> rfl
  · intro h1 h2
    rw [filter_of (.inl rfl) hm]
    have : (FLimit.quant a).toQuant = some a := rfl
    simp only [this, filterLimits, inverted_other h1 h2, bind, Except.bind, ite_self]
  · intro h
    rw [filter_of (.inl rfl) hm]
    have : (FLimit.quant a).toQuant = some a := rfl
    simp only [this, filterLimits, invertedQuant, h, if_true, bind, Except.bind, ite_self]

end

/-- The number of a quantity in another unit is the same amount, also if the unit does not count from zero; it exists for units of the
same kind. -/
theorem C67_to {K : Type} [Field K] (q : Quant K) (v : PintUnit K) (hv : v.scale ≠ 0) :
    (q.unit.dim = v.dim → ∃ x, q.to v = .ok x ∧ (⟨x, v⟩ : Quant K).base = q.base) ∧ (q.unit.dim ≠ v.dim → q.to v = .error .unitError) := by
  refine ⟨fun h => ⟨_, if_pos h, ?_⟩, fun h => if_neg h⟩
  simp only [Quant.base]
  rw [div_mul_cancel₀ _ hv, sub_add_cancel]


/-- Times and frequencies. -/
def exMs : Quant ℚ := ⟨1, ⟨"ms", [0, 0, 1, 0, 0, 0, 0], 1 / 1000, 0⟩⟩
def exHz (x : ℚ) : Quant ℚ := ⟨x, ⟨"Hz", [0, 0, -1, 0, 0, 0, 0], 1, 0⟩⟩
def exSec (x : ℚ) : Quant ℚ := ⟨x, secondQ.unit⟩

theorem exMs_dim : HasDim exMs.unit := ⟨1, by decide, by decide⟩

/-- Frequencies along a dimension in milliseconds. -/
example : exMs.mag = 1 ∧ (0 : ℚ) < exMs.unit.scale ∧ HasDim exMs.unit ∧ RateFor exMs.unit (exHz 5) ∧
    getFilterUnits (.quant (exHz 5)) (.quant (exHz 20)) (some exMs) = .ok (some (1 / 200), some (1 / 50)) := by
  refine ⟨rfl, by decide +kernel, exMs_dim, by unfold RateFor; decide +kernel, by decide +kernel⟩

/-- Periods. -/
example : CycleFor exMs.unit (exSec 1) ∧ FromZero (exSec 1) ∧ 0 < (exSec 1).base ∧ 0 < (exSec 10).base ∧
    getFilterUnits (.quant (exSec 1)) (.quant (exSec 10)) (some exMs) = .ok (some (1 / 10000), some (1 / 1000)) := by
  refine ⟨by unfold CycleFor; decide +kernel, rfl, by decide +kernel, by decide +kernel, by decide +kernel⟩

/-- One limit. -/
example : getFilterUnits .nothing (.quant (exSec 10)) (some exMs) = .ok (none, some (1 / 10000)) ∧
    ¬ RateFor exMs.unit exMetre ∧ ¬ CycleFor exMs.unit exMetre := by
  refine ⟨by decide +kernel, by unfold RateFor; decide +kernel, by unfold CycleFor; decide +kernel⟩

/-- An open end is not what becomes of an end further and further away: periods from any shortest one up to 10 s contain 1 Hz, periods up to
10 s do not. -/
theorem C67_open_end_violated :
    (∀ ε : ℚ, 0 < ε → ε ≤ 1 → ∃ lo hi, getFilterUnits (.quant (exSec ε)) (.quant (exSec 10)) (some secondQ) = .ok (some lo, some hi) ∧ lo ≤ 1 ∧ 1 ≤ hi) ∧
    ∃ hi, getFilterUnits .nothing (.quant (exSec 10)) (some secondQ) = .ok (none, some hi) ∧ hi < 1 := by
  refine ⟨?_, 1 / 10, by decide +kernel, by norm_num⟩
  intro ε h0 h1
  have hsd : HasDim secondQ.unit := ⟨1, by decide, by decide⟩
  have hp : 0 < (exSec ε).base := by simpa [Quant.base, exSec, secondQ] using h0
  obtain ⟨lo, hi, h2, h3⟩ := C67_cycles secondQ (exSec ε) (exSec 10) rfl (by norm_num [secondQ]) hsd rfl rfl rfl hp (by norm_num [Quant.base, exSec, secondQ])
  refine ⟨lo, hi, h2, (h3 1 one_pos).2 ?_⟩
  simp only [Quant.base, exSec, secondQ, cyclesPer]
  norm_num
  exact h1

/-- Angles have no dimension, so their rates are taken for lengths of a cycle: 2 to 5 cycles per milliradian become 1/5 to 1/2 cycles, and those per
millionth of a radian. -/
theorem C67_angle_violated :
    let mrad : PintUnit ℚ := ⟨"mrad", List.replicate 7 0, 1 / 1000, 0⟩
    let per (x : ℚ) : Quant ℚ := ⟨x, mrad.inv⟩
    RateFor mrad (per 2) ∧
    getFilterUnits (.quant (per 2)) (.quant (per 5)) (some ⟨1, mrad⟩) = .ok (some (1 / 5000000), some (1 / 2000000)) := by
  refine ⟨by unfold RateFor; decide +kernel, by decide +kernel⟩

/-- A dimension with a factor in its units cannot be filtered with units, even with those of the dimension itself. -/
theorem C67_factor_violated : getFilterUnits (.quant exMetre) (.quant exMetre) (some { exMetre with mag := 10 }) = .error .assertionError := by decide +kernel

/-! ### Sequences -/

/-- A sequence of quantities becomes one array in base units, with the amounts of all of them, exactly if they are comparable. -/
theorem C67_sequence {K : Type} [Field K] [DecidableEq K] (q : Quant K) (l : List (Quant K)) :
    ((∀ p ∈ l, Comparable p q) → ∃ xs b, quantArray (q :: l) = .ok (xs, b) ∧ IsBase q ⟨1, b⟩ ∧ List.Forall₂ (fun x p => x = amount { p with mag := 1 } p.mag) xs (q :: l)) ∧
    (¬ (∀ p ∈ l, Comparable p q) → quantArray (q :: l) = .error .unitError) := by
  have hiff : (l.all fun p => decide (p.unit.dim = q.unit.dim)) = true ↔ ∀ p ∈ l, Comparable p q := by
    simp only [List.all_eq_true, decide_eq_true_eq, Comparable]
  refine ⟨?_, ?_⟩
  · intro h
    refine ⟨(q :: l).map Quant.base, PintUnit.ofDim q.unit.dim, by simp only [quantArray]; rw [if_pos (hiff.2 h)], ⟨rfl, rfl, rfl, rfl⟩, ?_⟩
    have : ∀ l : List (Quant K), List.Forall₂ (fun x p => x = amount { p with mag := 1 } p.mag) (l.map Quant.base) l := by
      intro l
      induction l with
      | nil => exact .nil
      | cons p l ih => exact .cons (by simp only [Quant.base, amount, mul_one]) ih
    exact this _
  · intro h
    simp only [quantArray]
    rw [if_neg (fun hh => h (hiff.1 hh))]

example : quantArray [exKm, exFoot, { exMetre with mag := 7 }] = .ok ([1000, 381 / 1250, 7], PintUnit.ofDim exMetre.unit.dim) := by decide +kernel

end Verif
