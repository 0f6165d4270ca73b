import Verif.Proof.Units
import Mathlib.Algebra.Order.Field.Basic
import Mathlib.Tactic.Positivity
/-!
# Facts about the limits of filters
-/
namespace Verif
open Spec

section
variable {K : Type} [Field K] [DecidableEq K]

theorem neg_dim_ne {d : List ℤ} (h : ∃ e ∈ d, e ≠ 0) : d ≠ d.map (- ·) := by
  intro hd
  obtain ⟨e, he, hne⟩ := h
  obtain ⟨i, hi, rfl⟩ := List.getElem_of_mem he
  have h1 : d[i]? = (d.map (- ·))[i]? := by rw [← hd]
  rw [List.getElem?_map, List.getElem?_eq_getElem hi, Option.map_some, Option.some_inj] at h1
  omega

omit [DecidableEq K] in
theorem plain_dim_zero {e : ℤ} (h : e ∈ (PintUnit.plain : PintUnit K).dim) : e = 0 := List.eq_of_mem_replicate h

omit [DecidableEq K] in
theorem rate_not_plain {u : PintUnit K} (hu : HasDim u) {q : Quant K} (hq : RateFor u q) : q.unit ≠ PintUnit.plain := by
  intro h
  obtain ⟨e, he, hne⟩ := hu
  have h1 : -e ∈ q.unit.dim := by rw [show q.unit.dim = _ from hq]; exact List.mem_map_of_mem he
  rw [h] at h1
  have := plain_dim_zero h1
  omega

omit [DecidableEq K] in
theorem cycle_not_plain {u : PintUnit K} (hu : HasDim u) {q : Quant K} (hq : CycleFor u q) : q.unit ≠ PintUnit.plain := by
  intro h
  obtain ⟨e, he, hne⟩ := hu
  have h1 : e ∈ q.unit.dim := by rw [show q.unit.dim = _ from hq]; exact he
  rw [h] at h1
  exact hne (plain_dim_zero h1)

theorem inverted_rate {u : PintUnit K} (hu : HasDim u) {q : Quant K} (hq : RateFor u q) :
    invertedQuant (some q) u = .ok (some (q.base / u.scale⁻¹), true) := by
  have h1 : u.dim ≠ q.unit.dim := by rw [show q.unit.dim = _ from hq]; exact neg_dim_ne hu
  have h2 : q.unit.dim = u.inv.dim := hq
  simp only [invertedQuant, if_neg (rate_not_plain hu hq), if_neg h1, Quant.to, if_pos h2, Except.map]
  simp only [PintUnit.inv, sub_zero]

theorem inverted_cycle {u : PintUnit K} (hu : HasDim u) {q : Quant K} (hq : CycleFor u q) (hm : q.mag ≠ 0) :
    invertedQuant (some q) u = .ok (some (1 / q.mag * q.unit.scale⁻¹ / u.scale⁻¹), false) := by
  have h1 : u.dim = q.unit.dim := Eq.symm hq
  have h2 : q.unit.inv.dim = u.inv.dim := by simp only [PintUnit.inv, h1]
  simp only [invertedQuant, if_neg (cycle_not_plain hu hq), if_pos h1, if_neg hm, Quant.to, if_pos h2, Except.map]
  simp only [PintUnit.inv, Quant.base, sub_zero, add_zero]

theorem inverted_none (u : PintUnit K) : invertedQuant none u = .ok (none, true) := rfl

theorem inverted_other {u : PintUnit K} {q : Quant K} (h1 : ¬ RateFor u q) (h2 : ¬ CycleFor u q) : invertedQuant (some q) u = .error .unitError := by
  have h3 : ¬ u.dim = q.unit.dim := fun h => h2 h.symm
  have h4 : ¬ q.unit.dim = u.inv.dim := h1
  simp only [invertedQuant, if_neg h3, Quant.to, if_neg h4, Except.map, ite_self]

theorem filter_of {a b : FLimit K} {u : Quant K} (hq : a.isQuant = true ∨ b.isQuant = true) (hm : u.mag = 1) :
    getFilterUnits a b (some u) = filterLimits a.toQuant b.toQuant u.unit := by
  have : (!(a.isQuant || b.isQuant)) = false := by rcases hq with h | h <;> simp [h]
  simp only [getFilterUnits, this, hm, if_true, Bool.false_eq_true, if_false]

end

section
variable {K : Type} [Field K] [LinearOrder K] [IsStrictOrderedRing K]

omit [IsStrictOrderedRing K] in
theorem cyclesPer_rate {u : PintUnit K} (hs : 0 < u.scale) (x : K) : cyclesPer u (x / u.scale⁻¹) = x := by
  simp only [cyclesPer]
  field_simp

theorem cyclesPer_le {u : PintUnit K} (hs : 0 < u.scale) {x y : K} : cyclesPer u x ≤ cyclesPer u y ↔ x ≤ y := div_le_div_iff_of_pos_right hs

theorem cyclesPer_pos {u : PintUnit K} (hs : 0 < u.scale) {x : K} : 0 < cyclesPer u x ↔ 0 < x := div_pos_iff_of_pos_right hs

omit [IsStrictOrderedRing K] in
theorem cyclesPer_cycle {u : PintUnit K} (hs : 0 < u.scale) {q : Quant K} (h0 : FromZero q) :
    cyclesPer u (1 / q.mag * q.unit.scale⁻¹ / u.scale⁻¹) = 1 / q.base := by
  have h0' : q.unit.offset = 0 := h0
  simp only [cyclesPer, Quant.base, h0', add_zero]
  field_simp

end

end Verif
