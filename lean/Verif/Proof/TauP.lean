import Verif.Spec.TauP
import Verif.Spec.Resample
import Verif.Proof.Arith
import Verif.Proof.Query
import Mathlib.Tactic.FieldSimp
import Mathlib.Tactic.LinearCombination
import Mathlib.Algebra.BigOperators.Intervals
/-! # Helper lemmas for the tau-p transform -/
namespace Verif
open Spec

theorem sum_list_range (n : ℕ) (f : ℕ → ℚ) : ((List.range n).map f).sum = ∑ i ∈ Finset.range n, f i := rfl

/-- A patch of distance and time with evenly sampled times. -/
structure Section (p : PatchM ℚ) (nx : ℕ) (k : Kind) (r : RangeCoord) : Prop where
  dims : p.cm.dims = ["distance", "time"]
  shape : p.data.shape = [nx, r.len]
  time : p.cm.ents.get? "time" = some (["time"], .one k (.range r))
  valid : r.Valid
  up : 0 < r.step

theorem section_time {p : PatchM ℚ} {nx : ℕ} {k : Kind} {r : RangeCoord} (h : Section p nx k r) (i l : ℕ) :
    label p "time" [i, l] = some (if l < r.len then some (r.start + l * r.step) else none) := by
  rw [label_dim h.time]
  unfold posAlong
  rw [h.dims]
  have : List.getD [i, l] (List.idxOf "time" ["distance", "time"]) 0 = l := rfl
  rw [this]
  change some ((r.values.map some).getD l none) = _
  rw [List.getD_eq_getElem?_getD, List.getElem?_map, h.valid.getElem?_values]
  split_ifs <;> rfl

theorem section_dist {p : PatchM ℚ} {nx : ℕ} {k : Kind} {r : RangeCoord} (h : Section p nx k r) {kd : Kind} {c : Coord}
    (hc : p.cm.ents.get? "distance" = some (["distance"], .one kd c)) (i l : ℕ) :
    label p "distance" [i, l] = some (c.labels.getD i none) := by
  rw [label_dim hc]
  unfold posAlong
  rw [h.dims]
  rfl

theorem inRange_two {a b i j : ℕ} : InRange [a, b] [i, j] ↔ i < a ∧ j < b := by
  unfold InRange
  rw [List.forall₂_cons, List.forall₂_cons]
  simp

/-- One summand. -/
theorem term_trace {p : PatchM ℚ} {nx : ℕ} {k : Kind} {r : RangeCoord} (h : Section p nx k r) {i : ℕ} (hi : i < nx) {s : ℚ} (hs : 0 ≤ s) :
    TraceAt p i (r.start + s * r.step) (taupTerm (fun t => p.data.get [i, t]) r.len s (truncZ s)) := by
  have htr : truncZ s = ⌊s⌋ := if_pos hs
  have hf0 : 0 ≤ ⌊s⌋ := Int.floor_nonneg.2 hs
  have hfl := Int.floor_le s
  have hfu := Int.lt_floor_add_one s
  rw [htr]
  obtain ⟨l, hl⟩ := Int.eq_ofNat_of_zero_le hf0
  have hup := h.up
  rw [hl] at hfl hfu ⊢
  simp only [Int.cast_natCast] at hfl hfu
  unfold taupTerm
  split_ifs with hlt
  · have hlt' : l + 1 < r.len := by exact_mod_cast hlt
    left
    refine ⟨l, r.start + l * r.step, r.start + (l + 1 : ℕ) * r.step, ?_, ?_, ?_, ?_, ?_, ?_⟩
    · rw [h.shape, inRange_two]; exact ⟨hi, hlt'⟩
    · rw [section_time h, if_pos (by omega)]
    · rw [section_time h, if_pos hlt']
    · have := mul_le_mul_of_nonneg_right hfl hup.le
      linarith
    · push_cast
      have := mul_lt_mul_of_pos_right hfu hup
      linarith
    · have e1 : pyAt (fun t => p.data.get [i, t]) r.len (l : ℤ) = p.data.get [i, l] := by
        unfold pyAt; rw [if_neg (by omega)]; simp
      have e2 : pyAt (fun t => p.data.get [i, t]) r.len ((l : ℤ) + 1) = p.data.get [i, l + 1] := by
        unfold pyAt; rw [if_neg (by omega)]; congr 2
      rw [e1, e2]
      have hne := h.valid.step_ne
      have : (r.start + s * r.step - (r.start + (l : ℚ) * r.step)) / (r.start + ((l + 1 : ℕ) : ℚ) * r.step - (r.start + (l : ℚ) * r.step)) = s - l := by
        rw [div_eq_iff]
        · push_cast; ring
        · push_cast
          intro h0; apply hne; linarith
      rw [this]
      push_cast
      ring
  · right
    refine ⟨?_, rfl⟩
    intro l' a hin ha
    rw [h.shape, inRange_two] at hin
    rw [section_time h, if_pos hin.2] at ha
    simp only [Option.some.injEq] at ha
    rw [← ha]
    have : (l' : ℚ) ≤ l := by
      have : l' ≤ l := by have := hin.2; omega
      exact_mod_cast this
    have := mul_le_mul_of_nonneg_right (this.trans hfl) hup.le
    linarith

theorem stepFloat_second (k : Kind) (x : ℚ) : stepFloat k x = x / secondOf k := by
  unfold stepFloat secondOf
  split_ifs <;> simp

theorem secondOf_pos (k : Kind) : 0 < secondOf k := by
  unfold secondOf; split_ifs <;> norm_num

/-- The sum over all traces, for any lags. -/
theorem slant_sum {p : PatchM ℚ} {nx : ℕ} {k : Kind} {r : RangeCoord} (h : Section p nx k r) {kd : Kind} {c : Coord}
    (hc : p.cm.ents.get? "distance" = some (["distance"], .one kd c)) (x : ℕ → ℚ) (hx : ∀ i < nx, c.labels[i]? = some (some (x i)))
    {e : ℕ} (he : e < nx) {s : ℚ} (hs : ∀ i < nx, 0 ≤ s * (x i - x e)) {j : ℕ} {out : ℚ}
    (hout : out = ∑ i ∈ Finset.range nx, taupTerm (fun t => p.data.get [i, t]) r.len ((j : ℚ) + s * (x i - x e) / stepFloat k r.step)
      (truncZ ((j : ℚ) + s * (x i - x e) / stepFloat k r.step))) :
    SlantSum p (secondOf k) s (r.start + j * r.step) out := by
  refine ⟨nx, x, _, e, by rw [h.shape]; rfl, he, ?_, hout⟩
  intro i hi
  refine ⟨?_, hs i hi, ?_⟩
  · rw [section_dist h hc, List.getD_eq_getElem?_getD, hx i hi]; rfl
  · have hsec := secondOf_pos k
    have hne := h.valid.step_ne
    have hst : 0 ≤ (j : ℚ) + s * (x i - x e) / stepFloat k r.step := by
      have : 0 < stepFloat k r.step := by rw [stepFloat_second]; exact div_pos h.up hsec
      have := div_nonneg (hs i hi) this.le
      positivity
    have := term_trace h hi hst
    have e2 : r.start + (j : ℚ) * r.step + s * (x i - x e) * secondOf k =
        r.start + ((j : ℚ) + s * (x i - x e) / stepFloat k r.step) * r.step := by
      rw [stepFloat_second]
      field_simp
      ring
    rw [e2]
    exact this

end Verif
