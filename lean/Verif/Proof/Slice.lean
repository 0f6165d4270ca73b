import Verif.Model.Num
import Mathlib.Tactic.Linarith
import Mathlib.Tactic.Ring
import Mathlib.Data.List.Basic
/-! Lemmas on Python slices and list indexing. -/
namespace Verif

theorem indices_bounds {s : PySlice} {n : ℕ} {r : PyRange} (h : s.indices n = .ok r) :
    r.step ≠ 0 ∧ ∀ i : ℕ, i < r.len → 0 ≤ r.start + i * r.step ∧ r.start + i * r.step < n := by
  unfold PySlice.indices at h
  simp only at h
  by_cases h0 : s.step.getD 1 = 0
  · simp [h0] at h
  rw [if_neg h0] at h
  by_cases hpos : 0 < s.step.getD 1
  · rw [if_pos hpos] at h
    cases h
    refine ⟨h0, ?_⟩
    intro i hi
    simp only at hi ⊢
    generalize hstep : s.step.getD 1 = step at *
    set a := (s.start.map (clipBound n 0 n)).getD 0 with ha
    set b := (s.stop.map (clipBound n 0 n)).getD (n : ℤ) with hb
    have ha0 : 0 ≤ a := by
      rw [ha]; cases s.start <;> simp [clipBound]; split_ifs <;> omega
    have hbn : b ≤ n := by
      rw [hb]; cases s.stop <;> simp [clipBound]; split_ifs <;> omega
    split_ifs at hi with hab
    · have h1 : (i : ℤ) ≤ (b - a - 1) / step := by omega
      have h2 : (i : ℤ) * step ≤ b - a - 1 := by
        have := Int.ediv_mul_le (b - a - 1) h0
        nlinarith
      have h3 : 0 ≤ (i : ℤ) * step := by positivity
      omega
    · omega
  · rw [if_neg hpos] at h
    cases h
    refine ⟨h0, ?_⟩
    intro i hi
    simp only at hi ⊢
    generalize hstep : s.step.getD 1 = step at *
    set a := (s.start.map (clipBound n (-1) (n - 1))).getD ((n : ℤ) - 1) with ha
    set b := (s.stop.map (clipBound n (-1) (n - 1))).getD (-1) with hb
    have han : a ≤ n - 1 := by
      rw [ha]; cases s.start <;> simp [clipBound]; split_ifs <;> omega
    have hb0 : -1 ≤ b := by
      rw [hb]; cases s.stop <;> simp [clipBound]; split_ifs <;> omega
    split_ifs at hi with hab
    · have hneg : 0 < -step := by omega
      have h1 : (i : ℤ) ≤ (a - b - 1) / (-step) := by omega
      have h2 : (i : ℤ) * (-step) ≤ a - b - 1 := by
        have := Int.ediv_mul_le (a - b - 1) (b := -step) (by omega)
        nlinarith
      have h3 : 0 ≤ (i : ℤ) * (-step) := by positivity
      have h4 : (i : ℤ) * (-step) = - (i * step) := by ring
      omega
    · omega

theorem indices_error {s : PySlice} {n : ℕ} :
    s.indices n = .error .valueError ↔ s.step = some 0 := by
  unfold PySlice.indices
  simp only
  cases hs : s.step with
  | none => simp
  | some k =>
    simp only [Option.getD_some]
    split_ifs with h0 <;> simp [h0]

theorem indices_ok_or {s : PySlice} (n : ℕ) (h : s.step ≠ some 0) : ∃ r, s.indices n = .ok r := by
  unfold PySlice.indices
  simp only
  cases hs : s.step with
  | none => simp
  | some k =>
    have hk : k ≠ 0 := by rintro rfl; exact h hs
    simp only [Option.getD_some, hk, if_false]
    split_ifs <;> exact ⟨_, rfl⟩

theorem takeIdx_of_lt {α} {l : List α} {ix : List ℕ} (h : ∀ i ∈ ix, i < l.length) :
    (takeIdx l ix).map some = ix.map (l[·]?) := by
  unfold takeIdx
  induction ix with
  | nil => rfl
  | cons i ix ih =>
    have hi := h i (by simp)
    rw [List.filterMap_cons, List.getElem?_eq_getElem hi]
    simp only [List.map_cons, List.getElem?_eq_getElem hi]
    rw [ih (fun j hj => h j (by simp [hj]))]

theorem takeIdx_map_range {α} {f : ℕ → α} {n : ℕ} {ix : List ℕ} (h : ∀ i ∈ ix, i < n) :
    takeIdx ((List.range n).map f) ix = ix.map f := by
  have := takeIdx_of_lt (l := (List.range n).map f) (ix := ix) (by simpa using h)
  apply List.map_injective_iff.2 (Option.some_injective α)
  rw [this, List.map_map]
  apply List.map_congr_left
  intro i hi
  simp [h i hi]

theorem takeIdx_append {α} (l : List α) (a b : List ℕ) :
    takeIdx l (a ++ b) = takeIdx l a ++ takeIdx l b := by simp [takeIdx]

theorem takeIdx_range' {α} (l : List α) (a k : ℕ) :
    takeIdx l (List.range' a k) = (l.drop a).take k := by
  induction k generalizing a with
  | zero => simp [takeIdx]
  | succ k ih =>
    rw [List.range'_succ]
    by_cases h : a < l.length
    · have : takeIdx l (a :: List.range' (a + 1) k) = l[a] :: takeIdx l (List.range' (a + 1) k) := by
        simp [takeIdx, List.getElem?_eq_getElem h]
      rw [this, ih, List.drop_eq_getElem_cons h, List.take_succ_cons]
    · have : takeIdx l (a :: List.range' (a + 1) k) = takeIdx l (List.range' (a + 1) k) := by
        simp [takeIdx, List.getElem?_eq_none (not_lt.1 h)]
      rw [this, ih, List.drop_eq_nil_of_le (by omega), List.drop_eq_nil_of_le (by omega)]
      simp

/-- A unit-step slice with explicit bounds already in range. -/
theorem pySlice_unit {α} (l : List α) (a b : ℕ) (start stop : Option ℤ)
    (ha : (start.map (clipBound l.length 0 l.length)).getD 0 = a)
    (hb : (stop.map (clipBound l.length 0 l.length)).getD l.length = b) :
    pySlice l ⟨start, stop, none⟩ = .ok ((l.drop a).take (b - a)) := by
  unfold pySlice PySlice.indices
  simp only [Option.getD_none]
  rw [if_neg (by omega), if_pos (by omega), ha, hb]
  simp only [bind, Except.bind, pure, Except.pure]
  congr 1
  have : (PyRange.toList ⟨a, 1, if (a : ℤ) < b then (((b : ℤ) - a - 1) / 1 + 1).toNat else 0⟩).map Int.toNat
      = List.range' a (b - a) := by
    unfold PyRange.toList
    simp only [List.map_map]
    have hlen : (if (a : ℤ) < b then (((b : ℤ) - a - 1) / 1 + 1).toNat else 0) = b - a := by
      split_ifs <;> omega
    rw [hlen]
    apply List.ext_getElem
    · simp
    · intro i h1 h2
      simp
      omega
  rw [this, takeIdx_range']

/-- `l[:]` is `l`. -/
theorem pySlice_all {α} (l : List α) : pySlice l {} = .ok l := by
  have := pySlice_unit l 0 l.length none none (by simp) (by simp)
  simpa using this

/-- `l[::-1]` is the reverse of `l`. -/
theorem pySlice_reverse {α} (l : List α) : pySlice l ⟨none, none, some (-1)⟩ = .ok l.reverse := by
  unfold pySlice PySlice.indices
  simp only [Option.getD_some, Option.map_none, Option.getD_none]
  rw [if_neg (by omega), if_neg (by omega)]
  simp only [bind, Except.bind, pure, Except.pure]
  congr 1
  have hlen : (if (-1 : ℤ) < (l.length : ℤ) - 1 then
      (((l.length : ℤ) - 1 - -1 - 1) / (- -1) + 1).toNat else 0) = l.length := by
    rw [neg_neg, Int.ediv_one]
    split_ifs <;> omega
  rw [hlen]
  apply List.map_injective_iff.2 (Option.some_injective α)
  rw [takeIdx_of_lt]
  · unfold PyRange.toList
    apply List.ext_getElem
    · simp
    · intro i h1 h2
      simp only [List.length_map, List.length_range] at h1
      simp only [List.map_map, List.getElem_map, List.getElem_range, Function.comp_apply,
        List.getElem_reverse]
      have : ((l.length : ℤ) - 1 + (i : ℤ) * -1).toNat = l.length - 1 - i := by omega
      rw [this, List.getElem?_eq_getElem]
  · intro i hi
    unfold PyRange.toList at hi
    simp only [List.map_map, List.mem_map, List.mem_range, Function.comp_apply] at hi
    obtain ⟨j, hj, rfl⟩ := hi
    omega

/-- The elements `lo ≤ i ≤ hi` of `0, 1, ..., n-1`. -/
theorem filter_range_interval (n : ℕ) (p : ℕ → Bool) (a b : ℕ) (hb : b ≤ n)
    (hp : ∀ i, i < n → (p i = true ↔ a ≤ i ∧ i < b)) :
    (List.range n).filter p = List.range' a (b - a) := by
  induction n generalizing b with
  | zero =>
    have : b = 0 := by omega
    subst this; simp
  | succ n ih =>
    rw [List.range_succ, List.filter_append]
    by_cases hbn : b = n + 1
    · subst hbn
      have h1 : ∀ i, i < n → (p i = true ↔ a ≤ i ∧ i < n) := by
        intro i hi; rw [hp i (by omega)]; omega
      rw [ih n (le_refl _) h1]
      have hpn := hp n (by omega)
      by_cases han : a ≤ n
      · have : p n = true := hpn.2 ⟨han, by omega⟩
        simp only [List.filter_cons, this, if_true, List.filter_nil]
        have e : n + 1 - a = (n - a) + 1 := by omega
        rw [e, List.range'_concat]
        congr 2; omega
      · have : p n = false := by
          cases h : p n with
          | false => rfl
          | true => exact absurd (hpn.1 h).1 han
        have e1 : n - a = 0 := by omega
        have e2 : n + 1 - a = 0 := by omega
        simp [this, e1, e2]
    · have hpn := hp n (by omega)
      have : p n = false := by
        cases h : p n with
        | false => rfl
        | true => have := (hpn.1 h).2; omega
      have h1 : ∀ i, i < n → (p i = true ↔ a ≤ i ∧ i < b) := by
        intro i hi; rw [hp i (by omega)]
      rw [ih b (by omega) h1]
      simp [this]

end Verif
