import Verif.Model.Chunk
import Verif.Proof.Order
import Verif.Spec.Chunk
import Mathlib.Tactic.Positivity
/-! Lemmas for chunking. -/
namespace Verif

/-- Filtering `range n` by a predicate equivalent to `i < m`. -/
theorem filter_range_lt (n m : ℕ) (p : ℕ → Bool) (h : ∀ i < n, p i = true ↔ i < m) :
    (List.range n).filter p = List.range (min n m) := by
  have h1 : (List.range n).filter p = (List.range n).filter fun i => decide (i < m) := by
    apply List.filter_congr
    intro i hi
    have := h i (List.mem_range.1 hi)
    by_cases hm : i < m
    · simp [hm, this.2 hm]
    · simp only [hm, decide_false]
      cases hp : p i
      · rfl
      · exact absurd (this.1 hp) hm
  rw [h1]
  clear h h1
  induction n with
  | zero => simp
  | succ n ih =>
    rw [List.range_succ, List.filter_append, ih]
    by_cases hm : n < m
    · rw [min_eq_left hm.le, min_eq_left (show n + 1 ≤ m by omega), List.range_succ]
      simp [hm]
    · rw [min_eq_right (not_lt.1 hm), min_eq_right (show m ≤ n + 1 by omega)]
      simp [hm]

/-- Number of `i` with `start + i * ns ≤ top`. -/
def cntLe (start ns top : ℚ) : ℕ := (⌊(top - start) / ns⌋ + 1).toNat

theorem lt_cntLe {start ns top : ℚ} (h : 0 < ns) (i : ℕ) :
    i < cntLe start ns top ↔ start + (i : ℚ) * ns ≤ top := by
  unfold cntLe
  rw [Int.lt_toNat]
  have : ((i : ℤ) < ⌊(top - start) / ns⌋ + 1) ↔ (i : ℤ) ≤ ⌊(top - start) / ns⌋ := by omega
  rw [this, Int.le_floor, le_div_iff₀ h]
  push_cast
  constructor <;> intro _ <;> linarith

theorem reference_eq {start stop ns d : ℚ} (hns : 0 < ns) (hd : 0 ≤ d) :
    (arangeQ start (stop + ns) ns).filter (fun x => decide (x + d ≤ stop)) =
      (List.range (cntLe start ns (stop - d))).map fun i : ℕ => start + (i : ℚ) * ns := by
  unfold arangeQ
  rw [List.filter_map, filter_range_lt _ (cntLe start ns (stop - d))]
  · rw [min_eq_right]
    by_contra hcon
    push Not at hcon
    rw [lt_cntLe hns] at hcon
    have h1 : ((stop + ns - start) / ns) ≤ (⌈(stop + ns - start) / ns⌉.toNat : ℚ) := by
      have := Int.le_ceil ((stop + ns - start) / ns)
      have h2 : ((⌈(stop + ns - start) / ns⌉ : ℤ) : ℚ) ≤ ((⌈(stop + ns - start) / ns⌉.toNat : ℤ) : ℚ) := by
        exact_mod_cast Int.self_le_toNat _
      push_cast at h2
      linarith
    rw [div_le_iff₀ hns] at h1
    linarith
  · intro i _
    rw [lt_cntLe hns]
    simp only [Function.comp_apply, decide_eq_true_eq]
    constructor <;> intro _ <;> linarith

theorem getIntervals_keep {start stop L V d : ℚ} (hV : V < L) (hd : 0 ≤ d) :
    getIntervals start stop (some L) (some V) (some d) true =
      .ok ((List.range (cntLe start (L - V) (stop - d))).map fun i : ℕ =>
        (start + (i : ℚ) * (L - V), min (start + (i : ℚ) * (L - V) + L - d) stop)) := by
  have hns : 0 < L - V := by linarith
  unfold getIntervals
  simp only [Option.getD_some, not_lt.2 hV.le, if_false, Bool.not_true, Bool.and_false, Bool.false_eq_true, hns.ne', if_true,
    reference_eq hns hd]
  congr 1
  rw [List.map_map, List.map_map]
  apply List.map_congr_left
  intro i _
  simp only [Function.comp_apply, Prod.mk.injEq, true_and]
  split_ifs with h
  · rw [min_eq_right h.le]
  · rw [min_eq_left (not_lt.1 h)]

theorem getIntervals_full {start stop L V d : ℚ} (hV : V < L) (hd : 0 ≤ d) (hdur : L ≤ stop - start + d) :
    getIntervals start stop (some L) (some V) (some d) false =
      .ok ((List.range (min (cntLe start (L - V) (stop - d)) (cntLe start (L - V) (stop - L + d)))).map fun i : ℕ =>
        (start + (i : ℚ) * (L - V), start + (i : ℚ) * (L - V) + L - d)) := by
  have hns : 0 < L - V := by linarith
  unfold getIntervals
  simp only [Option.getD_some, not_lt.2 hV.le, if_false, Bool.false_eq_true, hns.ne',
    not_lt.2 hdur, decide_false, Bool.false_and, reference_eq hns hd]
  congr 1
  rw [List.map_map, List.filter_map, filter_range_lt _ (cntLe start (L - V) (stop - L + d))]
  · rfl
  · intro i _
    rw [lt_cntLe hns]
    simp only [Function.comp_apply, decide_eq_true_eq]
    constructor <;> intro _ <;> linarith

/-! ### continuity groups -/

/-- Row `k` starts after the running maximum `mx` and after everything before it. -/
def GapAt (tol mx : ℚ) (rs : List Row) (k : ℕ) : Prop :=
  ∃ r, rs[k]? = some r ∧ mx + r.step * tol < r.lo ∧ ∀ q < k, ∀ s, rs[q]? = some s → s.hi + r.step * tol < r.lo

theorem gapAt_succ (tol mx : ℚ) (r : Row) (rs : List Row) (k : ℕ) :
    GapAt tol mx (r :: rs) (k + 1) ↔ GapAt tol (max mx r.hi) rs k := by
  unfold GapAt
  simp only [List.getElem?_cons_succ]
  apply exists_congr
  intro s
  apply and_congr_right
  intro _
  have hmax : max mx r.hi + s.step * tol < s.lo ↔ mx + s.step * tol < s.lo ∧ r.hi + s.step * tol < s.lo := by
    rw [← lt_sub_iff_add_lt, max_lt_iff, lt_sub_iff_add_lt, lt_sub_iff_add_lt]
  rw [hmax]
  constructor
  · rintro ⟨h1, h2⟩
    refine ⟨⟨h1, h2 0 (by omega) r rfl⟩, fun q hq t ht => h2 (q + 1) (by omega) t (by simpa using ht)⟩
  · rintro ⟨⟨h1, h2⟩, h3⟩
    refine ⟨h1, fun q hq t ht => ?_⟩
    cases q with
    | zero => simp at ht; subst ht; exact h2
    | succ q => exact h3 q (by omega) t (by simpa using ht)

theorem gapAt_zero (tol mx : ℚ) (r : Row) (rs : List Row) :
    GapAt tol mx (r :: rs) 0 ↔ mx + r.step * tol < r.lo := by
  unfold GapAt
  simp

theorem contFrom_length (tol mx : ℚ) (g : ℕ) (rs : List Row) : (contFrom tol mx g rs).length = rs.length := by
  induction rs generalizing mx g with
  | nil => rfl
  | cons r rs ih => simp [contFrom, ih]

theorem contFrom_base (tol : ℚ) (rs : List Row) : ∀ (mx : ℚ) (g j : ℕ), j < rs.length →
    g ≤ (contFrom tol mx g rs).getD j 0 ∧
    ((contFrom tol mx g rs).getD j 0 = g ↔ ∀ k ≤ j, ¬ GapAt tol mx rs k) := by
  induction rs with
  | nil => intro mx g j hj; simp at hj
  | cons r rs ih =>
    intro mx g j hj
    simp only [contFrom]
    cases j with
    | zero =>
      simp only [List.getD_cons_zero]
      constructor
      · split_ifs <;> omega
      · constructor
        · intro h k hk
          have : k = 0 := by omega
          subst this
          rw [gapAt_zero]
          intro hg
          rw [if_pos hg] at h; omega
        · intro h
          have := h 0 le_rfl
          rw [gapAt_zero] at this
          rw [if_neg this]
    | succ j =>
      simp only [List.getD_cons_succ]
      obtain ⟨h1, h2⟩ := ih (max mx r.hi) (if mx + r.step * tol < r.lo then g + 1 else g) j (by simpa using hj)
      by_cases hg : mx + r.step * tol < r.lo
      · rw [if_pos hg] at h1 h2 ⊢
        refine ⟨by omega, ⟨fun h => by omega, fun h => absurd ((gapAt_zero tol mx r rs).2 hg) (h 0 (by omega))⟩⟩
      · rw [if_neg hg] at h1 h2 ⊢
        refine ⟨h1, h2.trans ?_⟩
        constructor
        · intro h k hk
          cases k with
          | zero => rw [gapAt_zero]; exact hg
          | succ k => rw [gapAt_succ]; exact h k (by omega)
        · intro h k hk
          rw [← gapAt_succ]
          exact h (k + 1) (by omega)

theorem contFrom_pair (tol : ℚ) (rs : List Row) : ∀ (mx : ℚ) (g i j : ℕ), i ≤ j → j < rs.length →
    ((contFrom tol mx g rs).getD i 0 = (contFrom tol mx g rs).getD j 0 ↔
      ∀ k, i < k → k ≤ j → ¬ GapAt tol mx rs k) := by
  induction rs with
  | nil => intro mx g i j _ hj; simp at hj
  | cons r rs ih =>
    intro mx g i j hij hj
    simp only [contFrom]
    cases j with
    | zero =>
      have : i = 0 := by omega
      subst this
      simp only [true_iff]
      intro k h1 h2; omega
    | succ j =>
      cases i with
      | zero =>
        simp only [List.getD_cons_zero, List.getD_cons_succ]
        rw [eq_comm]
        have := (contFrom_base tol rs (max mx r.hi) (if mx + r.step * tol < r.lo then g + 1 else g) j (by simpa using hj)).2
        rw [this]
        constructor
        · intro h k h1 h2
          obtain ⟨k, rfl⟩ : ∃ m, k = m + 1 := ⟨k - 1, by omega⟩
          rw [gapAt_succ]; exact h k (by omega)
        · intro h k hk
          rw [← gapAt_succ]; exact h (k + 1) (by omega) (by omega)
      | succ i =>
        simp only [List.getD_cons_succ]
        rw [ih _ _ i j (by omega) (by simpa using hj)]
        constructor
        · intro h k h1 h2
          obtain ⟨k, rfl⟩ : ∃ m, k = m + 1 := ⟨k - 1, by omega⟩
          rw [gapAt_succ]; exact h k (by omega) (by omega)
        · intro h k h1 h2
          rw [← gapAt_succ]; exact h (k + 1) (by omega) (by omega)

/-- Row `k` starts later than everything before it reaches. -/
def GapIn (tol : ℚ) (rs : List Row) (k : ℕ) : Prop :=
  ∃ r, rs[k]? = some r ∧ ∀ q < k, ∀ s, rs[q]? = some s → s.hi + r.step * tol < r.lo

theorem contSorted_pair (tol : ℚ) (rs : List Row) (i j : ℕ) (hij : i ≤ j) (hj : j < rs.length) :
    ((contSorted tol rs).getD i 0 = (contSorted tol rs).getD j 0 ↔ ∀ k, i < k → k ≤ j → ¬ GapIn tol rs k) := by
  match rs, hj with
  | r :: rs, hj =>
    have key : ∀ k, GapIn tol (r :: rs) (k + 1) ↔ GapAt tol r.hi rs k := by
      intro k
      unfold GapIn GapAt
      simp only [List.getElem?_cons_succ]
      apply exists_congr
      intro s
      apply and_congr_right
      intro _
      constructor
      · intro h
        exact ⟨h 0 (by omega) r rfl, fun q hq t ht => h (q + 1) (by omega) t (by simpa using ht)⟩
      · rintro ⟨h1, h2⟩ q hq t ht
        cases q with
        | zero => simp at ht; subst ht; exact h1
        | succ q => exact h2 q (by omega) t (by simpa using ht)
    simp only [contSorted]
    cases j with
    | zero =>
      have : i = 0 := by omega
      subst this
      simp only [true_iff]
      intro k h1 h2; omega
    | succ j =>
      cases i with
      | zero =>
        simp only [List.getD_cons_zero, List.getD_cons_succ]
        rw [eq_comm, (contFrom_base tol rs r.hi 0 j (by simpa using hj)).2]
        constructor
        · intro h k h1 h2
          obtain ⟨k, rfl⟩ : ∃ m, k = m + 1 := ⟨k - 1, by omega⟩
          rw [key]; exact h k (by omega)
        · intro h k hk
          rw [← key]; exact h (k + 1) (by omega) (by omega)
      | succ i =>
        simp only [List.getD_cons_succ]
        rw [contFrom_pair tol rs _ _ i j (by omega) (by simpa using hj)]
        constructor
        · intro h k h1 h2
          obtain ⟨k, rfl⟩ : ∃ m, k = m + 1 := ⟨k - 1, by omega⟩
          rw [key]; exact h k (by omega) (by omega)
        · intro h k h1 h2
          rw [← key]; exact h (k + 1) (by omega) (by omega)

end Verif
