import Verif.Proof.Chunk
import Verif.Props.CoordArray
/-!
# Properties C20 - C24, C28: chunk intervals, continuity groups, overlaps, instructions, merge buffer, split
-/
namespace Verif
open Spec

/-! ### C20: get_intervals -/

/-- **C20**, shape of the result: the `i`-th interval starts at `start + i (length - overlap)` and ends
`length - step` later (so it spans exactly `length` counting the sampling interval, and consecutive full
intervals share exactly `overlap`); with `keep_partials` the end is cut at `stop`. The intervals present are
exactly those starting at least one `step` before `stop` and, without `keep_partials`, ending by `stop`. -/
theorem C20_intervals (start stop L V d : ℚ) (keep : Bool) (hV : V < L) (hd : 0 ≤ d)
    (hdur : keep = true ∨ L ≤ stop - start + d) :
    ∃ n, getIntervals start stop (some L) (some V) (some d) keep =
        .ok ((List.range n).map fun i : ℕ => (start + (i : ℚ) * (L - V),
          if keep then min (start + (i : ℚ) * (L - V) + L - d) stop else start + (i : ℚ) * (L - V) + L - d)) ∧
      ∀ i : ℕ, i < n ↔ start + (i : ℚ) * (L - V) + d ≤ stop ∧
        (keep = true ∨ start + (i : ℚ) * (L - V) + L - d ≤ stop) := by
  have hns : 0 < L - V := by linarith
  cases keep with
  | true =>
    refine ⟨_, by simpa using getIntervals_keep hV hd, ?_⟩
    intro i
    rw [lt_cntLe hns]
    constructor
    · intro h; exact ⟨by linarith, Or.inl rfl⟩
    · rintro ⟨h, _⟩; linarith
  | false =>
    have hdur : L ≤ stop - start + d := by simpa using hdur
    refine ⟨_, by simpa using getIntervals_full hV hd hdur, ?_⟩
    intro i
    rw [lt_min_iff, lt_cntLe hns, lt_cntLe hns]
    constructor
    · rintro ⟨h1, h2⟩; exact ⟨by linarith, Or.inr (by linarith)⟩
    · rintro ⟨h1, h2⟩
      rcases h2 with h2 | h2
      · cases h2
      · exact ⟨by linarith, by linarith⟩
example : getIntervals 0 10 (some 4) (some 1) (some 1) true = .ok [(0, 3), (3, 6), (6, 9), (9, 10)] := by
  decide +kernel

/-- **C20**: every interval lies in `[start, stop]` and is not inverted, provided the chunk is at least one
sampling step long. -/
theorem C20_within (start stop L V d : ℚ) (keep : Bool) (hV : V < L) (hd : 0 ≤ d) (hL : d ≤ L) (ivs : List (ℚ × ℚ))
    (h : getIntervals start stop (some L) (some V) (some d) keep = .ok ivs) :
    ∀ p ∈ ivs, start ≤ p.1 ∧ p.1 ≤ p.2 ∧ p.2 ≤ stop := by
  have hdur : keep = true ∨ L ≤ stop - start + d := by
    by_contra hcon
    push Not at hcon
    have hk : keep = false := by simpa using hcon.1
    unfold getIntervals at h
    simp [hk, not_lt.2 hV.le, hcon.2] at h
  obtain ⟨n, h1, h2⟩ := C20_intervals start stop L V d keep hV hd hdur
  rw [h1] at h
  injection h with h
  subst h
  intro p hp
  obtain ⟨i, hi, rfl⟩ := List.mem_map.1 hp
  obtain ⟨h3, h4⟩ := (h2 i).1 (List.mem_range.1 hi)
  have hpos : 0 ≤ (i : ℚ) * (L - V) := mul_nonneg (by positivity) (by linarith)
  refine ⟨by simp only; linarith, ?_, ?_⟩
  · cases keep with
    | true => simp only [if_true]; exact le_min (by linarith) (by linarith)
    | false => simp only [Bool.false_eq_true, if_false]; linarith
  · cases keep with
    | true => simp only [if_true]; exact min_le_right _ _
    | false =>
      rcases h4 with h4 | h4
      · cases h4
      · simpa using h4
example : (1 : ℚ) < 4 ∧ (0 : ℚ) ≤ 1 ∧ (1 : ℚ) ≤ 4 := by norm_num

/-- **C20**: the error cases. -/
theorem C20_errors (start stop L V d : ℚ) (keep : Bool) :
    (L < V → getIntervals start stop (some L) (some V) (some d) keep = .error .parameterError) ∧
    (V ≤ L → stop - start + d < L → getIntervals start stop (some L) (some V) (some d) false = .error .chunkError) := by
  constructor
  · intro h; simp [getIntervals, h]
  · intro h1 h2; simp [getIntervals, not_lt.2 h1, h2]
example : (0 : ℚ) ≤ 5 ∧ (2 : ℚ) - 0 + 1 < 5 := by norm_num

/-- Membership of sample `k` in the `i`-th interval, in sample units. -/
private theorem sample_cov {a d : ℚ} (hd : 0 < d) (i k m e : ℕ) :
    (a + (i : ℚ) * (m * d) ≤ a + k * d ↔ i * m ≤ k) ∧ (a + k * d ≤ a + e * d ↔ k ≤ e) := by
  constructor
  · rw [add_le_add_iff_left, ← mul_assoc, mul_le_mul_iff_left₀ hd]; exact_mod_cast Iff.rfl
  · rw [add_le_add_iff_left, mul_le_mul_iff_left₀ hd]; exact_mod_cast Iff.rfl

/-- **C20** coverage with `keep_partial`, in samples: `n` samples `a, a + d, ...`, chunks of `l` samples
overlapping by `v < l`. Every sample is in some interval, *except* the last sample when it would start a
one-sample partial chunk of its own (see `C20_keep_partial_violated`): that is exactly when the last sample
is a chunk start and no overlap reaches it. -/
theorem C20_coverage_keep_partial (a d : ℚ) (hd : 0 < d) (n l v : ℕ) (hn : 1 ≤ n) (hv : v < l) :
    ∃ ivs, getIntervals a (a + (n - 1 : ℕ) * d) (some (l * d)) (some (v * d)) (some d) true = .ok ivs ∧
      ∀ k < n, Covered ivs (a + k * d) ↔ ¬ (k = n - 1 ∧ (n = 1 ∨ v = 0) ∧ (n - 1) % (l - v) = 0) := by
  obtain ⟨N, h1, h2⟩ := C20_intervals a (a + (n - 1 : ℕ) * d) (l * d) (v * d) d true
    (by rw [mul_lt_mul_iff_left₀ hd]; exact_mod_cast hv) hd.le (Or.inl rfl)
  generalize hivs : List.map _ (List.range N) = ivs at h1
  refine ⟨ivs, h1, ?_⟩
  intro k hk
  obtain ⟨m, hm⟩ : ∃ m, m = l - v := ⟨_, rfl⟩
  have hm1 : 1 ≤ m := by omega
  have hmd : (l : ℚ) * d - v * d = m * d := by
    rw [hm, Nat.cast_sub hv.le]; ring
  have hcov : Covered ivs (a + k * d) ↔ ∃ i, i < N ∧ i * m ≤ k ∧ k ≤ i * m + (l - 1) := by
    unfold Covered
    rw [← hivs]
    constructor
    · rintro ⟨p, hp, hp1, hp2⟩
      obtain ⟨i, hi, rfl⟩ := List.mem_map.1 hp
      simp only [if_true, hmd] at hp1 hp2
      refine ⟨i, List.mem_range.1 hi, (sample_cov hd i k m 0).1.1 hp1, ?_⟩
      have := hp2.trans (min_le_left _ _)
      have e : a + (i : ℚ) * (m * d) + l * d - d = a + ((i * m + (l - 1) : ℕ) : ℚ) * d := by
        push_cast [Nat.cast_sub (show 1 ≤ l by omega)]; ring
      rw [e] at this
      exact (sample_cov hd 0 k 0 (i * m + (l - 1))).2.1 this
    · rintro ⟨i, hi, h3, h4⟩
      refine ⟨_, List.mem_map.2 ⟨i, List.mem_range.2 hi, rfl⟩, ?_, ?_⟩
      · simp only [hmd]; exact (sample_cov hd i k m 0).1.2 h3
      · simp only [if_true, hmd]
        apply le_min
        · have e : a + (i : ℚ) * (m * d) + l * d - d = a + ((i * m + (l - 1) : ℕ) : ℚ) * d := by
            push_cast [Nat.cast_sub (show 1 ≤ l by omega)]; ring
          rw [e]
          exact (sample_cov hd 0 k 0 (i * m + (l - 1))).2.2 h4
        · exact (sample_cov hd 0 k 0 (n - 1)).2.2 (by omega)
  have hN : ∀ i, i < N ↔ i * m + 1 ≤ n - 1 := by
    intro i
    rw [h2 i, hmd]
    have e : a + (i : ℚ) * (m * d) + d = a + ((i * m + 1 : ℕ) : ℚ) * d := by push_cast; ring
    rw [e, (sample_cov hd 0 (i * m + 1) 0 (n - 1)).2]
    simp
  rw [hcov, ← hm]
  clear hcov h1 h2 hivs
  have hdm : m * (k / m) + k % m = k := Nat.div_add_mod k m
  have hlt : k % m < m := Nat.mod_lt _ (by omega)
  have hcm : k / m * m = m * (k / m) := Nat.mul_comm _ _
  constructor
  · rintro ⟨i, hi, h3, h4⟩ ⟨hk1, hor, hmod⟩
    rw [hN] at hi
    rcases hor with hn1 | hv0
    · omega
    · have hlm : l = m := by omega
      have h5 : (n - 1) / m * m = n - 1 := Nat.div_mul_cancel (Nat.dvd_of_mod_eq_zero hmod)
      have h6 : i < (n - 1) / m := by
        apply lt_of_mul_lt_mul_right (a := m)
        · omega
        · omega
      have h7 : (i + 1) * m ≤ (n - 1) / m * m := Nat.mul_le_mul_right m h6
      rw [Nat.add_mul] at h7
      omega
  · intro hnot
    by_cases hfit : k / m * m + 1 ≤ n - 1
    · exact ⟨k / m, (hN _).2 hfit, by omega, by omega⟩
    · have hk1 : k = n - 1 := by omega
      have hmod0 : k % m = 0 := by omega
      have hor : ¬ (n = 1 ∨ v = 0) := fun h => hnot ⟨hk1, h, by rw [← hk1]; exact hmod0⟩
      push Not at hor
      have hi1 : 1 ≤ k / m := by
        by_contra hcon
        have : k / m = 0 := Nat.lt_one_iff.1 (not_le.1 hcon)
        have hz : k / m * m = 0 := by rw [this, Nat.zero_mul]
        omega
      have hsub : (k / m - 1) * m = k / m * m - m := by rw [Nat.sub_mul, Nat.one_mul]
      exact ⟨k / m - 1, (hN _).2 (by omega), by omega, by omega⟩
example : getIntervals 0 10 (some 4) (some 0) (some 1) true = .ok [(0, 3), (4, 7), (8, 10)] := by decide +kernel

/-- **C20 violated**: with `keep_partial=True`, 11 samples 0..10 in chunks of 5 samples lose sample 10, and a
single sample is lost altogether. -/
theorem C20_keep_partial_violated :
    getIntervals 0 10 (some 5) none (some 1) true = .ok [(0, 4), (5, 9)] ∧
    ¬ Covered [(0, 4), (5, 9)] 10 ∧
    getIntervals 3 3 (some 5) none (some 1) true = .ok [] := by
  refine ⟨by decide +kernel, ?_, by decide +kernel⟩
  rintro ⟨p, hp, h1, h2⟩
  simp at hp
  rcases hp with rfl | rfl <;> norm_num at h2

/-- **C20** coverage without `keep_partial`, chunks of at least two samples: the covered samples are an initial
run, and fewer than `length - overlap` samples are left over. Missing: one-sample chunks
(`C20_one_sample_violated`) and lengths that are not a multiple of the step (`C20_off_grid_violated`). -/
theorem C20_coverage_full_partial (a d : ℚ) (hd : 0 < d) (n l v : ℕ) (hl : 2 ≤ l) (hn : l ≤ n) (hv : v < l) :
    ∃ ivs K, getIntervals a (a + (n - 1 : ℕ) * d) (some (l * d)) (some (v * d)) (some d) false = .ok ivs ∧
      K ≤ n ∧ n - K < l - v ∧ ∀ k < n, Covered ivs (a + k * d) ↔ k < K := by
  have hdur : (l : ℚ) * d ≤ a + (n - 1 : ℕ) * d - a + d := by
    rw [Nat.cast_sub (by omega)]
    have : (l : ℚ) ≤ n := by exact_mod_cast hn
    push_cast
    nlinarith
  obtain ⟨N, h1, h2⟩ := C20_intervals a (a + (n - 1 : ℕ) * d) (l * d) (v * d) d false
    (by rw [mul_lt_mul_iff_left₀ hd]; exact_mod_cast hv) hd.le (Or.inr hdur)
  obtain ⟨m, hm⟩ : ∃ m, m = l - v := ⟨_, rfl⟩
  have hm1 : 1 ≤ m := by omega
  have hmd : (l : ℚ) * d - v * d = m * d := by
    rw [hm, Nat.cast_sub hv.le]; ring
  have hend : ∀ i : ℕ, a + (i : ℚ) * (m * d) + l * d - d = a + ((i * m + (l - 1) : ℕ) : ℚ) * d := by
    intro i
    push_cast [Nat.cast_sub (show 1 ≤ l by omega)]; ring
  have hN : ∀ i, i < N ↔ i * m + l ≤ n := by
    intro i
    rw [h2 i, hmd, hend, (sample_cov hd 0 _ 0 (n - 1)).2]
    have e : a + (i : ℚ) * (m * d) + d = a + ((i * m + 1 : ℕ) : ℚ) * d := by push_cast; ring
    rw [e, (sample_cov hd 0 (i * m + 1) 0 (n - 1)).2]
    simp
    omega
  have hNv : N = (n - l) / m + 1 := by
    apply le_antisymm
    · by_contra hcon
      have := (hN ((n - l) / m + 1)).1 (by omega)
      have h5 := Nat.div_add_mod (n - l) m
      have h6 := Nat.mod_lt (n - l) (show m > 0 by omega)
      rw [Nat.add_mul, Nat.mul_comm] at this
      omega
    · have : (n - l) / m < N := (hN _).2 (by
        have := Nat.div_mul_le_self (n - l) m
        omega)
      omega
  have h5 := Nat.div_add_mod (n - l) m
  have h6 := Nat.mod_lt (n - l) (show m > 0 by omega)
  refine ⟨_, m * ((n - l) / m) + l, h1, by omega, by omega, ?_⟩
  intro k hk
  unfold Covered
  constructor
  · rintro ⟨p, hp, hp1, hp2⟩
    obtain ⟨i, hi, rfl⟩ := List.mem_map.1 hp
    simp only [Bool.false_eq_true, if_false, hmd] at hp1 hp2
    rw [hend] at hp2
    have h7 := (sample_cov hd 0 k 0 (i * m + (l - 1))).2.1 hp2
    have h8 : i ≤ (n - l) / m := by have := List.mem_range.1 hi; omega
    have h9 := Nat.mul_le_mul_right m h8
    rw [Nat.mul_comm ((n - l) / m)] at h9
    omega
  · intro hkK
    obtain ⟨i, hi⟩ : ∃ i, i = min (k / m) ((n - l) / m) := ⟨_, rfl⟩
    have hdk := Nat.div_add_mod k m
    have hlk := Nat.mod_lt k (show m > 0 by omega)
    refine ⟨_, List.mem_map.2 ⟨i, List.mem_range.2 (by omega), rfl⟩, ?_, ?_⟩
    · simp only [hmd]
      apply (sample_cov hd i k m 0).1.2
      have : i * m ≤ k / m * m := Nat.mul_le_mul_right m (by omega)
      rw [Nat.mul_comm (k / m)] at this
      omega
    · simp only [Bool.false_eq_true, if_false, hmd]
      rw [hend]
      apply (sample_cov hd 0 k 0 _).2.2
      by_cases hc : k / m ≤ (n - l) / m
      · have : i = k / m := by omega
        rw [this, Nat.mul_comm]
        omega
      · have : i = (n - l) / m := by omega
        rw [this, Nat.mul_comm]
        omega
example : getIntervals 0 10 (some 4) (some 1) (some 1) false = .ok [(0, 3), (3, 6), (6, 9)] := by decide +kernel

/-- **C20 violated** for chunks of one sample: 0..4 in chunks of one sample loses sample 4, even though its
chunk is complete. -/
theorem C20_one_sample_violated :
    getIntervals 0 4 (some 1) none (some 1) false = .ok [(0, 0), (1, 1), (2, 2), (3, 3)] := by decide +kernel

/-- **C20 violated** for chunk lengths that are not a multiple of the step: 0..9 in chunks of 2.5 gives
intervals which contain neither sample 2 nor sample 7. -/
theorem C20_off_grid_violated :
    getIntervals 0 9 (some (5 / 2)) none (some 1) true = .ok [(0, 3 / 2), (5 / 2, 4), (5, 13 / 2), (15 / 2, 9)] ∧
    ¬ Covered [(0, 3 / 2), (5 / 2, 4), (5, 13 / 2), (15 / 2, 9)] 2 ∧
    ¬ Covered [(0, 3 / 2), (5 / 2, 4), (5, 13 / 2), (15 / 2, 9)] 7 := by
  refine ⟨by decide +kernel, ?_, ?_⟩ <;>
  · rintro ⟨p, hp, h1, h2⟩
    simp at hp
    rcases hp with rfl | rfl | rfl | rfl <;> first | (norm_num at h1; done) | (norm_num at h2)

/-- **C20**: an overlap equal to the length is accepted by the check but then fails in `np.arange`. -/
theorem C20_overlap_eq_length (start stop L d : ℚ) :
    getIntervals start stop (some L) (some L) (some d) true = .error .zeroDivision := by
  simp [getIntervals]

/-! ### C21: continuity groups -/

/-- The interval columns of the table. -/
def spans (rows : List Row) : List (ℚ × ℚ) := rows.map fun r => (r.lo, r.hi)

theorem continuityGroups_getD (argsort : List ℚ → List ℕ) (tol : ℚ) (rows : List Row) {i : ℕ} (hi : i < rows.length) :
    (continuityGroups argsort tol rows).getD i 0 =
      (contSorted tol (takeIdx rows (argsort (rows.map Row.lo)))).getD ((argsort (rows.map Row.lo)).idxOf i) 0 := by
  unfold continuityGroups
  simp [List.getD_eq_getElem?_getD, hi]

/-- **C21**: rows with a common step, in any order and for any sorting algorithm: two rows get the same
group number iff no gap of more than `tol` steps separates them. -/
theorem C21_groups (argsort : List ℚ → List ℕ) (ha : IsArgsort argsort) (tol d : ℚ) (htol : 0 ≤ d * tol)
    (rows : List Row) (hstep : ∀ r ∈ rows, r.step = d ∧ r.lo ≤ r.hi) (i j : ℕ) (a b : Row)
    (hi : rows[i]? = some a) (hj : rows[j]? = some b) (hab : a.lo ≤ b.lo) :
    (continuityGroups argsort tol rows)[i]? = (continuityGroups argsort tol rows)[j]? ↔
      NoGapBetween (spans rows) (d * tol) a.lo b.lo := by
  obtain ⟨hil, hia⟩ := List.getElem?_eq_some_iff.1 hi
  obtain ⟨hjl, hjb⟩ := List.getElem?_eq_some_iff.1 hj
  obtain ⟨hperm, hsorted⟩ := ha (rows.map Row.lo)
  rw [List.length_map] at hperm
  obtain ⟨args, hargs⟩ : ∃ args, args = argsort (rows.map Row.lo) := ⟨_, rfl⟩
  rw [← hargs] at hperm hsorted
  have hlen : args.length = rows.length := by simpa using hperm.length_eq
  have hnd : args.Nodup := hperm.nodup_iff.2 List.nodup_range
  have hbnd : ∀ x ∈ args, x < rows.length := fun x hx => List.mem_range.1 (hperm.mem_iff.1 hx)
  -- the sorted rows
  obtain ⟨rs, hrs⟩ : ∃ rs, rs = takeIdx rows args := ⟨_, rfl⟩
  have hget : ∀ k : ℕ, rs[k]? = (args[k]?).bind fun x => rows[x]? := by
    intro k
    rw [hrs]
    exact takeIdx_getElem? hbnd k
  have hrsl : rs.length = rows.length := by rw [hrs, takeIdx_length hbnd, hlen]
  have hlo : rs.Pairwise fun p q => p.lo ≤ q.lo := by
    have : takeIdx (rows.map Row.lo) args = rs.map Row.lo := by
      rw [hrs]
      unfold takeIdx
      rw [List.map_filterMap]
      apply List.filterMap_congr
      intro x _
      simp
    rw [this, List.pairwise_map] at hsorted
    exact hsorted
  have hmem : ∀ r, r ∈ rs ↔ r ∈ rows := by
    intro r
    constructor
    · intro h
      rw [hrs] at h
      obtain ⟨x, _, hx⟩ := List.mem_filterMap.1 h
      exact List.mem_of_getElem? hx
    · intro h
      obtain ⟨x, hx, rfl⟩ := List.mem_iff_getElem.1 h
      rw [hrs]
      exact List.mem_filterMap.2 ⟨x, hperm.mem_iff.2 (List.mem_range.2 hx), List.getElem?_eq_getElem hx⟩
  have hpos : ∀ x, x < rows.length → args.idxOf x < rs.length ∧ rs[args.idxOf x]? = rows[x]? := by
    intro x hx
    have hxm : x ∈ args := hperm.mem_iff.2 (List.mem_range.2 hx)
    have h1 := List.idxOf_lt_length_iff.2 hxm
    refine ⟨by omega, ?_⟩
    rw [hget, List.getElem?_eq_getElem h1, List.getElem_idxOf h1]
    rfl
  have hL : ∀ x, x < rows.length → (continuityGroups argsort tol rows)[x]? =
      some ((contSorted tol rs).getD (args.idxOf x) 0) := by
    intro x hx
    unfold continuityGroups
    simp only [← hargs, ← hrs]
    simp [hx]
  rw [hL i hil, hL j hjl, Option.some.injEq]
  -- equal starts never have a gap between them
  have hstepr : ∀ r ∈ rs, r.step = d ∧ r.lo ≤ r.hi := fun r hr => hstep r ((hmem r).1 hr)
  have main : ∀ (p q : ℕ) (x y : Row), p ≤ q → rs[p]? = some x → rs[q]? = some y →
      ((contSorted tol rs).getD p 0 = (contSorted tol rs).getD q 0 ↔ NoGapBetween (spans rows) (d * tol) x.lo y.lo) := by
    intro p q x y hpq hp hq
    obtain ⟨hpl, hpx⟩ := List.getElem?_eq_some_iff.1 hp
    obtain ⟨hql, hqy⟩ := List.getElem?_eq_some_iff.1 hq
    rw [contSorted_pair tol rs p q hpq hql]
    have hle : ∀ u w (hu : u < rs.length) (hw : w < rs.length), u ≤ w → rs[u].lo ≤ rs[w].lo := by
      intro u w hu hw huw
      rcases Nat.lt_or_eq_of_le huw with h | h
      · exact List.pairwise_iff_getElem.1 hlo u w hu hw h
      · subst h; exact le_rfl
    constructor
    · intro hgap r hr h1 h2
      obtain ⟨row, hrow, rfl⟩ := List.mem_map.1 hr
      simp only at h1 h2 ⊢
      obtain ⟨t, ht, htr⟩ := List.mem_iff_getElem.1 ((hmem row).2 hrow)
      -- first index whose start is not before `row.lo`
      have hex : ∃ k, k < rs.length ∧ ∀ z, rs[k]? = some z → row.lo ≤ z.lo :=
        ⟨t, ht, by intro z hz; rw [List.getElem?_eq_getElem ht] at hz; injection hz with hz; rw [← hz, htr]⟩
      classical
      let k := Nat.find hex
      obtain ⟨hkl, hk2⟩ := Nat.find_spec hex
      have hkmin : ∀ u, u < k → u < rs.length → ∃ z, rs[u]? = some z ∧ z.lo < row.lo := by
        intro u hu hul
        have := Nat.find_min hex hu
        push Not at this
        obtain ⟨z, hz, hz2⟩ := this hul
        exact ⟨z, hz, hz2⟩
      have hkz : row.lo ≤ rs[k].lo := hk2 _ (List.getElem?_eq_getElem hkl)
      have hpk : p < k := by
        by_contra hcon
        have := hle k p hkl hpl (by omega)
        rw [hpx] at this
        linarith
      have hkq : k ≤ q := by
        by_contra hcon
        obtain ⟨z, hz, hz2⟩ := hkmin q (by omega) hql
        rw [hq] at hz
        injection hz with hz
        subst hz
        linarith
      have hkt : k ≤ t := Nat.find_min' hex ⟨ht, by
        intro z hz; rw [List.getElem?_eq_getElem ht] at hz; injection hz with hz; rw [← hz, htr]⟩
      have hkeq : rs[k].lo = row.lo := by
        apply le_antisymm _ hkz
        have := hle k t hkl ht hkt
        rwa [htr] at this
      have hng := hgap k hpk hkq
      unfold GapIn at hng
      push Not at hng
      obtain ⟨u, hu, s, hs, hs2⟩ := hng rs[k] (List.getElem?_eq_getElem hkl)
      obtain ⟨z, hz, hz2⟩ := hkmin u hu (by omega)
      rw [hs] at hz
      injection hz with hz
      subst hz
      have hsm : s ∈ rs := List.mem_of_getElem? hs
      refine ⟨(s.lo, s.hi), List.mem_map.2 ⟨s, (hmem s).1 hsm, rfl⟩, hz2, ?_⟩
      rw [(hstepr _ (List.getElem_mem hkl)).1, hkeq] at hs2
      exact hs2
    · rintro hno k hpk hkq ⟨r, hr, hg⟩
      obtain ⟨hkl, hkr⟩ := List.getElem?_eq_some_iff.1 hr
      have hrm : r ∈ rs := List.mem_of_getElem? hr
      have h1 : x.lo ≤ r.lo := by rw [← hpx, ← hkr]; exact hle p k hpl hkl hpk.le
      have h2 : r.lo ≤ y.lo := by rw [← hqy, ← hkr]; exact hle k q hkl hql hkq
      rcases eq_or_lt_of_le h1 with he | hlt
      · have := hg p hpk x hp
        have hxm := (hstepr x (List.mem_of_getElem? hp)).2
        rw [(hstepr r hrm).1] at this
        linarith
      · obtain ⟨s, hs, hs1, hs2⟩ := hno (r.lo, r.hi) (List.mem_map.2 ⟨r, (hmem r).1 hrm, rfl⟩) hlt h2
        obtain ⟨s, hs', rfl⟩ := List.mem_map.1 hs
        obtain ⟨u, hu, hus⟩ := List.mem_iff_getElem.1 ((hmem s).2 hs')
        simp only at hs1 hs2
        have huk : u < k := by
          by_contra hcon
          have := hle k u hkl hu (by omega)
          rw [hkr, hus] at this
          linarith
        have := hg u huk s (by rw [List.getElem?_eq_getElem hu, hus])
        rw [(hstepr r hrm).1] at this
        linarith
  obtain ⟨hp1, hp2⟩ := hpos i hil
  obtain ⟨hq1, hq2⟩ := hpos j hjl
  rw [hi] at hp2
  rw [hj] at hq2
  rcases le_total (args.idxOf i) (args.idxOf j) with h | h
  · exact main _ _ a b h hp2 hq2
  · rw [eq_comm, main _ _ b a h hq2 hp2]
    have hba : b.lo ≤ a.lo := by
      obtain ⟨h3, h4⟩ := List.getElem?_eq_some_iff.1 hp2
      obtain ⟨h5, h6⟩ := List.getElem?_eq_some_iff.1 hq2
      rw [← h4, ← h6]
      rcases Nat.lt_or_eq_of_le h with h | h
      · exact List.pairwise_iff_getElem.1 hlo _ _ _ _ h
      · simp [h]
    have : a.lo = b.lo := le_antisymm hab hba
    rw [this]
example : IsArgsort stableArgsort ∧
    continuityGroups stableArgsort (3 / 2) [⟨20, 29, 1⟩, ⟨0, 9, 1⟩, ⟨10, 15, 1⟩, ⟨5, 12, 1⟩] = [1, 0, 0, 0] :=
  ⟨stableArgsort_spec, by decide +kernel⟩

/-- **C21**: with a common step, whether two rows are in the same group does not depend on the order of the
table nor on how the sort breaks ties. -/
theorem C21_order_independent (f g : List ℚ → List ℕ) (hf : IsArgsort f) (hg : IsArgsort g) (tol d : ℚ)
    (htol : 0 ≤ d * tol) (rows rows' : List Row) (hp : rows.Perm rows')
    (hstep : ∀ r ∈ rows, r.step = d ∧ r.lo ≤ r.hi) (i j i' j' : ℕ) (a b : Row)
    (hi : rows[i]? = some a) (hj : rows[j]? = some b) (hi' : rows'[i']? = some a) (hj' : rows'[j']? = some b) :
    (continuityGroups f tol rows)[i]? = (continuityGroups f tol rows)[j]? ↔
      (continuityGroups g tol rows')[i']? = (continuityGroups g tol rows')[j']? := by
  have hspan : ∀ u w, NoGapBetween (spans rows) (d * tol) u w ↔ NoGapBetween (spans rows') (d * tol) u w := by
    intro u w
    have : ∀ x, x ∈ spans rows ↔ x ∈ spans rows' := fun x => (hp.map _).mem_iff
    unfold NoGapBetween
    simp only [this]
  have hstep' : ∀ r ∈ rows', r.step = d ∧ r.lo ≤ r.hi := fun r hr => hstep r (hp.mem_iff.2 hr)
  rcases le_total a.lo b.lo with h | h
  · rw [C21_groups f hf tol d htol rows hstep i j a b hi hj h,
      C21_groups g hg tol d htol rows' hstep' i' j' a b hi' hj' h, hspan]
  · rw [eq_comm, C21_groups f hf tol d htol rows hstep j i b a hj hi h,
      eq_comm, C21_groups g hg tol d htol rows' hstep' j' i' b a hj' hi' h, hspan]
example : [(⟨20, 29, 1⟩ : Row), ⟨0, 9, 1⟩].Perm [⟨0, 9, 1⟩, ⟨20, 29, 1⟩] := List.Perm.swap _ _ _

/-- **C21 violated** when steps differ: whether the row starting at 12 is separated from the first depends on
which of the two rows starting at 12 comes first in the table. -/
theorem C21_mixed_steps_violated :
    continuityGroups stableArgsort (3 / 2) [⟨0, 10, 1⟩, ⟨12, 20, 1⟩, ⟨12, 20, 5⟩] = [0, 1, 1] ∧
    continuityGroups stableArgsort (3 / 2) [⟨0, 10, 1⟩, ⟨12, 20, 5⟩, ⟨12, 20, 1⟩] = [0, 0, 0] := by
  constructor <;> decide +kernel

/-- **C21 violated** across group columns: continuity is computed over the whole table (chunk.py 458-461)
before rows are split by station, so a row of another station bridges a gap. Station X has rows [0, 10] and
[100, 110] only; with station Y's row [5, 105] all three get the same continuity number, and X's two rows
are put in one group in spite of a gap of 90 steps. -/
theorem C21_other_station_violated :
    continuityGroups stableArgsort (3 / 2) [⟨0, 10, 1⟩, ⟨100, 110, 1⟩] = [0, 1] ∧
    continuityGroups stableArgsort (3 / 2) [⟨0, 10, 1⟩, ⟨100, 110, 1⟩, ⟨5, 105, 1⟩] = [0, 0, 0] := by
  constructor <;> decide +kernel

end Verif
