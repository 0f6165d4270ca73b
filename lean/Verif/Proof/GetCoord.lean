import Verif.Proof.CoordArray
import Mathlib.Data.List.Dedup
/-! Lemmas on `get_coord(data=...)`. -/
namespace Verif
open Spec

theorem diffs_length (l : List ℚ) : (diffs l).length = l.length - 1 := by
  induction l with
  | nil => rfl
  | cons a r ih =>
    cases r with
    | nil => rfl
    | cons b r => simp only [diffs, List.length_cons, ih]; omega

theorem diffs_getElem (l : List ℚ) (i : ℕ) (h : i < (diffs l).length) :
    (diffs l)[i] = l[i + 1]'(by rw [diffs_length] at h; omega) - l[i]'(by rw [diffs_length] at h; omega) := by
  induction l generalizing i with
  | nil => simp [diffs] at h
  | cons a r ih =>
    cases r with
    | nil => simp [diffs] at h
    | cons b r =>
      cases i with
      | zero => simp [diffs]
      | succ i =>
        have := ih i (by simpa [diffs] using h)
        simpa [diffs] using this

theorem mem_diffs {l : List ℚ} {d : ℚ} : d ∈ diffs l ↔ ∃ i x y, l[i]? = some x ∧ l[i + 1]? = some y ∧ d = y - x := by
  constructor
  · intro h
    obtain ⟨i, hi, rfl⟩ := List.getElem_of_mem h
    have hl := hi; rw [diffs_length] at hl
    exact ⟨i, l[i], l[i+1], List.getElem?_eq_getElem _, List.getElem?_eq_getElem _, diffs_getElem l i hi⟩
  · rintro ⟨i, x, y, hx, hy, rfl⟩
    obtain ⟨h1, rfl⟩ := List.getElem?_eq_some_iff.1 hy
    obtain ⟨h2, rfl⟩ := List.getElem?_eq_some_iff.1 hx
    have hi : i < (diffs l).length := by rw [diffs_length]; omega
    rw [← diffs_getElem l i hi]
    exact List.getElem_mem _

theorem sortQ_perm (l : List ℚ) : (sortQ l).Perm l := List.perm_insertionSort _ _

theorem sortQ_sorted (l : List ℚ) : (sortQ l).Pairwise (· ≤ ·) := List.pairwise_insertionSort (· ≤ ·) l

theorem sortQ_length (l : List ℚ) : (sortQ l).length = l.length := (sortQ_perm l).length_eq

theorem mem_uniqueQ {l : List ℚ} {x : ℚ} : x ∈ uniqueQ l ↔ x ∈ l := by
  unfold uniqueQ
  rw [(sortQ_perm _).mem_iff, List.mem_dedup]

theorem uniqueQ_nodup (l : List ℚ) : (uniqueQ l).Nodup := (sortQ_perm _).nodup_iff.2 (List.nodup_dedup l)

theorem uniqueQ_sorted (l : List ℚ) : (uniqueQ l).Pairwise (· ≤ ·) := sortQ_sorted _

theorem uniqueQ_length_one {l : List ℚ} : (uniqueQ l).length = 1 ↔ ∃ d, l ≠ [] ∧ ∀ x ∈ l, x = d := by
  constructor
  · intro h
    obtain ⟨d, hd⟩ := List.length_eq_one_iff.1 h
    refine ⟨d, ?_, ?_⟩
    · rintro rfl; simp [uniqueQ, sortQ] at h
    · intro x hx
      have := mem_uniqueQ.2 hx
      rw [hd] at this; simpa using this
  · rintro ⟨d, hne, hall⟩
    have hnd := uniqueQ_nodup l
    have hmem : ∀ x ∈ uniqueQ l, x = d := fun x hx => hall x (mem_uniqueQ.1 hx)
    match hu : uniqueQ l with
    | [] =>
      exfalso
      obtain ⟨x, hx⟩ := List.exists_mem_of_ne_nil l hne
      have := mem_uniqueQ.2 hx
      rw [hu] at this; simp at this
    | [x] => rfl
    | x :: y :: r =>
      rw [hu] at hnd hmem
      have h1 := hmem x (by simp)
      have h2 := hmem y (by simp)
      subst h1
      simp [h2] at hnd

theorem isClose_iff {a b r t : ℚ} : isClose a b r t = true ↔ |a - b| ≤ t + r * |b| := by
  have : ∀ q, absQ q = |q| := by
    intro q; unfold absQ; split_ifs with h
    · exact (abs_of_neg h).symm
    · exact (abs_of_nonneg (not_lt.1 h)).symm
  simp [isClose, this]

theorem nearlyEven_of_close {l : List ℚ} (h : allDiffsClose (uniqueQ (diffs l)) = true) : NearlyEven l := by
  unfold allDiffsClose at h
  by_cases h0 : uniqueQ (diffs l) = []
  · rw [if_pos h0] at h; simp at h
  · rw [if_neg h0] at h
    simp only [List.all_eq_true, isClose_iff] at h
    refine ⟨medianQ (uniqueQ (diffs l)), ?_⟩
    intro i x y hx hy
    have := h (y - x) (mem_uniqueQ.2 (mem_diffs.2 ⟨i, x, y, hx, hy, rfl⟩))
    norm_num at this ⊢
    exact this

theorem nearlyEven_of_unique {l : List ℚ} (h : (uniqueQ (diffs l)).length = 1) : NearlyEven l := by
  obtain ⟨d, _, hall⟩ := uniqueQ_length_one.1 h
  refine ⟨d, ?_⟩
  intro i x y hx hy
  have := hall (y - x) (mem_diffs.2 ⟨i, x, y, hx, hy, rfl⟩)
  rw [this, sub_self, abs_zero]
  positivity

theorem strict_iff (l : List ℚ) : (strictDec l || strictInc l) = true ↔ StrictMono' l := by
  rw [Bool.or_eq_true, strictInc_iff, strictDec_iff, StrictMono', or_comm]

theorem getCoordData_two {kind : Kind} {data : List ℚ} (h : 2 ≤ data.length) {step : Option ℚ} :
    getCoordData kind data step = match maybeStartStopStep kind data with
    | some (start, stop, step) => do
      let out ← mkRange start stop step
      out.changeLength (kind = .time) (some data.length)
    | none => if strictDec data || strictInc data then .ok (.mono data) else .ok (.arr data) := by
  match data, h with
  | a :: b :: r, _ => rfl

/-- The step chosen for (nearly) evenly sampled data is one of the differences. -/
theorem step_mem {l : List ℚ} (h : 2 ≤ l.length) : (sortQ (diffs l)).getD ((diffs l).length / 2) 0 ∈ diffs l := by
  have h1 : (diffs l).length / 2 < (sortQ (diffs l)).length := by
    rw [sortQ_length, diffs_length]; omega
  rw [List.getD_eq_getElem?_getD, List.getElem?_eq_getElem h1, Option.getD_some]
  exact (sortQ_perm _).mem_iff.1 (List.getElem_mem _)

theorem diff_sign {l : List ℚ} {d : ℚ} (hd : d ∈ diffs l) :
    (l.Pairwise (· < ·) → 0 < d) ∧ (l.Pairwise (· > ·) → d < 0) := by
  obtain ⟨i, x, y, hx, hy, rfl⟩ := mem_diffs.1 hd
  obtain ⟨h1, rfl⟩ := List.getElem?_eq_some_iff.1 hy
  obtain ⟨h2, rfl⟩ := List.getElem?_eq_some_iff.1 hx
  constructor
  · intro hp
    have := List.pairwise_iff_getElem.1 hp i (i+1) h2 h1 (by omega)
    linarith
  · intro hp
    have : l[i + 1] < l[i] := List.pairwise_iff_getElem.1 hp i (i+1) h2 h1 (by omega)
    linarith

theorem maybe_none {kind : Kind} {l : List ℚ} (h : ¬ StrictMono' l ∨ ¬ NearlyEven l) :
    maybeStartStopStep kind l = none := by
  unfold maybeStartStopStep
  by_cases hs : (strictDec l || strictInc l) = true
  · rw [if_pos hs]
    rcases h with h | h
    · exact absurd ((strict_iff l).1 hs) h
    · simp only
      rw [if_neg]
      intro hc
      rw [Bool.or_eq_true, decide_eq_true_eq] at hc
      rcases hc with hc | hc
      · exact h (nearlyEven_of_unique hc)
      · exact h (nearlyEven_of_close hc)
  · rw [if_neg hs]

theorem maybe_some {kind : Kind} {l : List ℚ} {a b d : ℚ} (h : maybeStartStopStep kind l = some (a, b, d)) :
    StrictMono' l ∧ a = l.getD 0 0 ∧ d = (sortQ (diffs l)).getD ((diffs l).length / 2) 0 ∧
    b = (if kind = .float then l.getD (l.length - 1) 0 else a + ((l.length : ℚ) - 1) * d) + d ∧
    ((uniqueQ (diffs l)).length = 1 ∨ allDiffsClose (uniqueQ (diffs l)) = true) := by
  unfold maybeStartStopStep at h
  by_cases hs : (strictDec l || strictInc l) = true
  · rw [if_pos hs] at h
    simp only at h
    by_cases hc : ((decide ((uniqueQ (diffs l)).length = 1) || allDiffsClose (uniqueQ (diffs l))) = true)
    · rw [if_pos hc] at h
      simp only [Option.some.injEq, Prod.mk.injEq] at h
      obtain ⟨rfl, rfl, rfl⟩ := h
      refine ⟨(strict_iff l).1 hs, rfl, rfl, rfl, ?_⟩
      simpa using hc
    · rw [if_neg hc] at h; simp at h
  · rw [if_neg hs] at h; simp at h

/-- A list with constant differences is a progression. -/
theorem progression_of_diffs {l : List ℚ} {d : ℚ} (h : ∀ x ∈ diffs l, x = d) (hl : 1 ≤ l.length) :
    l = progression (l.getD 0 0) d l.length := by
  apply List.ext_getElem
  · simp [progression]
  · intro i h1 h2
    simp only [progression, List.getElem_map, List.getElem_range]
    clear h2
    induction i with
    | zero => simp [List.getElem?_eq_getElem h1]
    | succ i ih =>
      have hi : i < (diffs l).length := by rw [diffs_length]; omega
      have h3 := h _ (List.getElem_mem hi)
      rw [diffs_getElem] at h3
      have h4 := ih (by omega)
      push_cast
      linarith

theorem diffs_progression (s d : ℚ) (n : ℕ) : ∀ x ∈ diffs (progression s d n), x = d := by
  intro x hx
  obtain ⟨i, a, b, ha, hb, rfl⟩ := mem_diffs.1 hx
  simp only [progression, List.getElem?_map, Option.map_eq_some_iff] at ha hb
  obtain ⟨i', hi', rfl⟩ := ha
  obtain ⟨j', hj', rfl⟩ := hb
  obtain ⟨h1, rfl⟩ := List.getElem?_eq_some_iff.1 hi'
  obtain ⟨h2, rfl⟩ := List.getElem?_eq_some_iff.1 hj'
  simp only [List.getElem_range]
  push_cast; ring

theorem progression_strict (s d : ℚ) (n : ℕ) (hd : d ≠ 0) : StrictMono' (progression s d n) := by
  unfold StrictMono' progression
  rcases lt_or_gt_of_ne hd with h | h
  · right
    rw [List.pairwise_map]
    refine List.Pairwise.imp ?_ List.pairwise_lt_range
    intro i j hij
    have : (i : ℚ) < j := by exact_mod_cast hij
    simp only [gt_iff_lt]; nlinarith
  · left
    rw [List.pairwise_map]
    refine List.Pairwise.imp ?_ List.pairwise_lt_range
    intro i j hij
    have : (i : ℚ) < j := by exact_mod_cast hij
    nlinarith

theorem progression_length (s d : ℚ) (n : ℕ) : (progression s d n).length = n := by simp [progression]

/-- `get_coord` of an exact progression. -/
theorem getCoordData_progression (kind : Kind) (s d : ℚ) (n : ℕ) (hd : d ≠ 0) (hn : 2 ≤ n) (st : Option ℚ) :
    getCoordData kind (progression s d n) st = .ok (.range ⟨s, s + d * n, d, n⟩) := by
  have hlen := progression_length s d n
  rw [getCoordData_two (by omega)]
  have hdf := diffs_progression s d n
  have hmem := step_mem (l := progression s d n) (by omega)
  have hstep := hdf _ hmem
  have hu : (uniqueQ (diffs (progression s d n))).length = 1 :=
    uniqueQ_length_one.2 ⟨d, by intro h0; rw [h0] at hmem; simp at hmem, hdf⟩
  have h0 : (progression s d n).getD 0 0 = s := by
    have : 0 < n := by omega
    simp [progression, List.getElem?_range this]
  have hlast : (progression s d n).getD (n - 1) 0 = s + ((n : ℚ) - 1) * d := by
    have : n - 1 < n := by omega
    simp only [progression, List.getD_eq_getElem?_getD, List.getElem?_map, List.getElem?_range this, Option.map_some, Option.getD_some]
    rw [Nat.cast_sub (by omega)]; simp
  have hm : maybeStartStopStep kind (progression s d n) = some (s, s + d * n, d) := by
    unfold maybeStartStopStep
    rw [if_pos ((strict_iff _).2 (progression_strict s d n hd))]
    simp only [hu, decide_true, Bool.true_or, if_true, hstep, h0, hlen, hlast]
    have : (if kind = .float then s + ((n : ℚ) - 1) * d else s + ((n : ℚ) - 1) * d) + d = s + d * n := by
      split_ifs <;> ring
    rw [this]
  rw [hm]
  simp only [mkRange_canonical hd (show 1 ≤ n by omega), bind, Except.bind, hlen]
  simp [RangeCoord.changeLength]

/-- `change_length` to a positive length either keeps start and step or fails its assertion (numbers only). -/
theorem changeLength_cases {c : RangeCoord} (hv : c.Valid) (t : Bool) {n : ℕ} (hn : 1 ≤ n) :
    c.changeLength t (some (n : ℤ)) = .ok (.range ⟨c.start, c.start + c.step * n, c.step, n⟩) ∨
    (t = false ∧ n ≠ c.len ∧ c.changeLength t (some (n : ℤ)) = .error .assertionError) := by
  by_cases h1 : c.len = n
  · left
    subst h1
    unfold RangeCoord.changeLength
    simp only
    rw [if_neg (by omega), if_pos trivial, ← hv.stop_eq]
  · have hstop : c.stop + c.step * (((n : ℤ) - (c.len : ℤ) : ℤ) : ℚ) = c.start + c.step * n := by
      rw [hv.stop_eq]; push_cast; ring
    have hne : ¬ c.start + c.step * (n : ℚ) = c.stop := by
      rw [hv.stop_eq]
      intro h
      have : c.step * ((n : ℚ) - c.len) = 0 := by linarith
      rcases mul_eq_zero.1 this with h | h
      · exact hv.step_ne h
      · apply h1
        have : (n : ℚ) = c.len := by linarith
        exact_mod_cast this.symm
    unfold RangeCoord.changeLength
    simp only
    rw [if_neg (by omega), if_neg (by exact_mod_cast h1), if_neg (by omega), hstop]
    cases t with
    | true =>
      left
      simp only [if_true, hne, decide_false, Bool.false_eq_true, if_false]
      rw [new_canonical hv.step_ne hn rfl]
      simp
    | false =>
      simp only [Bool.false_eq_true, if_false]
      by_cases hcl : isClose (c.start + c.step * n) c.stop = true
      · right
        refine ⟨trivial, fun h => h1 h.symm, ?_⟩
        rw [if_pos hcl]
        simp only
        rw [if_neg (by exact_mod_cast h1)]
      · left
        rw [if_neg hcl, new_canonical hv.step_ne hn rfl]
        simp

/-- Data which is not nearly even, or not strictly monotonic, is stored as is. -/
theorem getCoordData_stored {kind : Kind} {l : List ℚ} (hl : 2 ≤ l.length)
    (h : ¬ StrictMono' l ∨ ¬ NearlyEven l) (st : Option ℚ) :
    getCoordData kind l st = .ok (if strictDec l || strictInc l then .mono l else .arr l) := by
  rw [getCoordData_two hl, maybe_none h]
  simp only
  split_ifs <;> rfl

/-- The three possible outcomes of `get_coord` on two or more samples. -/
theorem getCoordData_cases (kind : Kind) {l : List ℚ} (hl : 2 ≤ l.length) (st : Option ℚ) :
    (getCoordData kind l st = .ok (.arr l) ∧ ¬ StrictMono' l) ∨
    (getCoordData kind l st = .ok (.mono l) ∧ StrictMono' l) ∨
    (StrictMono' l ∧ NearlyEven l ∧ ∃ d, d ∈ diffs l ∧
      (getCoordData kind l st = .ok (.range ⟨l.getD 0 0, l.getD 0 0 + d * l.length, d, l.length⟩) ∨
       (kind = .float ∧ getCoordData kind l st = .error .assertionError))) := by
  rw [getCoordData_two hl]
  cases hm : maybeStartStopStep kind l with
  | none =>
    simp only
    by_cases hs : (strictDec l || strictInc l) = true
    · right; left
      rw [if_pos hs]; exact ⟨rfl, (strict_iff l).1 hs⟩
    · left
      rw [if_neg hs]; exact ⟨rfl, fun h => hs ((strict_iff l).2 h)⟩
  | some q =>
    obtain ⟨a, b, d⟩ := q
    obtain ⟨h1, h2, h3, h4, h5⟩ := maybe_some hm
    right; right
    have hmem : d ∈ diffs l := by rw [h3]; exact step_mem hl
    have hd : d ≠ 0 := by
      have := diff_sign hmem
      rcases h1 with h | h
      · exact (this.1 h).ne'
      · exact (this.2 h).ne
    refine ⟨h1, h5.elim nearlyEven_of_unique nearlyEven_of_close, d, hmem, ?_⟩
    simp only
    by_cases hk : kind = .float
    · cases hmk : mkRange a b d with
      | error e =>
        exfalso
        have h0 : 0 < l.length := by omega
        have hl1 : l.length - 1 < l.length := by omega
        have ha : a = l[0] := by rw [h2]; simp [List.getElem?_eq_getElem h0]
        have hb : b - a = (l[l.length - 1] - l[0]) + d := by
          rw [h4, if_pos hk, ha]; simp [List.getElem?_eq_getElem hl1]; ring
        have hq : 1 < (b - a) / d := by
          rw [hb, add_div, div_self hd]
          have hsg := diff_sign hmem
          have : 0 < (l[l.length - 1] - l[0]) / d := by
            rcases h1 with h | h
            · have hlt := List.pairwise_iff_getElem.1 h 0 (l.length - 1) h0 hl1 (by omega)
              exact div_pos (by linarith) (hsg.1 h)
            · have hlt : l[l.length - 1] < l[0] := List.pairwise_iff_getElem.1 h 0 (l.length - 1) h0 hl1 (by omega)
              exact div_pos_of_neg_of_neg (by linarith) (hsg.2 h)
          linarith
        have hn : 1 ≤ ⌈roundDec 1 ((b - a) / d)⌉ := by
          by_contra hc
          have : ⌈roundDec 1 ((b - a) / d)⌉ ≤ 0 := by omega
          rw [ceil_roundDec_le (by norm_num)] at this
          norm_num at this
          linarith
        have := mkRange_eq a b d hd
        rw [hmk] at this
        simp only at this
        rw [if_pos hn] at this
        cases this
      | ok c =>
        have hv := mkRange_valid hd hmk
        have hc : c.start = a ∧ c.step = d := by
          have := mkRange_eq a b d hd
          rw [hmk] at this
          simp only at this
          split_ifs at this
          cases this
          exact ⟨rfl, rfl⟩
        simp only [bind, Except.bind]
        rcases changeLength_cases hv (decide (kind = .time)) (n := l.length) (by omega) with h | ⟨_, _, h⟩
        · left; rw [h, hc.1, hc.2, h2]
        · right; exact ⟨hk, h⟩
    · left
      rw [if_neg hk] at h4
      have : b = a + d * l.length := by rw [h4]; ring
      rw [this, mkRange_canonical hd (show 1 ≤ l.length by omega)]
      simp [bind, Except.bind, RangeCoord.changeLength, h2]

end Verif
