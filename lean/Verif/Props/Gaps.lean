import Verif.Proof.Gaps
/-!
# C39: edges of the cells around samples, with gaps
-/
namespace Verif
open Spec

/-- Non-empty strictly monotonic samples; a single one counts as increasing. -/
def Monotonic (d : ℚ) (v : List ℚ) : Prop := (d = 1 ∨ d = -1) ∧ v ≠ [] ∧ (v.length = 1 → d = 1) ∧ Runs d v

/-- C39 for numbers: for every strictly monotonic array and every gap factor of at least 1 (or none), the gaps found are exactly the spacings larger
than the factor times the median spacing, the edges run in the direction of the array, each sample has its own cell, and there is one
more cell after each sample followed by a gap. Missing: factors below 1 (see `C39_factor_violated`). -/
theorem C39_cells_partial (d : ℚ) (v : List ℚ) (factor : Option ℚ) (hv : Monotonic d v) (hf : ∀ f, factor = some f → 1 ≤ f) :
    ∃ edges mask, getGapEdges false v factor = .ok (edges, mask) ∧ MarksGaps v mask (gapRule v factor) ∧ Cells d v edges mask := by
  obtain ⟨hd, h0, h1, hr⟩ := hv
  obtain ⟨edges, he, hc⟩ := getGapEdges_cells false v factor d hd h0 h1 hr (by
    intro x hx
    rw [← diffs_abs] at hx
    obtain ⟨δ, hδ, rfl⟩ := List.mem_map.1 hx
    have := runs_diffs hr δ hδ
    rw [absQ_abs, abs_dir hd this]
    simpa [Wide] using this) hf
  exact ⟨edges, _, he, marksGaps v factor, hc⟩

/-- C39 for datetimes (in nanoseconds): the same, if neighbours are at least 2 ns apart. -/
theorem C39_times_partial (d : ℚ) (v : List ℚ) (factor : Option ℚ) (hv : Monotonic d v) (hf : ∀ f, factor = some f → 1 ≤ f)
    (h2 : ∀ x ∈ spacings v, 2 ≤ x) :
    ∃ edges mask, getGapEdges true v factor = .ok (edges, mask) ∧ MarksGaps v mask (gapRule v factor) ∧ Cells d v edges mask := by
  obtain ⟨hd, h0, h1, hr⟩ := hv
  obtain ⟨edges, he, hc⟩ := getGapEdges_cells true v factor d hd h0 h1 hr (fun x hx => by simpa [Wide] using h2 x hx) hf
  exact ⟨edges, _, he, marksGaps v factor, hc⟩

/-- The gaps are found exactly, whatever the array and the factor. -/
theorem C39_gaps (t : Bool) (v : List ℚ) (factor : Option ℚ) {edges : List ℚ} {mask : List Bool} (h : getGapEdges t v factor = .ok (edges, mask)) :
    MarksGaps v mask (gapRule v factor) := by
  have : mask = gapMask v factor := by
    match v, h with
    | [x], h =>
      simp only [getGapEdges, Except.ok.injEq, Prod.mk.injEq] at h
      rw [← h.2]; cases factor <;> simp [gapMask, diffs]
    | x :: y :: v, h =>
      unfold getGapEdges at h
      simp only at h
      split at h
      · simp only [Except.ok.injEq, Prod.mk.injEq] at h; exact h.2.symm
      · simp only [Except.ok.injEq, Prod.mk.injEq] at h; exact h.2.symm
  rw [this]; exact marksGaps v factor

/-- What `Cells` means: each sample lies in exactly one cell, and each cell either holds exactly one sample or none; the latter exactly
when it is the cell after a sample that is followed by a gap. -/
theorem C39_one_cell {d : ℚ} {v edges : List ℚ} {mask : List Bool} (h : Cells d v edges mask) (hl : mask.length = v.length - 1) (h0 : v ≠ []) :
    (∀ (i : ℕ) x, v[i]? = some x → ∃! c, InCell d edges c x) ∧
    ∀ c, c + 1 < edges.length →
      ((∃! i : ℕ, ∃ x, v[i]? = some x ∧ InCell d edges c x) ∧ ∀ i, mask[i]? = some true → c ≠ cellOf mask i + 1) ∨
      ((∃! i : ℕ, mask[i]? = some true ∧ c = cellOf mask i + 1) ∧ ∀ x ∈ v, ¬ InCell d edges c x) := by
  have hlen : 0 < v.length := List.length_pos_iff.2 h0
  have hdiff : ∀ i j, mask[i]? = some true → cellOf mask j ≠ cellOf mask i + 1 := by
    intro i j hi hc
    have h2 := cellOf_gap hi
    rcases Nat.lt_or_ge i j with hij | hij
    · rcases Nat.eq_or_lt_of_le (Nat.succ_le_of_lt hij) with rfl | hij'
      · rw [Nat.succ_eq_add_one] at hc; omega
      · have := cellOf_strict mask hij'
        rw [Nat.succ_eq_add_one] at this; omega
    · rcases Nat.eq_or_lt_of_le hij with rfl | hij
      · omega
      · have := cellOf_strict mask hij; omega
  have hinj : ∀ i j, cellOf mask i = cellOf mask j → i = j := by
    intro i j hc
    rcases Nat.lt_trichotomy i j with hij | hij | hij
    · have := cellOf_strict mask hij; omega
    · exact hij
    · have := cellOf_strict mask hij; omega
  refine ⟨fun i x hx => ⟨_, h.holds i x hx, fun c hc => inCell_unique h.runs hc (h.holds i x hx)⟩, ?_⟩
  intro c hc
  have hcount := h.count
  rcases cellOf_cover mask c (by omega) with ⟨i, hi, rfl⟩ | ⟨i, hi, rfl⟩
  · left
    obtain ⟨x, hx⟩ : ∃ x, v[i]? = some x := ⟨_, List.getElem?_eq_getElem (by omega)⟩
    refine ⟨⟨i, ⟨x, hx, h.holds i x hx⟩, ?_⟩, fun j hj => hdiff j i hj⟩
    rintro j ⟨y, hy, hyc⟩
    exact hinj j i (inCell_unique h.runs (h.holds j y hy) hyc)
  · right
    refine ⟨⟨i, ⟨hi, rfl⟩, fun j ⟨hj, he⟩ => (hinj j i (by omega))⟩, ?_⟩
    intro x hx hxc
    obtain ⟨j, hj⟩ := List.mem_iff_getElem?.1 hx
    exact hdiff i j hi (inCell_unique h.runs (h.holds j x hj) hxc)

/-- Where the edges are (numbers, at least two of them): halfway between neighbours, half the median spacing from the samples at a gap,
and at the ends as far from the outermost sample as its other edge. -/
theorem C39_places (d : ℚ) (v : List ℚ) (factor : Option ℚ) (hv : Monotonic d v) (h2 : 2 ≤ v.length) :
    ∃ edges mask m, getGapEdges false v factor = .ok (edges, mask) ∧ IsMedian (spacings v) m ∧ Placed d m v edges mask ∧
      (∃ a b e, v[0]? = some a ∧ edges[1]? = some e ∧ edges[0]? = some b ∧ a - b = e - a) ∧
      ∃ a b e, v[v.length - 1]? = some a ∧ edges[edges.length - 2]? = some e ∧ edges[edges.length - 1]? = some b ∧ b - a = a - e := by
  obtain ⟨hd, -, -, hr⟩ := hv
  match v, h2 with
  | x :: y :: v, _ =>
    have hlen : (gapMask (x :: y :: v) factor).length = (y :: v).length := by simpa using (marksGaps (x :: y :: v) factor).1
    have hform := getGapEdges_form false x y v factor d hd hr
    refine ⟨_, _, npMedian false (spacings (x :: y :: v)), hform, npMedian_isMedian _, ?_, ?_, ?_⟩
    · have hp := edgeLoop_placed (d * npMedian false ((diffs (x :: y :: v)).map absQ)) (y :: v) x (gapMask (x :: y :: v) factor)
        (x - divBy false (if (gapMask (x :: y :: v) factor).headD false then d * npMedian false ((diffs (x :: y :: v)).map absQ) else y - x) 2)
        ((x :: y :: v).getLastD 0 + divBy false (if (gapMask (x :: y :: v) factor).getLastD false then
          d * npMedian false ((diffs (x :: y :: v)).map absQ) else (diffs (x :: y :: v)).getLastD 0) 2) hlen
      rw [diffs_abs] at hp ⊢
      intro i a b ha hb
      have := hp i a b ha hb
      simpa using this
    · refine ⟨_, _, ?_, rfl, ?_, rfl, ?_⟩
      · exact x + divBy false (if (gapMask (x :: y :: v) factor).headD false then d * npMedian false ((diffs (x :: y :: v)).map absQ) else y - x) 2
      · cases hm : gapMask (x :: y :: v) factor with
        | nil => rw [hm] at hlen; simp at hlen
        | cons g gs => cases g <;> simp [edgeLoop]
      · ring
    · have hlast := edgeLoop_last (d * npMedian false ((diffs (x :: y :: v)).map absQ)) v x y (gapMask (x :: y :: v) factor) (by simpa using hlen)
      refine ⟨?_, ?_, ?_, ?_, ?_, ?_, ?_⟩
      · exact (x :: y :: v).getLastD 0
      · exact (x :: y :: v).getLastD 0 + divBy false (if (gapMask (x :: y :: v) factor).getLastD false then
          d * npMedian false ((diffs (x :: y :: v)).map absQ) else (diffs (x :: y :: v)).getLastD 0) 2
      · exact (x :: y :: v).getLastD 0 - divBy false (if (gapMask (x :: y :: v) factor).getLastD false then
          d * npMedian false ((diffs (x :: y :: v)).map absQ) else (diffs (x :: y :: v)).getLastD 0) 2
      · rw [← List.getLast?_eq_getElem?, List.getLastD_eq_getLast?]
        simp [List.getLast?_cons]
      · generalize edgeLoop false (d * npMedian false ((diffs (x :: y :: v)).map absQ)) (x :: y :: v) (gapMask (x :: y :: v) factor) = L at hlast ⊢
        have hL : L ≠ [] := by rintro rfl; simp at hlast
        have hpos := List.length_pos_iff.2 hL
        rw [List.getLast?_eq_getElem?] at hlast
        have e : ((x - divBy false (if (gapMask (x :: y :: v) factor).headD false then d * npMedian false ((diffs (x :: y :: v)).map absQ) else y - x) 2) ::
          (L ++ [(x :: y :: v).getLastD 0 + divBy false (if (gapMask (x :: y :: v) factor).getLastD false then
          d * npMedian false ((diffs (x :: y :: v)).map absQ) else (diffs (x :: y :: v)).getLastD 0) 2])).length - 2 = (L.length - 1) + 1 := by simp; omega
        rw [e, List.getElem?_cons_succ, List.getElem?_append_left (by omega)]
        exact hlast
      · rw [← List.getLast?_eq_getElem?]
        simp [List.getLast?_cons]
      · ring

/-! ### Where it fails -/

theorem allDiffs_runs (d : ℚ) (v : List ℚ) : (∀ x ∈ diffs v, 0 < d * x) ↔ Runs d v := by
  unfold Runs
  induction v with
  | nil => simp [diffs]
  | cons a v ih =>
    cases v with
    | nil => simp [diffs]
    | cons b v =>
      have hcons : diffs (a :: b :: v) = (b - a) :: diffs (b :: v) := rfl
      rw [hcons, List.forall_mem_cons, ih, List.pairwise_cons (a := a)]
      constructor
      · rintro ⟨h0, h⟩
        refine ⟨fun c hc => ?_, h⟩
        rcases List.mem_cons.1 hc with rfl | hc
        · exact h0
        · have := (List.pairwise_cons.1 h).1 c hc
          linarith
      · rintro ⟨h0, h⟩
        exact ⟨h0 b (by simp), h⟩

/-- C39: coordinates are plotted as cells exactly if they are strictly increasing or strictly decreasing. -/
theorem C39_accepts (v : List ℚ) : isMonotonic v = true ↔ Runs 1 v ∨ Runs (-1) v := by
  rw [← allDiffs_runs, ← allDiffs_runs]
  simp [isMonotonic]

example : isMonotonic [10, 9, 3] = true ∧ isMonotonic [1, 1, 2] = false := by decide +kernel

/-- C39 is violated for gap factors below 1: with the samples 0, 10, 19 and the factor 1/2, each spacing is a gap although it is shorter than
(or as long as) the step used for the cells, and the edges run backwards. -/
theorem C39_factor_violated : ∃ v edges mask, Monotonic 1 v ∧ getGapEdges false v (some (1 / 2)) = .ok (edges, mask) ∧
    edges = [-19/4, 19/4, 21/4, 59/4, 57/4, 95/4] ∧ ¬ Runs 1 edges := by
  refine ⟨[0, 10, 19], [-19/4, 19/4, 21/4, 59/4, 57/4, 95/4], [true, true], ⟨Or.inl rfl, by simp, by simp, ?_⟩, by decide +kernel, rfl, ?_⟩
  · unfold Runs; decide +kernel
  · unfold Runs; decide +kernel

/-- C39 is violated for datetimes one nanosecond apart: half the step is truncated to zero and the first two edges coincide. -/
theorem C39_times_violated : ∃ v edges mask, Monotonic 1 v ∧ getGapEdges true v none = .ok (edges, mask) ∧ edges = [0, 0, 1, 2] ∧ ¬ Runs 1 edges := by
  refine ⟨[0, 1, 2], [0, 0, 1, 2], [false, false], ⟨Or.inl rfl, by simp, by simp, ?_⟩, by decide +kernel, rfl, ?_⟩
  · unfold Runs; decide +kernel
  · unfold Runs; decide +kernel

/-- An empty array is rejected. -/
theorem C39_empty (t : Bool) (factor : Option ℚ) : getGapEdges t [] factor = .error .indexError := rfl

/-! ### The hypotheses can be met -/

example : Monotonic (-1) [10, 9, 8, 3, 2] ∧ (∀ f, some (3 / 2 : ℚ) = some f → 1 ≤ f) ∧
    getGapEdges false [10, 9, 8, 3, 2] (some (3 / 2)) = .ok ([21/2, 19/2, 17/2, 15/2, 7/2, 5/2, 3/2], [false, false, true, false]) := by
  refine ⟨⟨Or.inr rfl, by simp, by simp, by unfold Runs; decide +kernel⟩, ?_, by decide +kernel⟩
  intro f hf; cases hf; decide +kernel

example : Monotonic 1 [0, 5, 10, 30] ∧ (∀ x ∈ spacings [0, 5, 10, 30], 2 ≤ x) ∧
    getGapEdges true [0, 5, 10, 30] (some 2) = .ok ([-2, 2, 7, 12, 28, 32], [false, false, true]) := by
  refine ⟨⟨Or.inl rfl, by simp, by simp, by unfold Runs; decide +kernel⟩, by decide +kernel, by decide +kernel⟩

end Verif
