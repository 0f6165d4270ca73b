import Verif.Props.CoordArray
/-!
# Properties C11, C12, C13: get_next_index, update_limits, snap
-/
namespace Verif
open Spec

theorem foldl_min_spec (l : List ℚ) (a : ℚ) : (l.foldl min a = a ∨ l.foldl min a ∈ l) ∧ l.foldl min a ≤ a ∧
    ∀ x ∈ l, l.foldl min a ≤ x := by
  induction l generalizing a with
  | nil => simp
  | cons b r ih =>
    obtain ⟨h1, h2, h3⟩ := ih (min a b)
    simp only [List.foldl_cons, List.mem_cons]
    refine ⟨?_, h2.trans (min_le_left _ _), ?_⟩
    · rcases h1 with h1 | h1
      · rw [h1]
        rcases min_choice a b with h | h
        · exact Or.inl h
        · exact Or.inr (Or.inl h)
      · exact Or.inr (Or.inr h1)
    · rintro x (rfl | hx)
      · exact h2.trans (min_le_right _ _)
      · exact h3 x hx

theorem foldl_max_spec (l : List ℚ) (a : ℚ) : (l.foldl max a = a ∨ l.foldl max a ∈ l) ∧ a ≤ l.foldl max a ∧
    ∀ x ∈ l, x ≤ l.foldl max a := by
  induction l generalizing a with
  | nil => simp
  | cons b r ih =>
    obtain ⟨h1, h2, h3⟩ := ih (max a b)
    simp only [List.foldl_cons, List.mem_cons]
    refine ⟨?_, (le_max_left _ _).trans h2, ?_⟩
    · rcases h1 with h1 | h1
      · rw [h1]
        rcases max_choice a b with h | h
        · exact Or.inl h
        · exact Or.inr (Or.inl h)
      · exact Or.inr (Or.inr h1)
    · rintro x (rfl | hx)
      · exact (le_max_right _ _).trans h2
      · exact h3 x hx

theorem foldl_min_isMin {l : List ℚ} (h : l ≠ []) : IsMin l (l.foldl min (l.getD 0 0)) := by
  obtain ⟨h1, h2, h3⟩ := foldl_min_spec l (l.getD 0 0)
  refine ⟨?_, h3⟩
  rcases h1 with h1 | h1
  · rw [h1]
    match l, h with
    | a :: r, _ => simp
  · exact h1

theorem foldl_max_isMax {l : List ℚ} (h : l ≠ []) : IsMax l (l.foldl max (l.getD 0 0)) := by
  obtain ⟨h1, h2, h3⟩ := foldl_max_spec l (l.getD 0 0)
  refine ⟨?_, h3⟩
  rcases h1 with h1 | h1
  · rw [h1]
    match l, h with
    | a :: r, _ => simp
  · exact h1

/-- Limits of a valid ascending range. -/
theorem limits_up {c : RangeCoord} (hv : c.Valid) (h : 0 < c.step) :
    c.cmin = c.start ∧ c.cmax = c.start + (c.len - 1) * c.step := by
  have hlq : (0 : ℚ) ≤ (c.len : ℚ) - 1 := by
    have : (1 : ℚ) ≤ c.len := by exact_mod_cast hv.len_pos
    linarith
  constructor
  · rw [hv.cmin_eq]; apply min_eq_left; nlinarith
  · rw [hv.cmax_eq]; apply max_eq_right; nlinarith

/-- **C11** evenly sampled ascending coordinate: for values within the limits, the index of the first sample
not smaller than the value (up to half of 1e-10 steps), for each value; any value outside the limits makes
the call raise ValueError; a descending coordinate raises CoordError. -/
theorem C11_next_index_range (c : RangeCoord) (hc : BuiltRange c) (vs : List ℚ) :
    (0 < c.step → (∀ v ∈ vs, c.cmin ≤ v ∧ v ≤ c.cmax) → ∃ is, (Coord.range c).getNextIndex vs false = .ok is ∧
      (Coord.range c).getNextIndex vs true = .ok is ∧
      List.Forall₂ (fun v i => FirstAtOrAfter (c.step / (2 * 10 ^ 10)) c.values v i) vs is) ∧
    (0 < c.step → (∃ v ∈ vs, v < c.cmin ∨ c.cmax < v) → (Coord.range c).getNextIndex vs false = .error .valueError) ∧
    (c.step < 0 → (Coord.range c).getNextIndex vs false = .error .coordError) := by
  have hv := hc.valid
  refine ⟨?_, ?_, ?_⟩
  · intro hs hin
    have hsort : (Coord.range c).isSorted = true := by simp [Coord.isSorted, RangeCoord.sorted, hs.le]
    have hoob : (vs.any fun v => decide (c.cmax < v) || decide (v < c.cmin)) = false := by
      rw [List.any_eq_false]
      intro v hvm
      have := hin v hvm
      simp [this.1, this.2]
    refine ⟨vs.map fun v => ⌈roundDec 10 ((v - c.start) / c.step)⌉, ?_, ?_, ?_⟩
    · simp [Coord.getNextIndex, hsort, hoob]
    · simp [Coord.getNextIndex, hsort, hoob]
    · rw [List.forall₂_map_right_iff, List.forall₂_same]
      intro v hvm
      obtain ⟨hlo, hhi⟩ := hin v hvm
      have hl := limits_up hv hs
      rw [hl.1] at hlo; rw [hl.2] at hhi
      have key : ∀ i : ℤ, ⌈roundDec 10 ((v - c.start) / c.step)⌉ ≤ i ↔
          (v - c.start) / c.step ≤ i + 1 / (2 * 10 ^ 10) := fun i => ceil_roundDec_le (by norm_num)
      have hq0 : 0 ≤ (v - c.start) / c.step := div_nonneg (by linarith) hs.le
      refine ⟨?_, ?_, ?_⟩
      · by_contra hneg
        have : ⌈roundDec 10 ((v - c.start) / c.step)⌉ ≤ -1 := by omega
        rw [key] at this
        norm_num at this
        linarith
      · rw [hv.length_values]
        have : ⌈roundDec 10 ((v - c.start) / c.step)⌉ ≤ (c.len : ℤ) - 1 := by
          rw [key]
          have : (v - c.start) / c.step ≤ (c.len : ℚ) - 1 := by
            rw [div_le_iff₀ hs]; linarith
          push_cast
          have : (0 : ℚ) < 1 / (2 * 10 ^ 10) := by norm_num
          linarith
        omega
      · intro j x hx
        rw [hv.values_eq] at hx
        simp only [progression, List.getElem?_map, Option.map_eq_some_iff] at hx
        obtain ⟨k, hk, rfl⟩ := hx
        obtain ⟨hk1, rfl⟩ := List.getElem?_eq_some_iff.1 hk
        simp only [List.getElem_range]
        rw [key, div_le_iff₀ hs]
        push_cast
        have e : ((j : ℚ) + 1 / (2 * 10 ^ 10)) * c.step = j * c.step + c.step / (2 * 10 ^ 10) := by ring
        rw [e]
        constructor <;> intro _ <;> linarith
  · intro hs ⟨v, hvm, hout⟩
    have hsort : (Coord.range c).isSorted = true := by simp [Coord.isSorted, RangeCoord.sorted, hs.le]
    have hoob : (vs.any fun v => decide (c.cmax < v) || decide (v < c.cmin)) = true := by
      rw [List.any_eq_true]
      refine ⟨v, hvm, ?_⟩
      rcases hout with h | h <;> simp [h]
    simp [Coord.getNextIndex, hsort, hoob]
  · intro hs
    simp [Coord.getNextIndex, Coord.isSorted, RangeCoord.sorted, not_le.2 hs]
example : BuiltRange exUp ∧ (Coord.range exUp).getNextIndex [5, 6, 14] false = .ok [0, 1, 3] :=
  ⟨exUp_built, by decide +kernel⟩

/-- **C11** out of bounds on an evenly sampled coordinate: on-grid values of the extended coordinate get
their (possibly negative or past the end) index. Missing: off-grid values, which are truncated towards the
first sample instead of taking the next index (`C11_out_of_bounds_violated`). -/
theorem C11_out_of_bounds_partial (c : RangeCoord) (hc : BuiltRange c) (hs : 0 < c.step) (ks : List ℤ) :
    (Coord.range c).getNextIndex (ks.map fun k : ℤ => c.start + (k : ℚ) * c.step) true = .ok ks := by
  have hv := hc.valid
  have hsort : (Coord.range c).isSorted = true := by simp [Coord.isSorted, RangeCoord.sorted, hs.le]
  have hmin := (limits_up hv hs).1
  have hdiv : ∀ k : ℤ, (c.start + (k : ℚ) * c.step - c.start) / c.step = k := by
    intro k; field_simp; ring
  unfold Coord.getNextIndex
  simp only [hsort, Bool.not_true, Bool.false_eq_true, if_false, Bool.false_and]
  split_ifs with h
  · congr 1
    rw [List.map_map]
    conv_rhs => rw [← List.map_id ks]
    apply List.map_congr_left
    intro k _
    simp only [Function.comp_apply, hmin, hdiv, id]
    unfold truncZ
    split_ifs <;> simp
  · congr 1
    rw [List.map_map]
    conv_rhs => rw [← List.map_id ks]
    apply List.map_congr_left
    intro k _
    simp only [Function.comp_apply, hdiv, id, roundDec_int, Int.ceil_intCast]
example : BuiltRange exUp ∧ (0 : ℚ) < exUp.step := ⟨exUp_built, by norm_num [exUp]⟩

/-- **C11 violated** with `allow_out_of_bounds`: on the coordinate 0, 1, ..., 9 the value 10.5 gets index 10,
although the next sample of the extended coordinate is 11; and the in-bounds value 2.5 gets index 3 when asked
alone but 2 when asked together with an out-of-bounds value. -/
theorem C11_out_of_bounds_violated :
    (Coord.range ⟨0, 10, 1, 10⟩).getNextIndex [21 / 2] true = .ok [10] ∧
    (Coord.range ⟨0, 10, 1, 10⟩).getNextIndex [5 / 2] true = .ok [3] ∧
    (Coord.range ⟨0, 10, 1, 10⟩).getNextIndex [5 / 2, 20] true = .ok [2, 20] := by
  refine ⟨?_, ?_, ?_⟩ <;> decide +kernel

/-- **C11** strictly increasing array coordinate: for values above the first label and up to the last, the index
of the first sample not smaller than the value. Missing: the first label itself, where it is false
(`C11_first_label_violated`). -/
theorem C11_next_index_mono_partial (l : List ℚ) (hl : l.Pairwise (· < ·)) (vs : List ℚ)
    (hin : ∀ v ∈ vs, (∃ a, l.head? = some a ∧ a < v) ∧ ∃ b, l.getLast? = some b ∧ v ≤ b) (hne : l ≠ []) :
    ∃ is, (Coord.mono l).getNextIndex vs false = .ok is ∧ List.Forall₂ (FirstAtOrAfter 0 l) vs is := by
  have hle : l.Pairwise (· ≤ ·) := hl.imp le_of_lt
  have hpos : 1 ≤ l.length := List.length_pos_iff.2 hne
  have hsort : (Coord.mono l).isSorted = true := isSorted_of_inc hl hpos
  have hmn := foldl_min_isMin hne
  have hmx := foldl_max_isMax hne
  set mn := l.foldl min (l.getD 0 0) with hmndef
  set mx := l.foldl max (l.getD 0 0) with hmxdef
  have hb : ∀ v ∈ vs, mn < v ∧ v ≤ mx := by
    intro v hvm
    obtain ⟨⟨a, ha, hav⟩, b, hb, hbv⟩ := hin v hvm
    exact ⟨lt_of_le_of_lt (hmn.2 a (List.mem_of_head? ha)) hav, hbv.trans (hmx.2 b (List.mem_of_getLast? hb))⟩
  have hoob : (vs.any fun v => decide (mx < v) || decide (v < mn)) = false := by
    rw [List.any_eq_false]
    intro v hvm
    have := hb v hvm
    simp [this.1.le, this.2]
  refine ⟨vs.map fun v => (MonoCoord.getIndexV l (if mx < v then mx else if v < mn then mn else v) true : ℤ), ?_, ?_⟩
  · simp only [Coord.getNextIndex, hsort, Bool.not_true, Bool.false_eq_true, if_false, ← hmndef, ← hmxdef, hoob, Bool.not_false, Bool.true_and]
  · rw [List.forall₂_map_right_iff, List.forall₂_same]
    intro v hvm
    obtain ⟨hv1, hv2⟩ := hb v hvm
    rw [if_neg (not_lt.2 hv2), if_neg (not_lt.2 hv1.le)]
    obtain ⟨⟨a, ha, hav⟩, b, hb', hbv⟩ := hin v hvm
    have h0 : l[0]'(by omega) = a := by
      rw [List.head?_eq_getElem?, List.getElem?_eq_getElem (by omega)] at ha
      simpa using ha
    have hlast : l[l.length - 1]'(by omega) = b := by
      rw [List.getLast?_eq_getElem?, List.getElem?_eq_getElem (by omega)] at hb'
      simpa using hb'
    have hL0 : 0 < searchLeft l v := (searchLeft_spec hle v 0 (by omega)).1 (by rw [h0]; exact hav)
    have hLn : searchLeft l v < l.length := by
      by_contra hcon
      have := (searchLeft_spec hle v (l.length - 1) (by omega)).2 (by omega)
      rw [hlast] at this
      linarith
    have hg : MonoCoord.getIndexV l v true = searchLeft l v := by
      have hrev := isReverse_of_inc hl
      unfold MonoCoord.getIndexV
      simp only [hrev, Bool.false_eq_true, if_false, Bool.not_false, Bool.true_and, if_true, hLn, hL0, decide_true,
        min_eq_left (show searchLeft l v ≤ l.length - 1 by omega), List.getElem?_eq_getElem hLn]
      by_cases he : l[searchLeft l v] = v
      · simp [he]
      · simp only [Option.some.injEq, he, decide_false, Bool.false_eq_true, if_false]
        have h1 := searchLeft_le_right l v
        have h2 : ¬ searchLeft l v < searchRight l v := by
          intro hh
          have h3 := (searchRight_spec hle v _ hLn).2 hh
          have h4 : ¬ l[searchLeft l v] < v := fun h => by
            have := (searchLeft_spec hle v _ hLn).1 h
            omega
          exact he (le_antisymm h3 (not_lt.1 h4))
        omega
    rw [hg]
    refine ⟨by omega, by exact_mod_cast hLn, ?_⟩
    intro j x hx
    obtain ⟨hj, rfl⟩ := List.getElem?_eq_some_iff.1 hx
    have := searchLeft_spec hle v j hj
    rw [sub_zero, ← not_lt, this]
    omega
example : ([1, 4, 9] : List ℚ).Pairwise (· < ·) ∧ (Coord.mono [1, 4, 9]).getNextIndex [2, 4, 9] false = .ok [1, 1, 2] :=
  ⟨by decide +kernel, by decide +kernel⟩

/-- **C11 violated**: on any strictly increasing array coordinate the index returned for its own first label
is 1, not 0 - past the end for a single sample. -/
theorem C11_first_label_violated (a : ℚ) (r : List ℚ) (h : (a :: r).Pairwise (· < ·)) :
    (Coord.mono (a :: r)).getNextIndex [a] false = .ok [1] := by
  have hle : (a :: r).Pairwise (· ≤ ·) := h.imp le_of_lt
  have hne : a :: r ≠ [] := by simp
  have hsort : (Coord.mono (a :: r)).isSorted = true := isSorted_of_inc h (by simp)
  have hmn := foldl_min_isMin hne
  have hmx := foldl_max_isMax hne
  have h1 : ¬ (a :: r).foldl max ((a :: r).getD 0 0) < a := not_lt.2 (hmx.2 a (by simp))
  have h2 : (a :: r).foldl min ((a :: r).getD 0 0) = a := by
    apply le_antisymm (hmn.2 a (by simp))
    rcases List.mem_cons.1 hmn.1 with h3 | h3
    · exact h3.symm.le
    · exact ((List.pairwise_cons.1 h).1 _ h3).le
  have hL : searchLeft (a :: r) a = 0 := by
    by_contra hcon
    have := (searchLeft_spec hle a 0 (by simp)).2 (by omega)
    simp at this
  have hR : searchRight (a :: r) a = 1 := by
    have := searchRight_strict h a
    have := (searchRight_spec hle a 0 (by simp)).1 (by simp)
    omega
  have hg : MonoCoord.getIndexV (a :: r) a true = 1 := by
    have hrev := isReverse_of_inc h
    unfold MonoCoord.getIndexV
    simp only [hrev, Bool.false_eq_true, if_false, hL, hR, if_true]
    simp
  unfold Coord.getNextIndex
  simp only [hsort, Bool.not_true, Bool.false_eq_true, if_false, List.any_cons, List.any_nil, h1, h2, lt_irrefl,
    decide_false, Bool.or_false, Bool.not_false, Bool.and_false, List.map_cons, List.map_nil, hg]
  rfl
example : ([1, 4, 9] : List ℚ).Pairwise (· < ·) := by decide +kernel

/-- **C11** sample mode: in-range sample numbers (negative ones counting from the end) give the sample index;
others raise ValueError. -/
theorem C11_samples (c : Coord) (hs : c.isSorted = true) (ix : List ℤ) :
    (c.getNextIndexSamples ix false = .ok (ix.map fun i : ℤ => if i < 0 then i + (c.length : ℤ) else i) ↔
      ∀ i ∈ ix, -(c.length : ℤ) ≤ i ∧ i < c.length) ∧
    (c.getNextIndexSamples ix false = .error .valueError ↔ ∃ i ∈ ix, i < -(c.length : ℤ) ∨ (c.length : ℤ) ≤ i) := by
  have hm : (ix.map fun i : ℤ => if i < 0 then i + ((c.length : ℤ) - 1) + 1 else i) = ix.map fun i : ℤ => if i < 0 then i + (c.length : ℤ) else i := by
    apply List.map_congr_left
    intro i _
    split_ifs <;> omega
  have hoob : (((ix.map fun i => if i < 0 then i + (c.length : ℤ) else i).any
      fun i => decide ((c.length : ℤ) - 1 < i) || decide (i < 0)) = true) ↔
      ∃ i ∈ ix, i < -(c.length : ℤ) ∨ (c.length : ℤ) ≤ i := by
    rw [List.any_map, List.any_eq_true]
    apply exists_congr
    intro i
    apply and_congr_right
    intro _
    simp only [Function.comp_apply, Bool.or_eq_true, decide_eq_true_eq]
    split_ifs with h <;> omega
  unfold Coord.getNextIndexSamples
  simp only [hs, Bool.not_true, Bool.false_eq_true, if_false, Bool.not_false, Bool.true_and, hm]
  by_cases ho : ∃ i ∈ ix, i < -(c.length : ℤ) ∨ (c.length : ℤ) ≤ i
  · rw [if_pos (hoob.2 ho)]
    refine ⟨⟨fun h => (by cases h), fun h => ?_⟩, ⟨fun _ => ho, fun _ => rfl⟩⟩
    obtain ⟨i, hi, h2⟩ := ho
    have := h i hi
    omega
  · rw [if_neg (fun h => ho (hoob.1 h))]
    refine ⟨⟨fun _ i hi => ?_, fun _ => rfl⟩, ⟨fun h => (by cases h), fun h => absurd h ho⟩⟩
    by_contra hcon
    exact ho ⟨i, hi, by omega⟩
example : (Coord.range exUp).isSorted = true ∧ (Coord.range exUp).getNextIndexSamples [-1, 2] false = .ok [3, 2] := by
  constructor <;> decide +kernel

/-! ### update_limits -/

/-- **C12** evenly sampled, ascending: `update_limits` with one of min, max, step does what it says and keeps
length and the other spacing. -/
theorem C12_update_limits_ascending (c : RangeCoord) (hc : BuiltRange c) (hs : 0 < c.step) (m : ℚ) :
    (∃ r, c.updateLimits (some m) none none = .ok (.range r) ∧ r.len = c.len ∧ r.step = c.step ∧ r.cmin = m ∧
      r.values = progression m c.step c.len) ∧
    (∃ r, c.updateLimits none (some m) none = .ok (.range r) ∧ r.len = c.len ∧ r.step = c.step ∧ r.cmax = m ∧
      r.values = progression (m - (c.len - 1) * c.step) c.step c.len) ∧
    (m ≠ 0 → ∃ r, c.updateLimits none none (some m) = .ok (.range r) ∧ r.len = c.len ∧ r.step = m ∧
      r.values = progression c.start m c.len) := by
  have hv := hc.valid
  have hnew : ∀ (start stop step : ℚ), step ≠ 0 → stop = start + step * c.len →
      c.new start stop step = .ok (.range ⟨start, stop, step, c.len⟩) := fun start stop step h1 h2 =>
    new_canonical h1 hv.len_pos h2
  refine ⟨?_, ?_, ?_⟩
  · refine ⟨⟨m, c.stop + (m - c.start), c.step, c.len⟩, ?_, rfl, rfl, ?_, ?_⟩
    · simp only [RangeCoord.updateLimits, bind, Except.bind]
      rw [hnew m (c.stop + (m - c.start)) c.step hv.step_ne (by rw [hv.stop_eq]; ring)]
    · exact (limits_up (c := ⟨m, c.stop + (m - c.start), c.step, c.len⟩) ⟨hv.step_ne, hv.len_pos, by simp only; rw [hv.stop_eq]; ring⟩ hs).1
    · exact RangeCoord.Valid.values_eq (c := ⟨m, c.stop + (m - c.start), c.step, c.len⟩) ⟨hv.step_ne, hv.len_pos, by simp only; rw [hv.stop_eq]; ring⟩
  · have hval : (⟨c.start + ((m + c.step) - c.stop), m + c.step, c.step, c.len⟩ : RangeCoord).Valid :=
      ⟨hv.step_ne, hv.len_pos, by simp only; rw [hv.stop_eq]; ring⟩
    refine ⟨⟨c.start + ((m + c.step) - c.stop), m + c.step, c.step, c.len⟩, ?_, rfl, rfl, ?_, ?_⟩
    · simp only [RangeCoord.updateLimits, bind, Except.bind]
      exact hnew _ _ _ hv.step_ne hval.stop_eq
    · rw [(limits_up hval hs).2]; simp only; rw [hv.stop_eq]; ring
    · rw [hval.values_eq]; simp only
      congr 1; rw [hv.stop_eq]; ring
  · intro hm
    have hval : (⟨c.start, c.start + m * c.len, m, c.len⟩ : RangeCoord).Valid := ⟨hm, hv.len_pos, rfl⟩
    refine ⟨⟨c.start, c.start + m * c.len, m, c.len⟩, ?_, rfl, rfl, hval.values_eq⟩
    simp only [RangeCoord.updateLimits, bind, Except.bind]
    rw [hnew _ _ _ hm rfl]
example : BuiltRange exUp ∧ (0 : ℚ) < exUp.step ∧ exUp.updateLimits none (some 20) none = .ok (.range ⟨11, 23, 3, 4⟩) :=
  ⟨exUp_built, by norm_num [exUp], by decide +kernel⟩

/-- **C12** any direction: `update_limits` moves the *first* sample to `min` and the *last* sample to `max`,
keeping length and step. For a descending coordinate this is not what was asked
(`C12_descending_violated`). -/
theorem C12_update_limits_partial (c : RangeCoord) (hc : BuiltRange c) (m : ℚ) :
    (∃ r, c.updateLimits (some m) none none = .ok (.range r) ∧ r.values = progression m c.step c.len) ∧
    (∃ r, c.updateLimits none (some m) none = .ok (.range r) ∧
      r.values = progression (m - (c.len - 1) * c.step) c.step c.len) := by
  have hv := hc.valid
  have hval1 : (⟨m, c.stop + (m - c.start), c.step, c.len⟩ : RangeCoord).Valid :=
    ⟨hv.step_ne, hv.len_pos, by simp only; rw [hv.stop_eq]; ring⟩
  have hval2 : (⟨c.start + ((m + c.step) - c.stop), m + c.step, c.step, c.len⟩ : RangeCoord).Valid :=
    ⟨hv.step_ne, hv.len_pos, by simp only; rw [hv.stop_eq]; ring⟩
  refine ⟨⟨⟨m, c.stop + (m - c.start), c.step, c.len⟩, ?_, hval1.values_eq⟩,
    ⟨⟨c.start + ((m + c.step) - c.stop), m + c.step, c.step, c.len⟩, ?_, ?_⟩⟩
  · simp only [RangeCoord.updateLimits, bind, Except.bind]
    have h : c.new m (c.stop + (m - c.start)) c.step = _ := new_canonical hv.step_ne hv.len_pos hval1.stop_eq
    rw [h]
  · simp only [RangeCoord.updateLimits, bind, Except.bind]
    exact new_canonical hv.step_ne hv.len_pos hval2.stop_eq
  · rw [hval2.values_eq]; simp only
    congr 1; rw [hv.stop_eq]; ring
example : BuiltRange exDown := exDown_built

/-- **C12 violated** on descending coordinates: `update_limits(min=100)` on 14, 11, 8, 5 gives 100, 97, 94, 91
(whose minimum is 91), and `update_limits(max=100)` gives 109, 106, 103, 100. -/
theorem C12_descending_violated :
    exDown.updateLimits (some 100) none none = .ok (.range ⟨100, 88, -3, 4⟩) ∧
    (⟨100, 88, -3, 4⟩ : RangeCoord).cmin = 91 ∧
    exDown.updateLimits none (some 100) none = .ok (.range ⟨109, 97, -3, 4⟩) ∧
    (⟨109, 97, -3, 4⟩ : RangeCoord).cmax = 109 := by
  refine ⟨?_, ?_, ?_, ?_⟩ <;> decide +kernel

/-- **C12 violated** for both limits: `update_limits(min=a, max=b)` treats `b` as the exclusive stop, so the
maximum is one step short of `b`, for every ascending coordinate and all `a < b`. -/
theorem C12_min_max_violated (c : RangeCoord) (hc : BuiltRange c) (a b : ℚ) (h : a < b) :
    ∃ r, c.updateLimits (some a) (some b) none = .ok (.range r) ∧ r.len = c.len ∧ r.cmin = a ∧
      r.cmax = b - (b - a) / c.len ∧ r.cmax ≠ b := by
  have hv := hc.valid
  have hn : (0 : ℚ) < c.len := by exact_mod_cast hv.len_pos
  have hst : 0 < (b - a) / c.len := div_pos (by linarith) hn
  have hval : (⟨a, b, (b - a) / c.len, c.len⟩ : RangeCoord).Valid := ⟨hst.ne', hv.len_pos, by simp only; field_simp; ring⟩
  have hl := limits_up hval hst
  have hmax : (⟨a, b, (b - a) / c.len, c.len⟩ : RangeCoord).cmax = b - (b - a) / c.len := by
    rw [hl.2]; simp only; field_simp; ring
  refine ⟨⟨a, b, (b - a) / c.len, c.len⟩, ?_, rfl, hl.1, hmax, ?_⟩
  · simp only [RangeCoord.updateLimits]
    have := mkRange_canonical (start := a) hst.ne' hv.len_pos
    rw [← hval.stop_eq] at this
    rw [this]; rfl
  · rw [hmax]; intro h; linarith
example : BuiltRange exUp ∧ (0 : ℚ) < 8 := ⟨exUp_built, by norm_num⟩

/-- **C12** all three limits at once raise. -/
theorem C12_three_limits (c : RangeCoord) (a b d : ℚ) :
    c.updateLimits (some a) (some b) (some d) = .error .valueError := rfl

/-- **C12** array coordinates: moving the minimum (or maximum) shifts every label by the same amount, so it
ends up where asked; the coordinate is `get_coord` of the shifted labels. -/
theorem C12_array_shift (kind : Kind) (l : List ℚ) (m old : ℚ) :
    ∃ l', ArrCoord.shift kind l old m = getCoordData kind l' ∧ l'.length = l.length ∧
      (∀ (i : ℕ) x, l[i]? = some x → l'[i]? = some (x + (m - old))) ∧
      (IsMin l old → IsMin l' m) ∧ (IsMax l old → IsMax l' m) := by
  refine ⟨l.map fun x => x + (m - old), rfl, by simp, ?_, ?_, ?_⟩
  · intro i x hx; simp [hx]
  · rintro ⟨h1, h2⟩
    refine ⟨List.mem_map.2 ⟨old, h1, by ring⟩, ?_⟩
    intro x hx
    obtain ⟨y, hy, rfl⟩ := List.mem_map.1 hx
    have := h2 y hy
    linarith
  · rintro ⟨h1, h2⟩
    refine ⟨List.mem_map.2 ⟨old, h1, by ring⟩, ?_⟩
    intro x hx
    obtain ⟨y, hy, rfl⟩ := List.mem_map.1 hx
    have := h2 y hy
    linarith
example : IsMin [4, 1, 9] 1 := ⟨by simp, by intro x hx; simp at hx; rcases hx with rfl | rfl | rfl <;> norm_num⟩

/-! ### snap -/

/-- **C13** numeric array coordinates with at least two distinct labels: snap gives an evenly sampled
coordinate with the same number of samples, the same minimum and maximum, in the direction of the old one
(ascending unless it was reverse sorted). -/
theorem C13_snap_number (kind : Kind) (hk : kind ≠ .time) (rev : Bool) (l : List ℚ) (mn mx : ℚ)
    (hmn : IsMin l mn) (hmx : IsMax l mx) (hne : mn < mx) :
    ∃ r, ArrCoord.snap kind rev l = .ok (.range r) ∧ r.len = l.length ∧ r.cmin = mn ∧ r.cmax = mx ∧
      r.values = (if rev then progression mx (-((mx - mn) / (l.length - 1))) l.length
        else progression mn ((mx - mn) / (l.length - 1)) l.length) := by
  have hlne : l ≠ [] := by rintro rfl; exact absurd hmn.1 (by simp)
  have e1 : l.foldl min (l.getD 0 0) = mn := by
    have := foldl_min_isMin hlne
    exact le_antisymm (this.2 _ hmn.1) (hmn.2 _ this.1)
  have e2 : l.foldl max (l.getD 0 0) = mx := by
    have := foldl_max_isMax hlne
    exact le_antisymm (hmx.2 _ this.1) (this.2 _ hmx.1)
  have hl2 : 2 ≤ l.length := by
    match l, hmn, hmx with
    | [], hmn, _ => exact absurd hmn.1 (by simp)
    | [a], hmn, hmx =>
      have h1 := hmn.1; have h2 := hmx.1
      simp at h1 h2; subst h1; subst h2; exact absurd hne (lt_irrefl _)
    | _ :: _ :: _, _, _ => simp
  have hn1 : (0 : ℚ) < (l.length : ℚ) - 1 := by
    have : (2 : ℚ) ≤ l.length := by exact_mod_cast hl2
    linarith
  set st := (mx - mn) / ((l.length : ℚ) - 1) with hst
  have hstp : 0 < st := div_pos (by linarith) hn1
  have hst1 : ((l.length : ℚ) - 1) * st = mx - mn := by rw [hst]; field_simp
  have hlen1 : l.length ≠ 1 := by omega
  unfold ArrCoord.snap
  simp only [e1, e2, hlen1, if_false, hk, hlne, ← hst, ne_eq, not_false_eq_true, hstp, not_true, and_false, bind, Except.bind]
  cases rev with
  | true =>
    have hns : -st ≠ 0 := neg_ne_zero.2 hstp.ne'
    have hstop : mn + -st = mx + -st * l.length := by linarith
    have hval : (⟨mx, mx + -st * l.length, -st, l.length⟩ : RangeCoord).Valid := ⟨hns, by simp only; omega, rfl⟩
    refine ⟨⟨mx, mx + -st * l.length, -st, l.length⟩, ?_, rfl, ?_, ?_, ?_⟩
    · rw [if_pos rfl, hstop, mkRange_canonical hns (show 1 ≤ l.length by omega)]
      simp [RangeCoord.changeLength]
    · rw [hval.cmin_eq]; simp only
      rw [min_eq_right (by nlinarith)]; linarith
    · rw [hval.cmax_eq]; simp only
      rw [max_eq_left (by nlinarith)]
    · rw [hval.values_eq]; rfl
  | false =>
    have hstop : mx + st = mn + st * l.length := by linarith
    have hval : (⟨mn, mn + st * l.length, st, l.length⟩ : RangeCoord).Valid := ⟨hstp.ne', by simp only; omega, rfl⟩
    refine ⟨⟨mn, mn + st * l.length, st, l.length⟩, ?_, rfl, (limits_up hval hstp).1, ?_, ?_⟩
    · rw [if_neg (by simp), hstop, mkRange_canonical hstp.ne' (show 1 ≤ l.length by omega)]
      simp [RangeCoord.changeLength]
    · rw [(limits_up hval hstp).2]; simp only; linarith
    · rw [hval.values_eq]; rfl
example : IsMin [4, 1, 9] 1 ∧ IsMax [4, 1, 9] 9 ∧ ArrCoord.snap .float false [4, 1, 9] = .ok (.range ⟨1, 13, 4, 3⟩) := by
  refine ⟨⟨by simp, ?_⟩, ⟨by simp, ?_⟩, by decide +kernel⟩ <;>
  · intro x hx; simp at hx; rcases hx with rfl | rfl | rfl <;> norm_num

/-- **C13** time coordinates: same number of samples, starting at the old minimum (maximum if reverse
sorted), with the mean spacing rounded to whole nanoseconds; so the other end moves by at most half a
nanosecond per sample. Missing: equality of that other end, which is false (`C13_snap_time_violated`). -/
theorem C13_snap_time_partial (rev : Bool) (l : List ℚ) (mn mx : ℚ)
    (hmn : IsMin l mn) (hmx : IsMax l mx) (hl2 : 2 ≤ l.length)
    (hst : 0 < rint ((mx - mn) / (l.length - 1))) :
    ∃ r, ArrCoord.snap .time rev l = .ok (.range r) ∧ r.len = l.length ∧
      (if rev then r.cmax = mx ∧ |r.cmin - mn| ≤ (l.length - 1) / 2
        else r.cmin = mn ∧ |r.cmax - mx| ≤ (l.length - 1) / 2) := by
  have hlne : l ≠ [] := by rintro rfl; exact absurd hmn.1 (by simp)
  have e1 : l.foldl min (l.getD 0 0) = mn := by
    have := foldl_min_isMin hlne
    exact le_antisymm (this.2 _ hmn.1) (hmn.2 _ this.1)
  have e2 : l.foldl max (l.getD 0 0) = mx := by
    have := foldl_max_isMax hlne
    exact le_antisymm (hmx.2 _ this.1) (this.2 _ hmx.1)
  have hn1 : (0 : ℚ) < (l.length : ℚ) - 1 := by
    have : (2 : ℚ) ≤ l.length := by exact_mod_cast hl2
    linarith
  obtain ⟨st, hstdef⟩ : ∃ st : ℚ, st = ((rint ((mx - mn) / ((l.length : ℚ) - 1)) : ℤ) : ℚ) := ⟨_, rfl⟩
  have hstp : 0 < st := by rw [hstdef]; exact_mod_cast hst
  have hr := rint_bounds ((mx - mn) / ((l.length : ℚ) - 1))
  rw [← hstdef] at hr
  have hle : mn ≤ mx := hmn.2 mx hmx.1
  have herr : |((l.length : ℚ) - 1) * st - (mx - mn)| ≤ (l.length - 1) / 2 := by
    have e : (mx - mn) = ((l.length : ℚ) - 1) * ((mx - mn) / ((l.length : ℚ) - 1)) := by field_simp
    rw [e, ← mul_sub, abs_mul, abs_of_pos hn1]
    have : |st - (mx - mn) / ((l.length : ℚ) - 1)| ≤ 1 / 2 := by
      rw [abs_le]; constructor <;> linarith [hr.1, hr.2]
    nlinarith
  have hlen1 : l.length ≠ 1 := by omega
  have hmk : ∀ (s t d : ℚ), d ≠ 0 → 1 ≤ (t - s) / d → ∃ c, mkRange s t d = .ok c ∧ c.start = s ∧ c.step = d ∧ c.Valid := by
    intro s t d hd hq
    obtain ⟨c, h1, _, _, _, _, h2, h3, _⟩ := (C01_range_construction s t d hd).1 (by linarith)
    exact ⟨c, h1, h2, h3, mkRange_valid hd h1⟩
  unfold ArrCoord.snap
  simp only [e1, e2, hlen1, if_false, if_true, hlne, ← hstdef, ne_eq, not_false_eq_true, hstp, not_true, and_false, bind, Except.bind, decide_true]
  cases rev with
  | true =>
    have hns : -st ≠ 0 := neg_ne_zero.2 hstp.ne'
    obtain ⟨c, hc1, hc2, hc3, hc4⟩ := hmk mx (mn + -st) (-st) hns (by
      rw [show mn + -st - mx = -(mx - mn + st) by ring, neg_div_neg_eq, le_div_iff₀ hstp]; linarith)
    have hval : (⟨mx, mx + -st * l.length, -st, l.length⟩ : RangeCoord).Valid := ⟨hns, by simp only; omega, rfl⟩
    refine ⟨⟨mx, mx + -st * l.length, -st, l.length⟩, ?_, rfl, ?_⟩
    · rw [if_pos rfl, hc1]
      simp only
      rcases changeLength_cases hc4 true (n := l.length) (by omega) with h | ⟨h, _⟩
      · rw [h, hc2, hc3]
      · cases h
    · rw [if_pos rfl]
      constructor
      · rw [hval.cmax_eq]; simp only; rw [max_eq_left (by nlinarith)]
      · rw [hval.cmin_eq]; simp only; rw [min_eq_right (by nlinarith)]
        rw [show mx + ((l.length : ℚ) - 1) * -st - mn = -(((l.length : ℚ) - 1) * st - (mx - mn)) by ring, abs_neg]
        exact herr
  | false =>
    obtain ⟨c, hc1, hc2, hc3, hc4⟩ := hmk mn (mx + st) st hstp.ne' (by
      rw [le_div_iff₀ hstp]; linarith)
    have hval : (⟨mn, mn + st * l.length, st, l.length⟩ : RangeCoord).Valid := ⟨hstp.ne', by simp only; omega, rfl⟩
    refine ⟨⟨mn, mn + st * l.length, st, l.length⟩, ?_, rfl, ?_⟩
    · rw [if_neg (by simp), hc1]
      simp only
      rcases changeLength_cases hc4 true (n := l.length) (by omega) with h | ⟨h, _⟩
      · rw [h, hc2, hc3]
      · cases h
    · rw [if_neg (by simp)]
      refine ⟨(limits_up hval hstp).1, ?_⟩
      rw [(limits_up hval hstp).2]; simp only
      rw [show mn + ((l.length : ℚ) - 1) * st - mx = ((l.length : ℚ) - 1) * st - (mx - mn) by ring]
      exact herr
example : IsMin [0, 3, 4, 10] 0 ∧ IsMax [0, 3, 4, 10] 10 ∧ 0 < rint ((10 - 0) / (([0, 3, 4, 10] : List ℚ).length - 1)) := by
  refine ⟨⟨by simp, ?_⟩, ⟨by simp, ?_⟩, by decide +kernel⟩ <;>
  · intro x hx; simp at hx; rcases hx with rfl | rfl | rfl | rfl <;> norm_num

/-- **C13 violated** for time coordinates: snapping 0, 3, 4, 10 ns gives 0, 3, 6, 9 ns - the maximum is 9, not
10; and if the span is below half a nanosecond per sample snap fails with AssertionError. -/
theorem C13_snap_time_violated :
    ArrCoord.snap .time false [0, 3, 4, 10] = .ok (.range ⟨0, 12, 3, 4⟩) ∧
    (⟨0, 12, 3, 4⟩ : RangeCoord).cmax = 9 ∧
    ArrCoord.snap .time false [0, 0, 0, 1] = .error .assertionError := by
  refine ⟨?_, ?_, ?_⟩ <;> decide +kernel

end Verif
