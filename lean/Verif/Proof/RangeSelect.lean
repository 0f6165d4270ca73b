import Verif.Proof.CoordRange
import Verif.Proof.Slice
/-! Exactness of `RangeCoord.select`. -/
namespace Verif
open Spec
namespace RangeCoord
variable {c : RangeCoord}

/-- Half a unit of the tenth decimal, in steps: the fudge factor of `_get_index`. -/
abbrev fudge : ℚ := 1 / (2 * 10 ^ 10)

theorem getIndex_ceil {v : ℚ} :
    match c.getIndex (some v) true with
    | none => ∀ i : ℤ, 0 ≤ i → (v - c.start) / c.step ≤ i + fudge
    | some s => 0 ≤ s ∧ ∀ i : ℤ, ((v - c.start) / c.step ≤ i + fudge ↔ s ≤ i) := by
  have key : ∀ i : ℤ, ⌈roundDec 10 ((v - c.start) / c.step)⌉ ≤ i ↔
      (v - c.start) / c.step ≤ i + fudge := fun i => ceil_roundDec_le (by norm_num)
  unfold getIndex
  simp only [Bool.true_and, Bool.not_true, Bool.false_and, Bool.or_false, if_true, decide_eq_true_eq]
  by_cases h : ⌈roundDec 10 ((v - c.start) / c.step)⌉ < 0
  · simp only [h, if_true]
    intro i hi
    exact (key i).1 (by omega)
  · simp only [h, if_false]
    exact ⟨by omega, fun i => (key i).symm⟩

theorem getIndex_floor {v : ℚ} :
    match c.getIndex (some v) false with
    | none => ∀ i : ℤ, i < c.len → i - fudge ≤ (v - c.start) / c.step
    | some t => t < c.len ∧ ∀ i : ℤ, (i - fudge ≤ (v - c.start) / c.step ↔ i ≤ t) := by
  have key : ∀ i : ℤ, i ≤ ⌊roundDec 10 ((v - c.start) / c.step)⌋ ↔
      i - fudge ≤ (v - c.start) / c.step := fun i => le_floor_roundDec (by norm_num)
  unfold getIndex
  simp only [Bool.false_and, Bool.not_false, Bool.true_and, Bool.false_or, if_false, decide_eq_true_eq,
    Bool.false_eq_true]
  by_cases h : (c.len : ℤ) ≤ ⌊roundDec 10 ((v - c.start) / c.step)⌋
  · simp only [h, if_true]
    intro i hi
    exact (key i).1 (by omega)
  · simp only [h, if_false]
    exact ⟨by omega, fun i => (key i).symm⟩

theorem ceil_le_floor_add_one {a b : ℚ} (h : a ≤ b) : ⌈a⌉ ≤ ⌊b⌋ + 1 := by
  rw [Int.ceil_le]
  push_cast
  have := Int.lt_floor_add_one b
  linarith

theorem getIndex_le {u v : ℚ} (h : (u - c.start) / c.step ≤ (v - c.start) / c.step) {s t : ℤ}
    (hs : c.getIndex (some u) true = some s) (ht : c.getIndex (some v) false = some t) : s ≤ t + 1 := by
  unfold getIndex at hs ht
  simp only [if_true, Bool.false_eq_true, if_false] at hs ht
  split_ifs at hs ht
  cases hs; cases ht
  exact ceil_le_floor_add_one (roundDec_mono h)

/-- The index part of `select`: `P` holds from index `S` on, `Q` up to index `T`. -/
theorem selectFrom_spec (hv : c.Valid) (S T : Option ℤ) (P Q : ℕ → Prop) [DecidablePred P] [DecidablePred Q]
    (hS : match S with
      | none => ∀ i : ℕ, i < c.len → P i
      | some s => 0 ≤ s ∧ ∀ i : ℕ, i < c.len → (P i ↔ s ≤ i))
    (hT : match T with
      | none => ∀ i : ℕ, i < c.len → Q i
      | some t => t < c.len ∧ ∀ i : ℕ, i < c.len → (Q i ↔ (i : ℤ) ≤ t))
    (hST : ∀ s t, S = some s → T = some t → s ≤ t + 1) :
    ∃ d sl, c.selectFrom S T = .ok (d, sl) ∧
      d.labels = (((List.range c.len).filter fun i => decide (P i ∧ Q i)).map
        fun i : ℕ => c.start + (i : ℚ) * c.step).map some ∧
      pySlice c.values sl = .ok (((List.range c.len).filter fun i => decide (P i ∧ Q i)).map
        fun i : ℕ => c.start + (i : ℚ) * c.step) ∧
      (sl = ⟨some 0, some 0, none⟩ ∨ ∃ r, d = .range r ∧ r.Valid ∧ r.step = c.step) := by
  -- the half-open index window
  obtain ⟨a, ha⟩ : ∃ a : ℕ, a = (S.getD 0).toNat := ⟨_, rfl⟩
  obtain ⟨b, hb⟩ : ∃ b : ℕ, b = ((T.map (· + 1)).getD (c.len : ℤ)).toNat := ⟨_, rfl⟩
  have hbn : b ≤ c.len := by
    rw [hb]; cases T with
    | none => simp
    | some t => simp at hT ⊢; omega
  have hfil : (List.range c.len).filter (fun i => decide (P i ∧ Q i)) = List.range' a (b - a) := by
    apply filter_range_interval _ _ _ _ hbn
    intro i hi
    rw [decide_eq_true_eq]
    have h1 : P i ↔ a ≤ i := by
      cases S with
      | none => simp at hS ha; simp [hS i hi, ha]
      | some s => simp at hS ha; rw [hS.2 i hi, ha]; omega
    have h2 : Q i ↔ i < b := by
      cases T with
      | none => simp at hT hb; simp [hT i hi, hb, hi]
      | some t => simp at hT hb; rw [hT.2 i hi, hb]; omega
    rw [h1, h2]
  rw [hfil]
  have hlen := hv.length_values
  -- slices of the values
  have hsl : ∀ start stop : Option ℤ,
      (start.map (clipBound c.len 0 c.len)).getD 0 = a →
      (stop.map (clipBound c.len 0 c.len)).getD c.len = b →
      pySlice c.values ⟨start, stop, none⟩ =
        .ok ((List.range' a (b - a)).map fun i : ℕ => c.start + (i : ℚ) * c.step) := by
    intro start stop h1 h2
    rw [pySlice_unit c.values a b start stop (by rw [hlen]; exact h1) (by rw [hlen]; exact h2)]
    rw [hv.values_eq]
    unfold progression
    rw [← List.map_drop, ← List.map_take]
    congr 2
    apply List.ext_getElem
    · simp; omega
    · intro i h1 h2
      simp
  have hdeg : b ≤ a → pySlice c.values ⟨some 0, some 0, none⟩ =
      .ok ((List.range' a (b - a)).map fun i : ℕ => c.start + (i : ℚ) * c.step) := by
    intro h
    rw [pySlice_unit c.values 0 0 _ _ (by simp [clipBound]) (by simp [clipBound])]
    have : b - a = 0 := by omega
    simp [this]
  by_cases hab : a < b
  · -- something is selected
    have hnondeg : sliceDegenerate c.len (if S = some 0 then none else S) (T.map (· + 1)) = false := by
      unfold sliceDegenerate
      cases S with
      | none =>
        cases T with
        | none => simp
        | some t => simp at hb hT ⊢; omega
      | some s =>
        simp at hS ha
        by_cases hs0 : s = 0
        · subst hs0
          cases T with
          | none => simp
          | some t => simp at hb hT ⊢; omega
        · cases T with
          | none => simp [hs0]; omega
          | some t => simp [hs0] at hb hT ⊢; omega
    have hstart : c.startAt (if S = some 0 then none else S) = Except.ok (c.start + (a : ℚ) * c.step) := by
      cases S with
      | none => simp at ha; simp [ha, startAt]
      | some s =>
        by_cases hs0 : s = 0
        · subst hs0; simp at ha; simp [ha, startAt]
        · simp at hS ha
          simp only [startAt, Option.some.injEq, hs0, if_false]
          rw [hv.getInt_nonneg hS.1 (by omega)]
          have : (a : ℚ) = ((a : ℤ) : ℚ) := rfl
          rw [this]
          congr 4; omega
    have hend : c.stopAt T = Except.ok (c.start + (b : ℚ) * c.step) := by
      cases T with
      | none => simp at hb; simp [hb, hv.stop_eq, stopAt]; ring
      | some t =>
        simp at hb hT
        simp only [stopAt]
        rw [hv.getInt_nonneg (by omega) (by omega)]
        simp only [Except.map]
        have : (b : ℚ) = ((b : ℤ) : ℚ) := rfl
        have e : (b : ℤ) = t + 1 := by omega
        rw [this, e]
        congr 1; push_cast; ring
    have hval : RangeCoord.Valid ⟨c.start + (a : ℚ) * c.step, c.start + (b : ℚ) * c.step, c.step, b - a⟩ := by
      refine ⟨hv.step_ne, by simp only; omega, ?_⟩
      simp only
      rw [Nat.cast_sub hab.le]; ring
    refine ⟨.range ⟨c.start + (a : ℚ) * c.step, c.start + (b : ℚ) * c.step, c.step, b - a⟩,
      ⟨if S = some 0 then none else S, T.map (· + 1), none⟩, ?_, ?_, ?_, Or.inr ⟨_, rfl, hval, rfl⟩⟩
    · unfold selectFrom
      simp only [hnondeg, Bool.false_eq_true, if_false]
      simp only [bind, Except.bind]
      rw [hstart]
      simp only
      rw [hend]
      simp only
      rw [new_canonical (n := b - a) hv.step_ne (by omega) (by rw [Nat.cast_sub hab.le]; ring)]
      rfl
    · simp only [Coord.labels, hval.values_eq]
      congr 1
      unfold progression
      apply List.ext_getElem
      · simp
      · intro i h1 h2
        simp
        ring
    · apply hsl
      · cases S with
        | none => simp at ha; simp [ha]
        | some s =>
          by_cases hs0 : s = 0
          · subst hs0; simp at ha; simp [ha]
          · simp at hS ha; simp [hs0, clipBound]; split_ifs <;> omega
      · cases T with
        | none => simp at hb; simp [hb]
        | some t => simp at hb hT; simp [clipBound]; split_ifs <;> omega
  · -- nothing is selected
    have hdegen : sliceDegenerate c.len (if S = some 0 then none else S) (T.map (· + 1)) = true := by
      unfold sliceDegenerate
      have hlp := hv.len_pos
      cases S with
      | none =>
        cases T with
        | none => simp at ha hb; omega
        | some t => simp at ha hb hT ⊢; omega
      | some s =>
        simp at hS ha
        by_cases hs0 : s = 0
        · subst hs0
          cases T with
          | none => simp at ha hb; omega
          | some t => simp at hb hT ⊢; omega
        · cases T with
          | none => simp [hs0] at hb ⊢; omega
          | some t =>
            have := hST s t rfl rfl
            simp [hs0] at hb hT ⊢; omega
    refine ⟨.part 0, ⟨some 0, some 0, none⟩, ?_, ?_, hdeg (by omega), Or.inl rfl⟩
    · unfold selectFrom
      simp only [hdegen, if_true]
    · have : b - a = 0 := by omega
      simp [Coord.labels, this]

theorem div_le_iff_pos {v i : ℚ} (h : 0 < c.step) :
    (v - c.start) / c.step ≤ i + fudge ↔ v - c.step * fudge ≤ c.start + i * c.step := by
  rw [div_le_iff₀ h]
  constructor <;> intro _ <;> linarith

theorem le_div_iff_pos {v i : ℚ} (h : 0 < c.step) :
    i - fudge ≤ (v - c.start) / c.step ↔ c.start + i * c.step ≤ v + c.step * fudge := by
  rw [le_div_iff₀ h]
  constructor <;> intro _ <;> linarith

theorem div_le_iff_neg {v i : ℚ} (h : c.step < 0) :
    (v - c.start) / c.step ≤ i + fudge ↔ c.start + i * c.step ≤ v + -c.step * fudge := by
  rw [div_le_iff_of_neg h]
  constructor <;> intro _ <;> linarith

theorem le_div_iff_neg {v i : ℚ} (h : c.step < 0) :
    i - fudge ≤ (v - c.start) / c.step ↔ v - -c.step * fudge ≤ c.start + i * c.step := by
  rw [le_div_iff_of_neg h]
  constructor <;> intro _ <;> linarith

/-- Lower limit satisfied. -/
def Lo (tol : ℚ) (a : Option ℚ) (x : ℚ) : Prop := ∀ v, a = some v → v - tol ≤ x
/-- Upper limit satisfied. -/
def Hi (tol : ℚ) (b : Option ℚ) (x : ℚ) : Prop := ∀ v, b = some v → x ≤ v + tol

instance (tol : ℚ) (a : Option ℚ) (x : ℚ) : Decidable (Lo tol a x) :=
  match a with
  | none => .isTrue (by intro v h; cases h)
  | some v => decidable_of_iff (v - tol ≤ x) (by simp [Lo])
instance (tol : ℚ) (a : Option ℚ) (x : ℚ) : Decidable (Hi tol a x) :=
  match a with
  | none => .isTrue (by intro v h; cases h)
  | some v => decidable_of_iff (x ≤ v + tol) (by simp [Hi])

theorem between_iff_orderPair (tol : ℚ) (a b : Option ℚ) (x : ℚ) :
    Between tol a b x ↔ Lo tol (orderPair (a, b)).1 x ∧ Hi tol (orderPair (a, b)).2 x := by
  cases a with
  | none => cases b <;> simp [Between, orderPair, Lo, Hi]
  | some a =>
    cases b with
    | none => simp [Between, orderPair, Lo, Hi]
    | some b =>
      simp only [Between, orderPair]
      split_ifs with h
      · simp [Lo, Hi, min_eq_right h.le, max_eq_left h.le]
      · simp [Lo, Hi, min_eq_left (not_lt.1 h), max_eq_right (not_lt.1 h)]

theorem orderPair_le {a b : Option ℚ} {u v : ℚ} (h1 : (orderPair (a, b)).1 = some u)
    (h2 : (orderPair (a, b)).2 = some v) : u ≤ v := by
  cases a with
  | none => simp [orderPair] at h1
  | some a =>
    cases b with
    | none => simp [orderPair] at h2
    | some b =>
      simp only [orderPair] at h1 h2
      split_ifs at h1 h2 with h
      · cases h1; cases h2; exact h.le
      · cases h1; cases h2; exact not_lt.1 h

theorem select_spec (hv : c.Valid) (a b : Option ℚ) :
    ∃ d sl, c.select (a, b) = .ok (d, sl) ∧
      d.labels = (samplesBetween (absQ c.step * fudge) a b c.values).map some ∧
      pySlice c.values sl = .ok (samplesBetween (absQ c.step * fudge) a b c.values) ∧
      (sl = ⟨some 0, some 0, none⟩ ∨ ∃ r, d = .range r ∧ r.Valid ∧ r.step = c.step) := by
  set lo := (orderPair (a, b)).1 with hlo
  set hi := (orderPair (a, b)).2 with hhi
  set tol := absQ c.step * fudge with htol
  have hvals : samplesBetween tol a b c.values =
      ((List.range c.len).filter fun i : ℕ => decide (Lo tol lo (c.start + (i : ℚ) * c.step) ∧
        Hi tol hi (c.start + (i : ℚ) * c.step))).map fun i : ℕ => c.start + (i : ℚ) * c.step := by
    unfold samplesBetween
    rw [hv.values_eq]
    unfold progression
    rw [List.filter_map]
    congr 1
    apply List.filter_congr
    intro i _
    simp only [Function.comp_apply, between_iff_orderPair, ← hlo, ← hhi]
  rw [hvals]
  unfold select
  rw [if_neg hv.step_ne]
  rcases lt_or_gt_of_ne hv.step_ne with hneg | hpos
  · -- descending
    have hsort : c.sorted = false := by simp [sorted, hneg]
    have hrev : c.reverseSorted = true := by simp [reverseSorted, hneg]
    have hab : absQ c.step = -c.step := by simp [absQ, hneg]
    simp only [hsort, hrev, if_true, ← hlo, ← hhi]
    have hcomm : ∀ i : ℕ, decide (Lo tol lo (c.start + (i : ℚ) * c.step) ∧
        Hi tol hi (c.start + (i : ℚ) * c.step)) = decide (Hi tol hi (c.start + (i : ℚ) * c.step) ∧
        Lo tol lo (c.start + (i : ℚ) * c.step)) := by
      intro i; simp only [and_comm]
    simp only [hcomm]
    apply selectFrom_spec hv (c.getIndex hi true) (c.getIndex lo false)
      (fun i : ℕ => Hi tol hi (c.start + (i : ℚ) * c.step))
      (fun i : ℕ => Lo tol lo (c.start + (i : ℚ) * c.step))
    · cases hh : hi with
      | none => simp [getIndex, Hi]
      | some v =>
        have := getIndex_ceil (c := c) (v := v)
        revert this
        cases c.getIndex (some v) true with
        | none =>
          simp only
          intro h i hi' w hw
          cases hw
          rw [htol, hab]
          exact (div_le_iff_neg hneg).1 (h i (by omega))
        | some s =>
          simp only
          intro h
          refine ⟨h.1, fun i hi' => ?_⟩
          rw [← h.2 i]
          simp only [Hi, Option.some.injEq, forall_eq', htol, hab]
          exact (div_le_iff_neg (i := ((i : ℤ) : ℚ)) hneg).symm
    · cases hh : lo with
      | none => simp [getIndex, Lo]
      | some v =>
        have := getIndex_floor (c := c) (v := v)
        revert this
        cases c.getIndex (some v) false with
        | none =>
          simp only
          intro h i hi' w hw
          cases hw
          rw [htol, hab]
          exact (le_div_iff_neg hneg).1 (h i (by omega))
        | some s =>
          simp only
          intro h
          refine ⟨h.1, fun i hi' => ?_⟩
          rw [← h.2 i]
          simp only [Lo, Option.some.injEq, forall_eq', htol, hab]
          exact (le_div_iff_neg (i := ((i : ℤ) : ℚ)) hneg).symm
    · intro s t h1 h2
      cases hh : hi with
      | none => rw [hh] at h1; simp [getIndex] at h1
      | some v =>
        cases hl : lo with
        | none => rw [hl] at h2; simp [getIndex] at h2
        | some u =>
          rw [hh] at h1; rw [hl] at h2
          have huv : u ≤ v := orderPair_le (hlo.symm.trans hl) (hhi.symm.trans hh)
          exact getIndex_le (div_le_div_of_nonpos_of_le hneg.le (by linarith)) h1 h2
  · -- ascending
    have hsort : c.sorted = true := by simp [sorted, hpos.le]
    have hrev : c.reverseSorted = false := by simp [reverseSorted, hpos.le]
    have hab : absQ c.step = c.step := by simp [absQ, not_lt.2 hpos.le]
    simp only [hsort, hrev, Bool.false_eq_true, if_false, ← hlo, ← hhi]
    apply selectFrom_spec hv (c.getIndex lo true) (c.getIndex hi false)
      (fun i : ℕ => Lo tol lo (c.start + (i : ℚ) * c.step))
      (fun i : ℕ => Hi tol hi (c.start + (i : ℚ) * c.step))
    · cases hh : lo with
      | none => simp [getIndex, Lo]
      | some v =>
        have := getIndex_ceil (c := c) (v := v)
        revert this
        cases c.getIndex (some v) true with
        | none =>
          simp only
          intro h i hi' w hw
          cases hw
          rw [htol, hab]
          exact (div_le_iff_pos hpos).1 (h i (by omega))
        | some s =>
          simp only
          intro h
          refine ⟨h.1, fun i hi' => ?_⟩
          rw [← h.2 i]
          simp only [Lo, Option.some.injEq, forall_eq', htol, hab]
          exact (div_le_iff_pos (i := ((i : ℤ) : ℚ)) hpos).symm
    · cases hh : hi with
      | none => simp [getIndex, Hi]
      | some v =>
        have := getIndex_floor (c := c) (v := v)
        revert this
        cases c.getIndex (some v) false with
        | none =>
          simp only
          intro h i hi' w hw
          cases hw
          rw [htol, hab]
          exact (le_div_iff_pos hpos).1 (h i (by omega))
        | some s =>
          simp only
          intro h
          refine ⟨h.1, fun i hi' => ?_⟩
          rw [← h.2 i]
          simp only [Hi, Option.some.injEq, forall_eq', htol, hab]
          exact (le_div_iff_pos (i := ((i : ℤ) : ℚ)) hpos).symm
    · intro s t h1 h2
      cases hh : hi with
      | none => rw [hh] at h2; simp [getIndex] at h2
      | some v =>
        cases hl : lo with
        | none => rw [hl] at h1; simp [getIndex] at h1
        | some u =>
          rw [hl] at h1; rw [hh] at h2
          have huv : u ≤ v := orderPair_le (hlo.symm.trans hl) (hhi.symm.trans hh)
          exact getIndex_le (div_le_div_of_nonneg_right (by linarith) hpos.le) h1 h2

end RangeCoord
end Verif
