import Verif.Proof.Reader
import Verif.Proof.GetCoord
import Verif.Spec.Terra15
import Mathlib.Tactic.FieldSimp
/-! # Lemmas about Terra15 files -/
namespace Verif
open Spec

namespace RangeCoord
variable {c : RangeCoord}

theorem selectFrom_shape {S T : Option ℤ} (hT : ∀ t, T = some t → t < c.len) {d : Coord} {sl : PySlice} (h : c.selectFrom S T = .ok (d, sl)) :
    ∃ start stop : Option ℕ, sl = ⟨start.map (fun a : ℕ => (a : ℤ)), stop.map (fun a : ℕ => (a : ℤ)), none⟩ ∧ (∀ a, start = some a → a ≤ c.len) ∧ ∀ b, stop = some b → b ≤ c.len := by
  unfold selectFrom at h
  simp only at h
  generalize (if S = some 0 then none else S) = S' at h
  split at h
  · cases h
    exact ⟨some 0, some 0, rfl, by simp, by simp⟩
  · rename_i hd
    have hsl : sl = ⟨S', T.map (· + 1), none⟩ := by
      simp only [bind, Except.bind, pure, Except.pure] at h
      split at h
      · cases h
      split at h
      · cases h
      split at h
      · cases h
      cases h
      rfl
    rw [Bool.not_eq_true] at hd
    unfold sliceDegenerate at hd
    simp only [Bool.or_eq_false_iff] at hd
    obtain ⟨⟨-, hs⟩, ht⟩ := hd
    refine ⟨S'.map Int.toNat, (T.map (· + 1)).map Int.toNat, ?_, ?_, ?_⟩
    · rw [hsl]
      congr 1
      · cases S' with
        | none => rfl
        | some a =>
          simp only [Bool.or_eq_false_iff, decide_eq_false_iff_not] at hs
          simp only [Option.map_some]
          congr 1
          omega
      · cases T with
        | none => rfl
        | some t =>
          simp only [Option.map_some, decide_eq_false_iff_not] at ht ⊢
          congr 1
          omega
    · cases S' with
      | none => simp
      | some a =>
        simp only [Bool.or_eq_false_iff, decide_eq_false_iff_not] at hs
        simp only [Option.map_some, Option.some.injEq, forall_eq']
        omega
    · cases T with
      | none => simp
      | some t =>
        have := hT t rfl
        simp only [Option.map_some, Option.some.injEq, forall_eq']
        omega

theorem getIndex_back {v : Option ℚ} {t : ℤ} (h : c.getIndex v false = some t) : t < c.len := by
  cases v with
  | none => simp [getIndex] at h
  | some v =>
    have := getIndex_floor (c := c) (v := v)
    rw [h] at this
    exact this.1

/-- A selection from an evenly sampled coordinate is a slice within it. -/
theorem select_shape {p : Option ℚ × Option ℚ} {d : Coord} {sl : PySlice} (h : c.select p = .ok (d, sl)) :
    ∃ start stop : Option ℕ, sl = ⟨start.map (fun a : ℕ => (a : ℤ)), stop.map (fun a : ℕ => (a : ℤ)), none⟩ ∧ (∀ a, start = some a → a ≤ c.len) ∧ ∀ b, stop = some b → b ≤ c.len := by
  unfold select at h
  split at h
  · cases h
  · simp only at h
    split at h
    · rename_i hr
      have hs : c.sorted = false := by
        unfold reverseSorted at hr; unfold sorted
        simp at hr ⊢
        exact hr
      refine selectFrom_shape ?_ h
      intro t ht
      rw [hs] at ht
      exact getIndex_back ht
    · rename_i hr
      rw [Bool.not_eq_true] at hr
      rw [hr] at h
      exact selectFrom_shape (fun t ht => getIndex_back ht) h

end RangeCoord

theorem pySlice_nat {α} (l : List α) (start stop : Option ℕ) (h1 : ∀ a, start = some a → a ≤ l.length) (h2 : ∀ b, stop = some b → b ≤ l.length) :
    pySlice l ⟨start.map (fun a : ℕ => (a : ℤ)), stop.map (fun a : ℕ => (a : ℤ)), none⟩ =
      .ok ((l.drop (start.getD 0)).take (stop.getD l.length - start.getD 0)) := by
  rw [pySlice_unit l (start.getD 0) (stop.getD l.length)]
  · cases start with
    | none => simp
    | some a =>
      have := h1 a rfl
      simp [clipBound]
      omega
  · cases stop with
    | none => simp
    | some a =>
      have := h2 a rfl
      simp [clipBound]
      omega

theorem cutList_nat {α} (l : List α) (start stop : Option ℕ) (h1 : ∀ a, start = some a → a ≤ l.length) (h2 : ∀ b, stop = some b → b ≤ l.length) :
    cutList ⟨start.map (fun a : ℕ => (a : ℤ)), stop.map (fun a : ℕ => (a : ℤ)), none⟩ l =
      (l.drop (start.getD 0)).take (stop.getD l.length - start.getD 0) := by
  unfold cutList
  rw [pySlice_nat l start stop h1 h2]

namespace TerraFile
variable {α : Type} {f : TerraFile α} {ts : List ℚ}

/-- The rows a selection of times takes, from a table which may have further rows. -/
theorem rowIndex_spec {c : RangeCoord} {p : Option ℚ × Option ℚ} {d : Coord} {sl : PySlice} (h : c.select p = .ok (d, sl))
    (hd : d.length = cutLength sl c.len) (R : List (List α)) (hR : c.len ≤ R.length) :
    ∃ x, rowIndex R.length d.length (.slice sl) = .ok x ∧ x.apply R = .ok (cutList sl (R.take c.len)) := by
  obtain ⟨start, stop, rfl, h1, h2⟩ := RangeCoord.select_shape h
  have ht : (R.take c.len).length = c.len := by simp [hR]
  rw [cutList_nat (R.take c.len) start stop (by rw [ht]; exact h1) (by rw [ht]; exact h2), ht]
  unfold cutLength at hd
  rw [cutList_nat _ _ _ (by simpa using h1) (by simpa using h2)] at hd
  simp only [List.length_range, List.length_take, List.length_drop] at hd
  have ha : start.getD 0 ≤ c.len := by
    cases start with
    | none => simp
    | some a => exact h1 a rfl
  have hb : stop.getD c.len ≤ c.len := by
    cases stop with
    | none => simp
    | some a => exact h2 a rfl
  unfold rowIndex
  split
  · refine ⟨_, rfl, ?_⟩
    have key := pySlice_nat R (some (start.getD 0)) (some (stop.getD c.len)) (by simp; omega) (by simp; omega)
    simp only [Option.map_some, Option.getD_some] at key
    have e1 : (start.map (fun a : ℕ => (a : ℤ))).getD 0 = ((start.getD 0 : ℕ) : ℤ) := by cases start <;> rfl
    have e2 : (stop.map (fun a : ℕ => (a : ℤ))).getD (((start.getD 0 : ℕ) : ℤ) + (d.length : ℤ)) = ((stop.getD c.len : ℕ) : ℤ) := by
      cases stop with
      | none =>
        simp only [Option.getD_none, Option.map_none] at hd ⊢
        omega
      | some b => rfl
    simp only [e1, e2]
    unfold Indexer.apply
    simp only
    rw [key]
    congr 1
    rw [List.drop_take, List.take_take]
    congr 1
    omega
  · refine ⟨_, rfl, ?_⟩
    have hn : R.length = c.len := by omega
    rw [← hn, List.take_length]
    unfold Indexer.apply
    simp only
    exact pySlice_nat R start stop (by rw [hn]; exact h1) (by rw [hn]; exact h2)

theorem headD_append (h : ts ≠ []) (r : List ℚ) : (ts ++ r).headD 0 = ts.headD 0 := by
  cases ts with
  | nil => exact absurd rfl h
  | cons => rfl

theorem usedTimes_spec (h : TerraLayout f ts) : f.usedTimes = ts := by
  have hne : ts ≠ [] := by rintro rfl; exact absurd h.two (by simp)
  have hfil : ts.filter (fun t => decide (0 < t)) = ts := List.filter_eq_self.2 fun t ht => decide_eq_true (h.later t ht)
  obtain ⟨k, hk⟩ := h.times
  unfold usedTimes
  split
  · rw [hk, List.filter_append, hfil]
    simp
  · rename_i hlt
    rw [hk] at hlt ⊢
    cases k with
    | zero => simp
    | succ k =>
      exfalso
      apply hlt
      rw [headD_append hne, List.replicate_succ', ← List.append_assoc, List.getLastD_eq_getLast?]
      simp only [List.getLast?_append, List.getLast?_singleton, Option.some_or, Option.getD_some]
      obtain ⟨a, l, rfl⟩ := List.exists_cons_of_ne_nil hne
      exact h.later a (by simp)

/-- The coordinates. -/
def clock (ts : List ℚ) : RangeCoord :=
  ⟨nanos (ts.headD 0), nanos (ts.headD 0) + nanos ((ts.getLastD 0 - ts.headD 0) / ((ts.length : ℚ) - 1)) * ts.length,
    nanos ((ts.getLastD 0 - ts.headD 0) / ((ts.length : ℚ) - 1)), ts.length⟩
@[inherit_doc clock] def cable (f : TerraFile α) : RangeCoord := ⟨f.rangeStart, f.rangeStart + f.dx * f.nx, f.dx, f.nx⟩

theorem interval_ge (h : TerraLayout f ts) : 1 ≤ averageInterval ts := by
  have h2 : (2 : ℚ) ≤ ts.length := by exact_mod_cast h.two
  unfold averageInterval
  rw [div_mul_eq_mul_div, le_div_iff₀ (by linarith), one_mul]
  exact h.forward

theorem step_pos (h : TerraLayout f ts) : 0 < (clock ts).step := by
  have := interval_ge h
  unfold averageInterval at this
  have h2 := (nanos_nearest ((ts.getLastD 0 - ts.headD 0) / ((ts.length : ℚ) - 1))).2.2
  change 0 < nanos _
  linarith

theorem clock_valid (h : TerraLayout f ts) : (clock ts).Valid := valid_canonical (step_pos h).ne' (by have := h.two; omega)
theorem cable_valid (h : TerraLayout f ts) : f.cable.Valid := valid_canonical h.apart.ne' h.some_channels

theorem timeCoord_spec (h : TerraLayout f ts) : f.timeCoord true = .ok (.range (clock ts)) := by
  unfold timeCoord timeInfo
  rw [usedTimes_spec h, if_neg (by rintro rfl; exact absurd h.two (by simp)), if_neg (by have := h.two; omega)]
  simp only [bind, Except.bind, if_true]
  have := mkRange_canonical (start := nanos (ts.headD 0)) (step_pos h).ne' (n := ts.length) (by have := h.two; omega)
  have e : nanos (ts.headD 0) + nanos ((ts.getLastD 0 - ts.headD 0) / ((ts.length : ℚ) - 1)) * ((ts.length : ℚ) - 1) +
      nanos ((ts.getLastD 0 - ts.headD 0) / ((ts.length : ℚ) - 1)) = nanos (ts.headD 0) + (clock ts).step * ts.length := by
    simp only [clock]
    ring
  rw [e]
  change Except.map Coord.range (mkRange _ _ (clock ts).step) = _
  rw [this]
  rfl

theorem distanceCoord_spec (h : TerraLayout f ts) : f.distanceCoord = .ok f.cable := by
  unfold distanceCoord
  have := mkRange_canonical (start := f.rangeStart) h.apart.ne' h.some_channels
  have e : f.rangeStart + ((f.nx : ℚ) - 1) * f.dx + f.dx = f.rangeStart + f.dx * f.nx := by ring
  rw [e, this]
  rfl

theorem read_spec (h : TerraLayout f ts) (time distance : Option (Option ℚ × Option ℚ)) :
    GivesRecording (f.read time distance true)
      (samplesBetween (|(clock ts).step| / (2 * 10 ^ 10)) (time.getD (none, none)).1 (time.getD (none, none)).2 (clock ts).values)
      (samplesBetween (|f.cable.step| / (2 * 10 ^ 10)) (distance.getD (none, none)).1 (distance.getD (none, none)).2 f.cable.values)
      ((pickedBy (|(clock ts).step| / (2 * 10 ^ 10)) (time.getD (none, none)).1 (time.getD (none, none)).2 (clock ts).values (f.data.rows.take ts.length)).map
        (pickedBy (|f.cable.step| / (2 * 10 ^ 10)) (distance.getD (none, none)).1 (distance.getD (none, none)).2 f.cable.values)) := by
  have hle : ts.length ≤ f.data.rows.length := by
    obtain ⟨k, hk⟩ := h.times
    rw [h.rows, hk]; simp
  obtain ⟨t, sl, t1, t2, t3, t4, t5⟩ := select_parallel (clock_valid h) (time.getD (none, none)).1 (time.getD (none, none)).2
  obtain ⟨x, xs, x1, x2, x3, x4, x5⟩ := select_parallel (cable_valid h) (distance.getD (none, none)).1 (distance.getD (none, none)).2
  obtain ⟨ix, i1, i2⟩ := rowIndex_spec t1 (t5.trans t3.symm) f.data.rows hle
  have htake : (f.data.rows.take ts.length).length = (clock ts).len := by simp [hle, clock]
  replace i2 : ix.apply f.data.rows = .ok (cutList sl (f.data.rows.take ts.length)) := i2
  rw [t4 _ htake] at i2
  unfold read
  rw [timeCoord_spec h, distanceCoord_spec h]
  simp only [bind, Except.bind, Coord.query]
  rw [t1]
  simp only [Except.map]
  rw [Prod.mk.eta] at x1
  rw [x1]
  simp only
  rw [i1]
  simp only
  rw [i2]
  simp only
  have hrows : (pickedBy (|(clock ts).step| / (2 * 10 ^ 10)) (time.getD (none, none)).1 (time.getD (none, none)).2 (clock ts).values (f.data.rows.take ts.length)).map
      (cutList xs) = (pickedBy (|(clock ts).step| / (2 * 10 ^ 10)) (time.getD (none, none)).1 (time.getD (none, none)).2 (clock ts).values (f.data.rows.take ts.length)).map
        (pickedBy (|f.cable.step| / (2 * 10 ^ 10)) (distance.getD (none, none)).1 (distance.getD (none, none)).2 f.cable.values) := by
    apply List.map_congr_left
    intro r hr
    exact x4 r (h.channels r (List.mem_of_mem_take (mem_pickedBy hr)))
  have hpl := pickedBy_length (|(clock ts).step| / (2 * 10 ^ 10)) (time.getD (none, none)).1 (time.getD (none, none)).2 (clock ts).values (f.data.rows.take ts.length)
    (by rw [htake, (clock_valid h).length_values])
  have hw : cutLength xs f.data.width = (samplesBetween (|f.cable.step| / (2 * 10 ^ 10)) (distance.getD (none, none)).1 (distance.getD (none, none)).2 f.cable.values).length := by
    rw [h.width]; exact x3
  have hnew : Recording.new t x ⟨cutLength xs f.data.width, (pickedBy (|(clock ts).step| / (2 * 10 ^ 10)) (time.getD (none, none)).1 (time.getD (none, none)).2
      (clock ts).values (f.data.rows.take ts.length)).map (cutList xs)⟩ = .ok ⟨t, x, (pickedBy (|(clock ts).step| / (2 * 10 ^ 10)) (time.getD (none, none)).1
      (time.getD (none, none)).2 (clock ts).values (f.data.rows.take ts.length)).map (cutList xs)⟩ := by
    unfold Recording.new
    rw [if_pos ⟨by rw [t5, List.length_map, hpl], by rw [x5, hw]⟩]
  rw [hnew]
  simp only [pure, Except.pure, Sheet.size, List.length_map, hpl, hw, Nat.mul_eq_zero, List.length_eq_zero_iff]
  unfold GivesRecording
  split_ifs with hz
  · rfl
  · exact ⟨_, rfl, t2, x2, hrows⟩

/-- The times of a file with unfilled rows neither increase nor decrease. -/
theorem raw_unsorted (h : TerraLayout f ts) (hk : ts.length < f.times.length) : ¬ StrictMono' (f.times.map nanos) := by
  obtain ⟨k, hk'⟩ := h.times
  have hk1 : k ≠ 0 := by
    rintro rfl
    rw [hk'] at hk
    simp at hk
  obtain ⟨k, rfl⟩ := Nat.exists_eq_succ_of_ne_zero hk1
  have h2 := h.two
  match ts, h2 with
  | a :: b :: r, _ =>
    have hlast : (a :: b :: r).getLastD 0 ∈ b :: r := by
      simp only [List.getLastD_cons]
      cases r with
      | nil => simp
      | cons c r =>
        rw [List.getLastD_eq_getLast?, List.getLast?_eq_some_getLast (by simp)]
        simp only [Option.getD_some]
        exact List.mem_cons_of_mem _ (List.getLast_mem _)
    have hfw := h.forward
    simp only [List.headD_cons] at hfw
    have hn : (1 : ℚ) ≤ ((a :: b :: r).length : ℚ) - 1 := by
      simp only [List.length_cons]; push_cast
      have : (0 : ℚ) ≤ r.length := by positivity
      linarith
    have hge : a ≤ (a :: b :: r).getLastD 0 := by linarith
    have ha := h.later a (by simp)
    have z : nanos 0 = 0 := by decide +kernel
    have m : ∀ {x y : ℚ}, x ≤ y → nanos x ≤ nanos y := by
      intro x y hxy
      unfold nanos
      exact_mod_cast rint_mono (by linarith)
    rintro (hs | hs)
    · rw [hk', List.map_append, List.pairwise_append] at hs
      have := hs.2.2 (nanos a) (by simp) (nanos 0) (by simp [List.replicate_succ])
      have := m ha.le
      linarith
    · rw [hk', List.map_append, List.pairwise_append] at hs
      have := hs.1
      rw [List.map_cons, List.pairwise_cons] at this
      have := this.1 _ (List.mem_map_of_mem hlast)
      have := m hge
      linarith

theorem rawCoord_spec (h : TerraLayout f ts) (hk : ts.length < f.times.length) : f.timeCoord false = .ok (.arr (f.times.map nanos)) := by
  have hs := raw_unsorted h hk
  unfold timeCoord timeInfo
  rw [usedTimes_spec h, if_neg (by rintro rfl; exact absurd h.two (by simp)), if_neg (by have := h.two; omega)]
  simp only [bind, Except.bind, Bool.false_eq_true, if_false]
  rw [getCoordData_stored (by have := h.two; simp; omega) (Or.inl hs), if_neg]
  intro hc
  exact hs ((strict_iff _).1 hc)

end TerraFile
end Verif
