import Verif.Model.Reader
import Verif.Spec.Reader
import Verif.Proof.RangeSelect
import Verif.Proof.Time
/-! # Lemmas about cutting lists by labels -/
namespace Verif
open Spec

theorem takeIdx_map' {α β} (f : α → β) (l : List α) (ix : List ℕ) : takeIdx (l.map f) ix = (takeIdx l ix).map f := by
  unfold takeIdx
  rw [List.map_filterMap]
  congr 1
  funext i
  simp

theorem pySlice_map' {α β} (f : α → β) (l : List α) (s : PySlice) : pySlice (l.map f) s = (pySlice l s).map (List.map f) := by
  unfold pySlice
  rw [List.length_map]
  cases s.indices l.length with
  | error e => rfl
  | ok r => simp only [bind, Except.bind, pure, Except.pure, takeIdx_map', Except.map]

theorem list_as_map {α} [Inhabited α] (l : List α) : l = (List.range l.length).map fun i => l.getD i default := by
  apply List.ext_getElem
  · simp
  · intro i h1 h2
    simp [List.getD_eq_getElem?_getD, h1]

/-- A slice which cuts labels to those between limits cuts any list of the same length the same way. -/
theorem cut_parallel {α} {s : PySlice} {f : ℕ → ℚ} (hf : Function.Injective f) {n : ℕ} {tol : ℚ} {a b : Option ℚ}
    (h : pySlice ((List.range n).map f) s = .ok (samplesBetween tol a b ((List.range n).map f))) (l : List α) (hl : l.length = n) :
    cutList s l = pickedBy tol a b ((List.range n).map f) l := by
  rw [pySlice_map'] at h
  cases hr : pySlice (List.range n) s with
  | error e => rw [hr] at h; simp [Except.map] at h
  | ok ix =>
    rw [hr] at h
    simp only [Except.map, Except.ok.injEq] at h
    have hix : ix = (List.range n).filter fun i => decide (Between tol a b (f i)) := by
      apply List.map_injective_iff.2 hf
      rw [h]
      unfold samplesBetween
      rw [List.filter_map]
      rfl
    cases l with
    | nil =>
      subst hl
      simp [cutList, pickedBy]
      cases hh : pySlice ([] : List α) s with
      | error e => rfl
      | ok r =>
        unfold pySlice at hh
        cases hi : s.indices ([] : List α).length with
        | error e => rw [hi] at hh; simp [bind, Except.bind] at hh
        | ok q =>
          rw [hi] at hh
          simp only [bind, Except.bind, pure, Except.pure, Except.ok.injEq] at hh
          rw [← hh]
          simp [takeIdx]
    | cons x l' =>
      let _ : Inhabited α := ⟨x⟩
      have hL := list_as_map (x :: l')
      rw [hl] at hL
      unfold cutList pickedBy
      rw [hL, pySlice_map', hr]
      simp only [Except.map]
      rw [hix, List.zip_map', List.filter_map, List.map_map]
      rfl

theorem cutLength_eq {s : PySlice} {f : ℕ → ℚ} (hf : Function.Injective f) {n : ℕ} {tol : ℚ} {a b : Option ℚ}
    (h : pySlice ((List.range n).map f) s = .ok (samplesBetween tol a b ((List.range n).map f))) :
    cutLength s n = (samplesBetween tol a b ((List.range n).map f)).length := by
  unfold cutLength
  rw [cut_parallel hf h _ (by simp)]
  unfold pickedBy samplesBetween
  rw [← List.map_id (List.range n), List.map_map, List.zip_map']
  simp only [List.filter_map, List.length_map]
  rfl

theorem progression_inj {a s : ℚ} (hs : s ≠ 0) : Function.Injective fun i : ℕ => a + (i : ℚ) * s := by
  intro i j h
  have : ((i : ℚ) - j) * s = 0 := by
    have : a + (i : ℚ) * s = a + (j : ℚ) * s := h
    linarith
  rcases mul_eq_zero.1 this with h | h
  · exact_mod_cast sub_eq_zero.1 h
  · exact absurd h hs

theorem pickedBy_length {α} (tol : ℚ) (a b : Option ℚ) (ts : List ℚ) (l : List α) (h : l.length = ts.length) :
    (pickedBy tol a b ts l).length = (samplesBetween tol a b ts).length := by
  unfold pickedBy samplesBetween
  rw [List.length_map]
  induction ts generalizing l with
  | nil => simp
  | cons t ts ih =>
    cases l with
    | nil => simp at h
    | cons x l =>
      simp only [List.zip_cons_cons, List.filter_cons]
      have := ih l (by simpa using h)
      split_ifs <;> simp_all

theorem mem_pickedBy {α} {tol : ℚ} {a b : Option ℚ} {ts : List ℚ} {l : List α} {x : α} (h : x ∈ pickedBy tol a b ts l) : x ∈ l := by
  unfold pickedBy at h
  obtain ⟨p, hp, rfl⟩ := List.mem_map.1 h
  exact (List.of_mem_zip (List.mem_filter.1 hp).1).2

theorem chunksOf_flatten {α} (k : ℕ) (rows : List (List α)) (h : ∀ r ∈ rows, r.length = k) : chunksOf k rows.length rows.flatten = rows := by
  induction rows with
  | nil => rfl
  | cons r rows ih =>
    have hr := h r (by simp)
    rw [List.length_cons, chunksOf, List.flatten_cons]
    have h1 : (r ++ rows.flatten).take k = r := by rw [← hr]; simp
    have h2 : (r ++ rows.flatten).drop k = rows.flatten := by rw [← hr]; simp
    rw [h1, h2, ih (fun x hx => h x (by simp [hx]))]

theorem flatten_length_const {α} (k : ℕ) (rows : List (List α)) (h : ∀ r ∈ rows, r.length = k) : rows.flatten.length = rows.length * k := by
  induction rows with
  | nil => simp
  | cons r rows ih =>
    rw [List.flatten_cons, List.length_append, h r (by simp), ih (fun x hx => h x (by simp [hx])), List.length_cons]
    ring

theorem reshapeRows_rows {α} {k : ℕ} (hk : 1 ≤ k) (rows : List (List α)) (h : ∀ r ∈ rows, r.length = k) :
    reshapeRows k rows.flatten = .ok ⟨k, rows⟩ := by
  unfold reshapeRows
  rw [flatten_length_const k rows h, if_neg, Nat.mul_div_cancel _ (by omega), chunksOf_flatten k rows h]
  simp; omega

theorem nanos_nearest (x : ℚ) : Nearest (x * 1000000000) (nanos x) := by
  refine ⟨⟨_, rfl⟩, ?_, ?_⟩ <;> · have := rint_bounds (x * 1000000000); unfold nanos; linarith [this.1, this.2]

/-- `mkRange` followed by `change_length`: the start and the step are kept, the length is as asked. -/
theorem range_of_length {a b s : ℚ} {n : ℕ} (hs : 0 < s) (hn : 1 ≤ n) (hab : s ≤ 10 * (b - a)) (tl : Bool) (htl : tl = true ∨ b = a + s * n) :
    ((mkRange a b s) >>= fun c => c.changeLength tl (some n)) = .ok (.range ⟨a, a + s * n, s, n⟩) := by
  rcases htl with htl | hb
  · subst htl
    rw [mkRange_eq _ _ _ hs.ne']
    set m := ⌈roundDec 1 ((b - a) / s)⌉ with hm
    have h1 : 1 ≤ m := by
      rw [hm]
      rw [Int.one_le_ceil_iff]
      have : (1 : ℚ) / 10 ≤ (b - a) / s := by rw [le_div_iff₀ hs]; linarith
      have h2 := roundDec_mono (k := 1) this
      have h3 : roundDec 1 (1 / 10) = 1 / 10 := by decide +kernel
      rw [h3] at h2
      linarith
    simp only [h1, if_true]
    change RangeCoord.changeLength _ true (some (n : ℤ)) = _
    unfold RangeCoord.changeLength
    simp only
    rw [if_neg (by omega)]
    have hmn : ((m.toNat : ℕ) : ℤ) = m := by omega
    have hmq : ((m.toNat : ℕ) : ℚ) = m := by exact_mod_cast congrArg (Int.cast (R := ℚ)) hmn
    by_cases hlen : (m.toNat : ℤ) = n
    · rw [if_pos hlen]
      have e1 : m.toNat = n := by exact_mod_cast hlen
      have e2 : (m : ℚ) = n := by rw [← hmq, e1]
      rw [e1, e2]
    · rw [if_neg hlen, if_neg (by omega)]
      have hstop : a + s * m + s * ((n : ℤ) - (m.toNat : ℤ) : ℤ) = a + s * n := by
        push_cast; rw [hmq]; ring
      rw [hstop]
      have hne : a + s * n ≠ a + s * m := by
        intro h
        have : s * ((n : ℚ) - m) = 0 := by linarith
        rcases mul_eq_zero.1 this with h | h
        · exact hs.ne' h
        · apply hlen
          have : ((n : ℤ) : ℚ) = m := by push_cast; linarith
          rw [hmn]; exact_mod_cast this.symm
      simp only [if_true, hne, decide_false, Bool.false_eq_true, if_false]
      rw [new_canonical hs.ne' hn rfl]
      simp
  · subst hb
    rw [mkRange_canonical hs.ne' hn]
    change RangeCoord.changeLength _ tl (some (n : ℤ)) = _
    unfold RangeCoord.changeLength
    simp only
    rw [if_neg (by omega), if_pos trivial]

theorem valid_canonical {a s : ℚ} {n : ℕ} (hs : s ≠ 0) (hn : 1 ≤ n) : (⟨a, a + s * n, s, n⟩ : RangeCoord).Valid := ⟨hs, hn, rfl⟩

theorem canonical_values {a s : ℚ} {n : ℕ} (hs : s ≠ 0) (hn : 1 ≤ n) :
    (⟨a, a + s * n, s, n⟩ : RangeCoord).values = (List.range n).map fun i : ℕ => a + (i : ℚ) * s := (valid_canonical hs hn).values_eq

/-- `select` on an evenly sampled coordinate, with what it does to a list of the same length. -/
theorem select_parallel {c : RangeCoord} (hv : c.Valid) (a b : Option ℚ) :
    ∃ d sl, c.select (a, b) = .ok (d, sl) ∧ d.labels = (samplesBetween (|c.step| / (2 * 10 ^ 10)) a b c.values).map some ∧
      cutLength sl c.len = (samplesBetween (|c.step| / (2 * 10 ^ 10)) a b c.values).length ∧
      (∀ {α : Type} (l : List α), l.length = c.len → cutList sl l = pickedBy (|c.step| / (2 * 10 ^ 10)) a b c.values l) ∧
      d.length = (samplesBetween (|c.step| / (2 * 10 ^ 10)) a b c.values).length := by
  obtain ⟨d, sl, h1, h2, h3, _⟩ := RangeCoord.select_spec hv a b
  have : absQ c.step * RangeCoord.fudge = |c.step| / (2 * 10 ^ 10) := by
    have : absQ c.step = |c.step| := by
      unfold absQ; split_ifs with h
      · exact (abs_of_neg h).symm
      · exact (abs_of_nonneg (not_lt.1 h)).symm
    rw [this, RangeCoord.fudge]; ring
  rw [this] at h2 h3
  refine ⟨d, sl, h1, h2, ?_, ?_, ?_⟩
  · rw [hv.values_eq] at h3 ⊢
    exact cutLength_eq (progression_inj hv.step_ne) h3
  · intro α l hl
    rw [hv.values_eq] at h3 ⊢
    exact cut_parallel (progression_inj hv.step_ne) h3 l hl
  · have := congrArg List.length h2
    rw [List.length_map] at this
    rw [← this]
    cases d with
    | range r =>
      simp only [Coord.labels, Coord.length, List.length_map]
      unfold RangeCoord.values
      split_ifs with h
      · simp [h]
      · simp
    | mono v => simp [Coord.labels, Coord.length]
    | arr v => simp [Coord.labels, Coord.length]
    | part n => simp [Coord.labels, Coord.length]

theorem samplesBetween_free (tol : ℚ) (ts : List ℚ) : samplesBetween tol none none ts = ts := by
  unfold samplesBetween
  rw [List.filter_eq_self]
  intro t _
  exact decide_eq_true (by unfold Between; trivial)

theorem pickedBy_free {α} (tol : ℚ) (ts : List ℚ) (l : List α) (h : ts.length = l.length) : pickedBy tol none none ts l = l := by
  unfold pickedBy
  rw [List.filter_eq_self.2]
  · exact List.map_snd_zip h.ge
  · intro t _
    exact decide_eq_true (by unfold Between; trivial)

/-- `readPart` picks rows and channels by their labels. -/
theorem readPart_spec {α} {tc dc : RangeCoord} (ht : tc.Valid) (hd : dc.Valid) {R : List (List α)} (hlen : R.length = tc.len)
    (hw : ∀ r ∈ R, r.length = dc.len) (time distance : Option (Option ℚ × Option ℚ)) :
    GivesRecording (readPart tc dc ⟨dc.len, R⟩ time distance)
      (samplesBetween (|tc.step| / (2 * 10 ^ 10)) (time.getD (none, none)).1 (time.getD (none, none)).2 tc.values)
      (samplesBetween (|dc.step| / (2 * 10 ^ 10)) (distance.getD (none, none)).1 (distance.getD (none, none)).2 dc.values)
      ((pickedBy (|tc.step| / (2 * 10 ^ 10)) (time.getD (none, none)).1 (time.getD (none, none)).2 tc.values R).map
        (pickedBy (|dc.step| / (2 * 10 ^ 10)) (distance.getD (none, none)).1 (distance.getD (none, none)).2 dc.values)) := by
  have hcl := ht.length_values
  have hca := hd.length_values
  have hch := hd.len_pos
  have hso := ht.len_pos
  unfold readPart
  by_cases hl : time.isSome ∨ distance.isSome
  · obtain ⟨t, ts, t1, t2, t3, t4, t5⟩ := select_parallel ht (time.getD (none, none)).1 (time.getD (none, none)).2
    obtain ⟨x, xs, x1, x2, x3, x4, x5⟩ := select_parallel hd (distance.getD (none, none)).1 (distance.getD (none, none)).2
    rw [if_pos hl]
    unfold selectPart
    simp only [bind, Except.bind, Prod.mk.eta] at t1 x1 ⊢
    rw [t1]
    simp only
    rw [x1]
    simp only
    have hrows : (cutList ts R).map (cutList xs) = (pickedBy (|tc.step| / (2 * 10 ^ 10)) (time.getD (none, none)).1 (time.getD (none, none)).2 tc.values R).map
        (pickedBy (|dc.step| / (2 * 10 ^ 10)) (distance.getD (none, none)).1 (distance.getD (none, none)).2 dc.values) := by
      rw [t4 R hlen]
      apply List.map_congr_left
      intro r hr
      exact x4 r (hw r (mem_pickedBy hr))
    rw [hrows, x3]
    have hpl := pickedBy_length (|tc.step| / (2 * 10 ^ 10)) (time.getD (none, none)).1 (time.getD (none, none)).2 tc.values R (by rw [hcl, hlen])
    unfold GivesRecording
    split_ifs with hsz hsz' hsz'
    · rfl
    · exfalso
      apply hsz'
      simp only [Sheet.size, List.length_map, hpl, Nat.mul_eq_zero, List.length_eq_zero_iff]
      exact hsz
    · exfalso
      simp only [Sheet.size, List.length_map, hpl, Nat.mul_eq_zero, List.length_eq_zero_iff] at hsz'
      exact hsz hsz'
    · refine ⟨⟨t, x, _⟩, ?_, t2, x2, rfl⟩
      unfold Recording.new
      rw [if_pos ⟨by rw [t5, List.length_map, hpl], by rw [x5]⟩]
      rfl
  · rw [if_neg hl]
    rw [not_or, Option.not_isSome_iff_eq_none, Option.not_isSome_iff_eq_none] at hl
    obtain ⟨rfl, rfl⟩ := hl
    simp only [Option.getD_none, bind, Except.bind]
    rw [samplesBetween_free, samplesBetween_free, pickedBy_free _ _ _ (by rw [hcl, hlen])]
    have hrows : R.map (pickedBy (|dc.step| / (2 * 10 ^ 10)) none none dc.values) = R := by
      conv_rhs => rw [← List.map_id R]
      apply List.map_congr_left
      intro r hr
      rw [pickedBy_free _ _ _ (by rw [hca, hw r hr])]; rfl
    rw [hrows]
    have hsz : (⟨dc.len, R⟩ : Sheet α).size ≠ 0 := by
      simp only [Sheet.size, hlen]
      exact (Nat.mul_pos hso hch).ne'
    unfold GivesRecording
    rw [if_neg hsz, if_neg]
    · refine ⟨⟨.range tc, .range dc, R⟩, ?_, rfl, rfl, rfl⟩
      unfold Recording.new
      rw [if_pos ⟨by simp only [Coord.length]; rw [hlen], rfl⟩]
      rfl
    · rintro (e | e)
      · rw [e, List.length_nil] at hcl; omega
      · rw [e, List.length_nil] at hca; omega

end Verif
