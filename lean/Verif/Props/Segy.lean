import Verif.Proof.Segy
/-! # C91: SEGY files -/
namespace Verif
open Spec

variable {α : Type} {f : SegyFile α} {p : SegyPatch α} {time channel : RangeCoord}

/-- Three traces of two samples. -/
def exSegy : SegyFile ℕ := ⟨5, 1000, 2, [[1, 2], [3, 4], [5, 6]]⟩
theorem exSegy_layout : SegyLayout exSegy := ⟨by decide, by decide, by decide, by decide⟩

/-- Two times and three places. -/
def exSegyPatch : SegyPatch ℕ := ⟨("time", "distance"), (.range ⟨5000000000, 5002000000, 1000000, 2⟩, .range ⟨10, 25, 5, 3⟩), ⟨3, [[1, 3, 5], [2, 4, 6]]⟩⟩
theorem exSegyPatch_writable : SegyWritable exSegyPatch ⟨5000000000, 5002000000, 1000000, 2⟩ ⟨10, 25, 5, 3⟩ :=
  ⟨by decide, rfl, rfl, rfl, by decide, by decide, by decide, by decide +kernel, by decide +kernel⟩

/-- **C91** A file is read as it is: labels of time start with the second in the header and advance by its interval, channels are numbered,
and the samples of each time are those of the traces, in order. Limits keep exactly the times and channels between them, if there is
such a channel. -/
theorem C91_read_partial (h : SegyLayout f) (time channel : Option ℚ × Option ℚ) (t c : Option (Option ℚ × Option ℚ))
    (ht : t = some time ∨ t = none ∧ time = (none, none)) (hc : c = some channel ∨ c = none ∧ channel = (none, none))
    (hsome : samplesBetween (1 / (2 * 10 ^ 10)) channel.1 channel.2 (progression 0 1 f.traces.length) ≠ []) :
    GivesRecording (f.read t c)
      (samplesBetween (f.interval * 1000 / (2 * 10 ^ 10)) time.1 time.2 (progression (f.second * 1000000000) (f.interval * 1000) f.count))
      (samplesBetween (1 / (2 * 10 ^ 10)) channel.1 channel.2 (progression 0 1 f.traces.length))
      ((pickedBy (f.interval * 1000 / (2 * 10 ^ 10)) time.1 time.2 (progression (f.second * 1000000000) (f.interval * 1000) f.count)
        (atEachTime f.count f.traces)).map (pickedBy (1 / (2 * 10 ^ 10)) channel.1 channel.2 (progression 0 1 f.traces.length))) := by
  have h1 : t.getD (none, none) = time := by rcases ht with rfl | ⟨rfl, rfl⟩ <;> rfl
  have h2 : c.getD (none, none) = channel := by rcases hc with rfl | ⟨rfl, rfl⟩ <;> rfl
  have habs : |f.clock.step| = f.interval * 1000 := abs_of_pos (by
    have := SegyFile.interval_pos h
    change (0 : ℚ) < f.interval * 1000
    positivity)
  have hl := (SegyFile.line_valid h).values_eq
  have key := SegyFile.read_some h t c (by rw [h2, hl]; exact hsome)
  rw [h1, h2, habs, (SegyFile.clock_valid h).values_eq, hl] at key
  exact key
example : SegyLayout exSegy ∧ samplesBetween (1 / (2 * 10 ^ 10)) (some 1) none (progression 0 1 exSegy.traces.length) ≠ [] :=
  ⟨exSegy_layout, by decide +kernel⟩
example : (exSegy.read (some (some 5001000000, none)) (some (some 1, none))).map (Option.map fun w => (w.times.labels, w.distances.labels, w.rows)) =
    .ok (some ([some 5001000000], [some 1, some 2], [[4, 6]])) := by decide +kernel

/-- **C91** Limits with no channel between them are an error, not nothing. -/
theorem C91_no_channel_refused (h : SegyLayout f) (t : Option (Option ℚ × Option ℚ)) (a b : Option ℚ)
    (hnone : samplesBetween (1 / (2 * 10 ^ 10)) a b (progression 0 1 f.traces.length) = []) : f.read t (some (a, b)) = .error .valueError :=
  SegyFile.read_none h t (some (a, b)) (by rw [(SegyFile.line_valid h).values_eq]; exact hnone)
example : SegyLayout exSegy ∧ samplesBetween (1 / (2 * 10 ^ 10)) (some 7) none (progression 0 1 exSegy.traces.length) = [] :=
  ⟨exSegy_layout, by decide +kernel⟩

/-- **C91** A patch written and read back has its samples (rounded to 32 bits) at each time and channel, whichever dimension came first;
the first label is the second the patch starts in, the step that of the patch rounded to microseconds, and channels are numbered. -/
theorem C91_write (f32 : α → α) (h : SegyWritable p time channel) {step : ℤ} (hstep : |time.step - step * 1000| ≤ 3) :
    ∃ g, SegyPatch.write f32 [p] = .ok g ∧
      ReadsSamples (g.read none none) (progression (⌊time.start / 1000000000⌋ * 1000000000) (step * 1000) time.len) (progression 0 1 channel.len)
        fun i j => (segySample p i j).map f32 := by
  obtain ⟨R, r1, r2, r3, hw⟩ := SegyPatch.write_spec f32 h
  obtain ⟨s1, s2⟩ := abs_le.1 hstep
  have hr : rint (time.step / 1000000000 * 1000000) = step := by
    apply rint_eq_of_lt
    rw [abs_lt]
    constructor <;> linarith
  have hr6 : roundDec 6 (time.step / 1000000000) = step / 1000000 := by
    unfold roundDec
    have : time.step / 1000000000 * 10 ^ 6 = time.step / 1000000000 * 1000000 := by norm_num
    rw [this, hr]
    norm_num
  rw [hr6, hr, if_pos (by rw [abs_le]; constructor <;> linarith)] at hw
  refine ⟨_, hw, ?_⟩
  have hpos : 0 < step := by
    have h1 : (0 : ℚ) < step := by linarith [h.slow]
    exact_mod_cast h1
  have hlay : SegyLayout (⟨⌊time.start / 1000000000⌋, step, time.len, R.map fun r => r.map f32⟩ : SegyFile α) := by
    refine ⟨?_, by simp [r1, h.two_channels], h.two_samples, hpos⟩
    intro t ht
    obtain ⟨r, hr, rfl⟩ := List.mem_map.1 ht
    simp [r2 r hr]
  have hn1 : (progression (⌊time.start / 1000000000⌋ * 1000000000 : ℚ) (step * 1000) time.len).length = time.len := progression_length _ _ _
  have hn2 : (progression 0 1 channel.len).length = channel.len := progression_length _ _ _
  have hne2 : progression 0 1 channel.len ≠ [] := by
    intro h0
    rw [h0] at hn2
    have := h.two_channels
    simp at hn2; omega
  have hne1 : progression (⌊time.start / 1000000000⌋ * 1000000000 : ℚ) (step * 1000) time.len ≠ [] := by
    intro h0
    rw [h0] at hn1
    have := h.two_samples
    simp at hn1; omega
  have hRl : (R.map fun r => r.map f32).length = channel.len := by simp [r1]
  have key := C91_read_partial hlay (none, none) (none, none) none none (Or.inr ⟨rfl, rfl⟩) (Or.inr ⟨rfl, rfl⟩)
    (by rw [samplesBetween_free]; simp only; rw [hRl]; exact hne2)
  simp only [samplesBetween_free, hRl] at key
  have hlen : (atEachTime time.len (R.map fun r => r.map f32)).length = time.len := by simp [atEachTime]
  have hrowlen : ∀ r ∈ atEachTime time.len (R.map fun r => r.map f32), r.length = channel.len := by
    intro r hr
    rw [← hRl]
    exact atEachTime_width hlay.samples r hr
  rw [pickedBy_free _ _ _ (by rw [hn1, hlen])] at key
  have hrows : (atEachTime time.len (R.map fun r => r.map f32)).map (pickedBy (1 / (2 * 10 ^ 10)) none none (progression 0 1 channel.len)) =
      atEachTime time.len (R.map fun r => r.map f32) := by
    conv_rhs => rw [← List.map_id (atEachTime time.len (R.map fun r => r.map f32))]
    apply List.map_congr_left
    intro r hr
    rw [pickedBy_free _ _ _ (by rw [hn2, hrowlen r hr])]; rfl
  rw [hrows] at key
  unfold GivesRecording at key
  rw [if_neg (by simp only [hne1, hne2, or_self, not_false_eq_true])] at key
  obtain ⟨w, w1, w2, w3, w4⟩ := key
  refine ⟨w, w1, w2, w3, by rw [w4, hlen, hn1], by rw [w4, hn2]; exact hrowlen, ?_⟩
  intro i j
  rw [w4, atEachTime_get hlay.samples]
  simp only
  rw [← r3 i j, List.getElem?_map]
  cases R[j]? with
  | none => rfl
  | some r => simp
example : SegyWritable exSegyPatch ⟨5000000000, 5002000000, 1000000, 2⟩ ⟨10, 25, 5, 3⟩ ∧ |(1000000 : ℚ) - (1000 : ℤ) * 1000| ≤ 3 :=
  ⟨exSegyPatch_writable, by decide +kernel⟩

/-- **C91** A patch which starts with a whole second and has a step of whole microseconds keeps its labels of time. -/
theorem C91_labels_partial (f32 : α → α) (h : SegyWritable p time channel) {second step : ℤ} (hstart : time.start = second * 1000000000)
    (hstep : time.step = step * 1000) :
    ∃ g, SegyPatch.write f32 [p] = .ok g ∧
      ReadsSamples (g.read none none) time.values (progression 0 1 channel.len) fun i j => (segySample p i j).map f32 := by
  obtain ⟨g, g1, g2⟩ := C91_write f32 h (step := step) (by rw [hstep]; simp)
  refine ⟨g, g1, ?_⟩
  have e : (⌊time.start / 1000000000⌋ : ℚ) * 1000000000 = time.start := by
    rw [hstart, mul_div_cancel_right₀ _ (by norm_num), Int.floor_intCast]
  rw [e, ← hstep] at g2
  rw [(SegyPatch.time_valid h).values_eq]
  exact g2
example : SegyWritable exSegyPatch ⟨5000000000, 5002000000, 1000000, 2⟩ ⟨10, 25, 5, 3⟩ ∧ (5000000000 : ℚ) = (5 : ℤ) * 1000000000 ∧
    (1000000 : ℚ) = (1000 : ℤ) * 1000 := ⟨exSegyPatch_writable, by decide +kernel, by decide +kernel⟩

/-- **C91** A step further than three nanoseconds from every whole number of microseconds is refused. -/
theorem C91_step_refused (f32 : α → α) (h : SegyWritable p time channel) (hstep : ∀ k : ℤ, 3 < |time.step - k * 1000|) :
    SegyPatch.write f32 [p] = .error .incompatiblePatch := by
  obtain ⟨R, _, _, _, hw⟩ := SegyPatch.write_spec f32 h
  rw [hw, if_neg]
  intro hle
  unfold roundDec at hle
  have := hstep (rint (time.step / 1000000000 * 10 ^ 6))
  generalize (rint (time.step / 1000000000 * 10 ^ 6)) = k at *
  obtain ⟨l1, l2⟩ := abs_le.1 hle
  have : |time.step - k * 1000| ≤ 3 := by
    rw [abs_le]
    norm_num at l1 l2
    constructor <;> linarith
  linarith
example : SegyWritable { exSegyPatch with coords := (.range ⟨5000000000, 5002000800, 1000400, 2⟩, .range ⟨10, 25, 5, 3⟩) }
    ⟨5000000000, 5002000800, 1000400, 2⟩ ⟨10, 25, 5, 3⟩ ∧ ∀ k : ℤ, (3 : ℚ) < |1000400 - (k : ℚ) * 1000| := by
  refine ⟨⟨by decide, rfl, rfl, rfl, by decide, by decide, by decide, by decide +kernel, by decide +kernel⟩, ?_⟩
  intro k
  rw [lt_abs]
  rcases le_or_gt k 1000 with hk | hk
  · left
    have : (k : ℚ) ≤ 1000 := by exact_mod_cast hk
    linarith
  · right
    have : (1001 : ℚ) ≤ k := by exact_mod_cast hk
    linarith

/-- **C91** Only one patch can be written, with the dimensions time and channel or distance. -/
theorem C91_refused (f32 : α → α) (spool : List (SegyPatch α))
    (h : spool.length ≠ 1 ∨ ∃ q ∈ spool, ¬ (q.dims = ("time", "distance") ∨ q.dims = ("time", "channel") ∨ q.dims = ("distance", "time") ∨ q.dims = ("channel", "time"))) :
    ∃ e, SegyPatch.write f32 spool = .error e := by
  match spool, h with
  | [], _ => exact ⟨_, rfl⟩
  | _ :: _ :: _, _ => exact ⟨_, rfl⟩
  | [⟨(a, b), coords, data⟩], h =>
    simp only [List.length_singleton, ne_eq, not_true_eq_false, List.mem_singleton, exists_eq_left, false_or, Prod.mk.injEq] at h
    unfold SegyPatch.write SegyPatch.compatible
    simp only
    rw [if_pos]
    · exact ⟨_, rfl⟩
    · by_cases ha : a = "time"
      · subst ha
        simp at h ⊢
        tauto
      · simp [ha] at h ⊢
        by_cases hb : b = "time"
        · simp [hb] at h ⊢
          tauto
        · left; exact hb
example : (List.length ([] : List (SegyPatch ℕ)) ≠ 1) := by decide

/-- **C91** (violated) The fraction of a second a patch starts at is lost: all labels are shifted. -/
theorem C91_start_violated :
    ((SegyPatch.write id [{ exSegyPatch with coords := (.range ⟨5250000000, 5252000000, 1000000, 2⟩, .range ⟨10, 25, 5, 3⟩) }]) >>=
      fun g => (g.read none none).map (Option.map fun w => w.times.labels)) = .ok (some [some 5000000000, some 5001000000]) := by
  decide +kernel

/-- **C91** (violated) A step of a few nanoseconds more than whole microseconds is accepted and lost. -/
theorem C91_step_violated :
    ((SegyPatch.write id [{ exSegyPatch with coords := (.range ⟨5000000000, 5002000004, 1000002, 2⟩, .range ⟨10, 25, 5, 3⟩) }]) >>=
      fun g => (g.read none none).map (Option.map fun w => w.times.labels)) = .ok (some [some 5000000000, some 5001000000]) := by
  decide +kernel

/-- **C91** (violated) Numbers of channels are lost, also those of a patch with a dimension `channel`. -/
theorem C91_channel_violated :
    ((SegyPatch.write id [{ exSegyPatch with dims := ("time", "channel") }]) >>=
      fun g => (g.read none none).map (Option.map fun w => w.distances.labels)) = .ok (some [some 0, some 1, some 2]) ∧
    exSegyPatch.coords.2.labels = [some 10, some 15, some 20] := by
  constructor <;> decide +kernel

/-- **C91** (violated) A patch with decreasing times is read back with labels starting with its last one. -/
theorem C91_decreasing_violated :
    ((SegyPatch.write id [{ exSegyPatch with coords := (.range ⟨5001000000, 4999000000, -1000000, 2⟩, .range ⟨10, 25, 5, 3⟩) }]) >>=
      fun g => (g.read none none).map (Option.map fun w => (w.times.labels, w.rows))) =
      .ok (some ([some 5000000000, some 4999000000], [[1, 3, 5], [2, 4, 6]])) := by
  decide +kernel

/-- **C91** (violated) Limits without a channel between them are an error, though limits without a time between them give nothing. -/
theorem C91_empty_violated :
    (match exSegy.read none (some (some 7, none)) with | .error e => some e | .ok _ => none) = some .valueError ∧
    (exSegy.read (some (some 7000000000, none)) none).map (fun r => r.isNone) = .ok true := by
  constructor <;> decide +kernel

end Verif
