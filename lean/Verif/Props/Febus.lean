import Verif.Proof.FebusTime
/-!
# C87: reading Febus files

The whole statement: reading a file with limits of time and distance gives what reading all of it and selecting afterwards gives. It
holds without limits of time (`C87_whole`, `C87_distance`), is wrong by one sample with limits of time (`C87_time_partial`,
`C87_time_violated`), and limits of both cannot be used (`C87_both_refused`).
-/
namespace Verif
open Spec

variable {α : Type} {z : Zone α} {dt : ℚ} {pad kept : ℕ}

/-- Two blocks of four rows of three channels, of which the middle two rows are kept; two milliseconds and five metres apart. -/
def exZone : Zone ℕ where
  blocks := [[[1, 2, 3], [4, 5, 6], [7, 8, 9], [10, 11, 12]], [[7, 8, 9], [21, 22, 23], [31, 32, 33], [41, 42, 43]]]
  nrow := 4
  nchan := 3
  extent := (2, 4, 0, 3)
  spacing := (5, 2)
  origin := (100, 0)
  overlap := 100
  samplingRate := 500
  hasVersion := true
  hasGauge := true
  time0 := 7
  blockTime := 4 / 1000

theorem exZone_layout : FebusLayout exZone (2 / 1000) 4 2 where
  versioned := fun _ => ⟨by decide +kernel, by decide +kernel⟩
  unversioned := fun h => by simp [exZone] at h
  overlapping := fun _ => ⟨by decide +kernel, by
    have : ((2 : ℕ) : ℚ) - ((4 : ℕ) : ℚ) / (1 + exZone.overlap / 100) = 0 := by decide +kernel
    rw [this]; norm_num⟩
  fitting := fun h => by simp [exZone] at h
  several := by norm_num
  some_kept := by norm_num
  no_more := by norm_num
  stored := by decide
  gauge := rfl
  before := by decide +kernel
  slow := by norm_num
  outwards := by decide +kernel
  some_blocks := by simp [exZone]
  some_channels := by decide
  shape := by decide

/-- **C87** Reading a zone without limits gives the kept rows of all blocks in order, under labels that start at the time of the file
moved by the origin and by the rows left out at the start, rounded to nanoseconds, and advance by the sampling step, rounded to
nanoseconds; the channels start at their place in the extent. A scan of the file tells the same coordinates. -/
theorem C87_whole (h : FebusLayout z dt pad kept) :
    ∃ c d : RangeCoord, z.scan = .ok (.range c, .range d) ∧ z.read none none = .ok (some ⟨.range c, .range d, zoneRows z pad kept⟩) ∧
      Nearest (dt * 1000000000) c.step ∧ Nearest ((z.time0 + z.origin.2 / 1000 + ((pad - kept) / 2 : ℕ) * dt) * 1000000000) c.start ∧
      c.values = progression c.start c.step (kept * z.blocks.length) ∧
      d.values = progression (z.extent.1 * z.spacing.1 + z.origin.1) z.spacing.1 z.nchan := by
  refine ⟨z.clock dt pad kept, z.cable, Zone.scan_eq h, Zone.read_whole h, nanos_nearest _, ?_, ?_, ?_⟩
  · have := nanos_nearest (z.time0 + z.origin.2 / 1000 + (((pad - kept) / 2 : ℕ) : ℤ) * dt)
    exact_mod_cast this
  · exact (Zone.clock_valid h).values_eq
  · exact (Zone.cable_valid h).values_eq
example : FebusLayout exZone (2 / 1000) 4 2 := exZone_layout
example : (exZone.read none none).map (Option.map fun w => (w.times.labels, w.distances.labels, w.rows)) =
    .ok (some ([some 7002000000, some 7004000000, some 7006000000, some 7008000000], [some 110, some 115, some 120],
      [[4, 5, 6], [7, 8, 9], [21, 22, 23], [31, 32, 33]])) := by decide +kernel

theorem febus_labels {c : RangeCoord} {T : List ℚ} (h : (Coord.range c).labels = T.map some) : c.values = T := by
  have : c.values.map some = T.map some := by
    rw [← h]
    simp only [Coord.labels]
  exact List.map_injective_iff.2 (Option.some_injective _) this

/-- What was read without limits, in terms of the labels. -/
theorem whole_labels (h : FebusLayout z dt pad kept) {T D : List ℚ} {R : List (List α)} (hw : GivesRecording (z.read none none) T D R) :
    (z.clock dt pad kept).values = T ∧ z.cable.values = D ∧ zoneRows z pad kept = R := by
  rw [Zone.read_whole h] at hw
  unfold GivesRecording at hw
  split_ifs at hw with he
  · cases hw
  · obtain ⟨w, e, h1, h2, h3⟩ := hw
    cases e
    exact ⟨febus_labels h1, febus_labels h2, h3⟩

/-- Reading all of a zone gives a patch: the premise of the theorems below. -/
theorem C87_gives (h : FebusLayout z dt pad kept) : ∃ T D, T ≠ [] ∧ D ≠ [] ∧ GivesRecording (z.read none none) T D (zoneRows z pad kept) := by
  have h1 : (z.clock dt pad kept).values ≠ [] := by
    intro he
    have := (Zone.clock_valid h).length_values
    rw [he, List.length_nil] at this
    have e : (z.clock dt pad kept).len = kept * z.blocks.length := rfl
    have := Zone.count_pos h
    omega
  have h2 : z.cable.values ≠ [] := by
    intro he
    have := (Zone.cable_valid h).length_values
    rw [he, List.length_nil] at this
    have e : z.cable.len = z.nchan := rfl
    have := h.some_channels
    omega
  refine ⟨_, _, h1, h2, ?_⟩
  rw [Zone.read_whole h]
  unfold GivesRecording
  rw [if_neg (by simp [h1, h2])]
  exact ⟨_, rfl, rfl, rfl, rfl⟩
example : FebusLayout exZone (2 / 1000) 4 2 := exZone_layout

/-- **C87** Reading with limits of distance is reading all and keeping the channels between the limits (with the tolerance of a
selection), in every row; nothing is read if no channel lies between them. -/
theorem C87_distance (h : FebusLayout z dt pad kept) {T D : List ℚ} {R : List (List α)} (hw : GivesRecording (z.read none none) T D R)
    (a b : Option ℚ) :
    GivesRecording (z.read none (some (a, b))) T (samplesBetween (z.spacing.1 / (2 * 10 ^ 10)) a b D)
      (R.map (pickedBy (z.spacing.1 / (2 * 10 ^ 10)) a b D)) := by
  obtain ⟨rfl, rfl, rfl⟩ := whole_labels h hw
  obtain ⟨d, h1, h2⟩ := Zone.read_distance h a b
  rw [h2]
  have hne : (z.clock dt pad kept).values ≠ [] := by
    obtain ⟨T, D, e1, _, e3⟩ := C87_gives h
    rw [(whole_labels h e3).1]; exact e1
  unfold GivesRecording
  by_cases he : samplesBetween (z.spacing.1 / (2 * 10 ^ 10)) a b z.cable.values = []
  · rw [if_pos (Or.inr he), if_pos he]
  · rw [if_neg (by simp [hne, he]), if_neg he]
    exact ⟨_, rfl, rfl, h1, rfl⟩
example : FebusLayout exZone (2 / 1000) 4 2 ∧ GivesRecording (exZone.read none none) (progression 7002000000 2000000 4) [110, 115, 120]
    [[4, 5, 6], [7, 8, 9], [21, 22, 23], [31, 32, 33]] := by
  refine ⟨exZone_layout, ?_⟩
  obtain ⟨c, d, _, h2, _⟩ := C87_whole exZone_layout
  unfold GivesRecording
  rw [if_neg (by decide +kernel)]
  have key : (exZone.read none none).map (Option.map fun w => (w.times.labels, w.distances.labels, w.rows)) =
      .ok (some ((progression 7002000000 2000000 4).map some, [some 110, some 115, some 120],
      [[4, 5, 6], [7, 8, 9], [21, 22, 23], [31, 32, 33]])) := by decide +kernel
  refine ⟨_, h2, ?_⟩
  rw [h2] at key
  simp only [Except.map, Option.map, Except.ok.injEq, Option.some.injEq, Prod.mk.injEq] at key
  exact key
example : (exZone.read none (some (some 112, none))).map (Option.map fun w => (w.times.labels.length, w.distances.labels, w.rows)) =
    .ok (some (4, [some 115, some 120], [[5, 6], [8, 9], [22, 23], [32, 33]])) := by decide +kernel

/-- **C87, partial** Reading with limits of time (whole nanoseconds, the earlier one first): the samples kept are those whose label *plus
one sampling step* lies between the limits, and they come back under labels one step too late. Of the whole property is missing that the
label itself is compared and returned: `C87_time_violated`. -/
theorem C87_time_partial (h : FebusLayout z dt pad kept) (hdt : dt ≤ 10) {T D : List ℚ} {R : List (List α)}
    (hw : GivesRecording (z.read none none) T D R) {a b : Option ℚ} (ha : ∀ v, a = some v → ∃ k : ℤ, v = k)
    (hb : ∀ v, b = some v → ∃ k : ℤ, v = k) (hab : ∀ v w, a = some v → b = some w → v ≤ w) :
    ∃ s, Nearest (dt * 1000000000) s ∧
      GivesRecording (z.read (some (a, b)) none) (samplesBetween 0 a b (T.map (· + s))) D (pickedBy 0 a b (T.map (· + s)) R) := by
  obtain ⟨rfl, rfl, rfl⟩ := whole_labels h hw
  refine ⟨nanos dt, nanos_nearest _, ?_⟩
  have hstep : nanos dt < 2 * 10 ^ 10 := by
    have := (nanos_nearest dt).2.1
    linarith
  obtain ⟨c, h1, h2⟩ := Zone.read_time h hstep ha hb hab
  have hlate : z.lateLabels dt pad kept = (z.clock dt pad kept).values.map (· + nanos dt) := by
    rw [(Zone.clock_valid h).values_eq]
    unfold progression Zone.lateLabels
    rw [List.map_map]
    apply List.map_congr_left
    intro i _
    have e : (z.clock dt pad kept).step = nanos dt := rfl
    simp only [Function.comp, e]
    ring
  rw [hlate] at h1 h2
  rw [h2]
  have hne : z.cable.values ≠ [] := by
    obtain ⟨T, D, _, e2, e3⟩ := C87_gives h
    rw [(whole_labels h e3).2.1]; exact e2
  unfold GivesRecording
  by_cases he : samplesBetween 0 a b ((z.clock dt pad kept).values.map (· + nanos dt)) = []
  · rw [if_pos (Or.inl he), if_pos he]
  · rw [if_neg (by simp [hne, he]), if_neg he]
    exact ⟨_, rfl, h1, rfl, rfl⟩
example : FebusLayout exZone (2 / 1000) 4 2 ∧ (2 / 1000 : ℚ) ≤ 10 ∧ (∃ T D, GivesRecording (exZone.read none none) T D (zoneRows exZone 4 2)) ∧
    (∀ v : ℚ, (some 7004000000 : Option ℚ) = some v → ∃ k : ℤ, v = k) := by
  refine ⟨exZone_layout, by norm_num, ?_, ?_⟩
  · obtain ⟨T, D, _, _, e⟩ := C87_gives exZone_layout
    exact ⟨T, D, e⟩
  · intro v hv
    cases hv
    exact ⟨7004000000, by norm_num⟩

/-- **C87 fails with limits of time.** Asked for everything from the time of the second sample on, the reader gives the first sample
as well, labelled as the second; and asked for everything up to the time of the last sample it leaves the last one out. -/
theorem C87_time_violated :
    (exZone.read (some (some 7004000000, none)) none).map (Option.map fun w => (w.times.labels, w.rows)) =
      .ok (some ([some 7004000000, some 7006000000, some 7008000000, some 7010000000], [[4, 5, 6], [7, 8, 9], [21, 22, 23], [31, 32, 33]])) ∧
    (exZone.read (some (none, some 7008000000)) none).map (Option.map fun w => (w.times.labels, w.rows)) =
      .ok (some ([some 7004000000, some 7006000000, some 7008000000], [[4, 5, 6], [7, 8, 9], [21, 22, 23]])) := by
  constructor <;> decide +kernel

/-- **C87** Limits of time and of distance cannot be used together: unless the limits of distance keep all channels, no patch is
returned, whatever the limits of time. -/
theorem C87_both_refused (h : FebusLayout z dt pad kept) {T D : List ℚ} {R : List (List α)} (hw : GivesRecording (z.read none none) T D R)
    (lims : Option ℚ × Option ℚ) (a b : Option ℚ) (hsome : samplesBetween (z.spacing.1 / (2 * 10 ^ 10)) a b D ≠ D) (w : Recording α) :
    z.read (some lims) (some (a, b)) ≠ .ok (some w) := by
  obtain ⟨rfl, rfl, rfl⟩ := whole_labels h hw
  apply Zone.both_refused h
  intro hl
  apply hsome
  unfold samplesBetween at hl ⊢
  apply List.Sublist.eq_of_length List.filter_sublist
  rw [hl, (Zone.cable_valid h).length_values]
  rfl
example : FebusLayout exZone (2 / 1000) 4 2 ∧ samplesBetween (exZone.spacing.1 / (2 * 10 ^ 10)) (some 112) none [110, 115, 120] ≠ [110, 115, 120] :=
  ⟨exZone_layout, by decide +kernel⟩

/-- **C87 fails with limits of both**: between them lie rows and channels, but reading ends in an error. -/
theorem C87_both_violated :
    ((exZone.read (some (some 7000000000, none)) (some (some 112, none))).map (Option.map (·.rows)) = .error .valueError) ∧
    samplesBetween 0 (some 7000000000) none (progression 7002000000 2000000 4) = progression 7002000000 2000000 4 ∧
    samplesBetween 0 (some 112) none [110, 115, 120] = [115, 120] := by
  refine ⟨?_, ?_, ?_⟩ <;> decide +kernel

/-- **C87** The zones of a file are read one after another: without limits each gives one patch. -/
theorem C87_zones (zones : List (Zone α)) (dts : Zone α → ℚ) (pads kepts : Zone α → ℕ) (h : ∀ z ∈ zones, FebusLayout z (dts z) (pads z) (kepts z)) :
    ∃ out, readFebus zones none none = .ok out ∧ List.Forall₂ (fun z w => z.read none none = .ok (some w)) zones out := by
  unfold readFebus
  induction zones with
  | nil => exact ⟨[], rfl, .nil⟩
  | cons z zs ih =>
    obtain ⟨out, h1, h2⟩ := ih fun x hx => h x (by simp [hx])
    have hz := Zone.read_whole (h z (by simp))
    obtain ⟨l, e1, e2⟩ := bind_split h1
    cases e2
    refine ⟨_ :: l.filterMap id, ?_, .cons hz h2⟩
    rw [List.mapM_cons, hz, e1]
    rfl
example : ∀ z ∈ [exZone, exZone], FebusLayout z (2 / 1000) 4 2 := by
  intro z hz
  have : z = exZone := by simpa using hz
  rw [this]; exact exZone_layout

end Verif
