import Verif.Proof.Terra15
import Verif.Props.CoordArray
import Verif.Proof.SelectValid
/-! # C90: reading Terra15 files -/
namespace Verif
open Spec

variable {α : Type} {f : TerraFile α} {ts : List ℚ}

/-- Three rows of two channels, recorded every two milliseconds (the clock is not quite regular), and an unfilled row. -/
def exTerra : TerraFile ℕ where
  times := [1, 1 + 21 / 10000, 1 + 4 / 1000, 0]
  data := ⟨2, [[1, 2], [3, 4], [5, 6], [0, 0]]⟩
  rangeStart := 10
  dx := 1 / 4
  nx := 2

theorem exTerra_layout : TerraLayout exTerra [1, 1 + 21 / 10000, 1 + 4 / 1000] where
  times := ⟨1, rfl⟩
  later := by decide +kernel
  two := by decide
  forward := by decide +kernel
  rows := rfl
  width := rfl
  channels := by decide
  some_channels := by decide
  apart := by decide +kernel

/-- **C90** A file is read row after row, without the unfilled rows at its end: labels of time start with the first time of the file and
advance by the average interval (both rounded to nanoseconds), one label for every filled row; labels of distance start at the start
of the range and advance by the spacing. -/
theorem C90_read (h : TerraLayout f ts) :
    ∃ start step, Nearest (ts.headD 0 * 1000000000) start ∧ Nearest (averageInterval ts) step ∧
      GivesRecording (f.read none none true) (progression start step ts.length) (progression f.rangeStart f.dx f.nx) (f.data.rows.take ts.length) := by
  refine ⟨_, _, nanos_nearest _, nanos_nearest _, ?_⟩
  have key := TerraFile.read_spec h none none
  have hle : ts.length ≤ f.data.rows.length := by
    obtain ⟨k, hk⟩ := h.times
    rw [h.rows, hk]; simp
  simp only [Option.getD_none] at key
  rw [samplesBetween_free, samplesBetween_free, pickedBy_free _ _ _ (by
    rw [(TerraFile.clock_valid h).length_values, List.length_take, Nat.min_eq_left hle]; rfl)] at key
  rw [(TerraFile.clock_valid h).values_eq, (TerraFile.cable_valid h).values_eq] at key
  have hrows : (f.data.rows.take ts.length).map (pickedBy (|f.cable.step| / (2 * 10 ^ 10)) none none (progression f.cable.start f.cable.step f.cable.len)) =
      f.data.rows.take ts.length := by
    conv_rhs => rw [← List.map_id (f.data.rows.take ts.length)]
    apply List.map_congr_left
    intro r hr
    rw [pickedBy_free _ _ _ (by rw [h.channels r (List.mem_of_mem_take hr)]; simp [progression, TerraFile.cable])]; rfl
  rw [hrows] at key
  exact key
example : TerraLayout exTerra [1, 1 + 21 / 10000, 1 + 4 / 1000] := exTerra_layout
example : (exTerra.read none none true).map (Option.map fun w => (w.times.labels, w.distances.labels, w.rows)) =
    .ok (some ([some 1000000000, some 1002000000, some 1004000000], [some 10, some (41 / 4)], [[1, 2], [3, 4], [5, 6]])) := by
  decide +kernel

/-- **C90** Reading with limits of time and distance, or of one of them, keeps exactly the filled rows and the channels between the
limits (with the tolerance of selections), with their labels; nothing is read if there are none. -/
theorem C90_limits (h : TerraLayout f ts) :
    ∃ start step, Nearest (ts.headD 0 * 1000000000) start ∧ Nearest (averageInterval ts) step ∧
      ∀ time distance : Option ℚ × Option ℚ, ∀ t d, (t = some time ∨ t = none ∧ time = (none, none)) →
        (d = some distance ∨ d = none ∧ distance = (none, none)) →
        GivesRecording (f.read t d true)
          (samplesBetween (step / (2 * 10 ^ 10)) time.1 time.2 (progression start step ts.length))
          (samplesBetween (f.dx / (2 * 10 ^ 10)) distance.1 distance.2 (progression f.rangeStart f.dx f.nx))
          ((pickedBy (step / (2 * 10 ^ 10)) time.1 time.2 (progression start step ts.length) (f.data.rows.take ts.length)).map
            (pickedBy (f.dx / (2 * 10 ^ 10)) distance.1 distance.2 (progression f.rangeStart f.dx f.nx))) := by
  refine ⟨_, _, nanos_nearest _, nanos_nearest _, ?_⟩
  rintro time distance t d ht hd
  have key := TerraFile.read_spec h t d
  have h1 : t.getD (none, none) = time := by rcases ht with rfl | ⟨rfl, rfl⟩ <;> rfl
  have h2 : d.getD (none, none) = distance := by rcases hd with rfl | ⟨rfl, rfl⟩ <;> rfl
  have habs1 : |(TerraFile.clock ts).step| = nanos ((ts.getLastD 0 - ts.headD 0) / ((ts.length : ℚ) - 1)) := abs_of_pos (TerraFile.step_pos h)
  have habs2 : |f.cable.step| = f.dx := abs_of_pos h.apart
  rw [h1, h2, habs1, habs2, (TerraFile.clock_valid h).values_eq, (TerraFile.cable_valid h).values_eq] at key
  exact key
example : TerraLayout exTerra [1, 1 + 21 / 10000, 1 + 4 / 1000] := exTerra_layout
example : (exTerra.read (some (some 1002000000, none)) (some (none, some 10)) true).map (Option.map fun w => (w.times.labels, w.distances.labels, w.rows)) =
    .ok (some ([some 1002000000, some 1004000000], [some 10], [[3], [5]])) := by
  decide +kernel

/-- **C90** The label of a row is near the time written beside it: as near as the clock is regular, and half a nanosecond for the start
and every interval. -/
theorem C90_labels (h : TerraLayout f ts) {e : ℚ} (hreg : ∀ i : ℕ, i < ts.length → |ts.getD i 0 * 1000000000 - (ts.headD 0 * 1000000000 + i * averageInterval ts)| ≤ e) :
    ∃ w, f.read none none true = .ok (some w) ∧ w.rows = f.data.rows.take ts.length ∧
      ∀ i : ℕ, i < ts.length → ∃ label, w.times.labels[i]? = some (some label) ∧ |label - ts.getD i 0 * 1000000000| ≤ e + (i + 1) / 2 := by
  obtain ⟨start, step, h1, h2, h3⟩ := C90_read h
  unfold GivesRecording at h3
  rw [if_neg (by
    have := h.two
    have := h.some_channels
    simp only [progression, List.map_eq_nil_iff, List.range_eq_nil]
    omega)] at h3
  obtain ⟨w, w1, w2, _, w4⟩ := h3
  refine ⟨w, w1, w4, fun i hi => ⟨start + i * step, ?_, ?_⟩⟩
  · rw [w2]
    simp [progression, hi]
  · have hr := abs_le.1 (hreg i hi)
    have hi0 : (0 : ℚ) ≤ i := by positivity
    obtain ⟨_, a1, a2⟩ := h1
    obtain ⟨_, b1, b2⟩ := h2
    have c1 := mul_le_mul_of_nonneg_left b1 hi0
    have c2 := mul_le_mul_of_nonneg_left b2 hi0
    rw [abs_le]
    constructor <;> linarith [hr.1, hr.2]
example : TerraLayout exTerra [1, 1 + 21 / 10000, 1 + 4 / 1000] ∧ ∀ i : ℕ, i < ([1, 1 + 21 / 10000, 1 + 4 / 1000] : List ℚ).length →
    |([1, 1 + 21 / 10000, 1 + 4 / 1000] : List ℚ).getD i 0 * 1000000000 - (([1, 1 + 21 / 10000, 1 + 4 / 1000] : List ℚ).headD 0 * 1000000000 +
      i * averageInterval [1, 1 + 21 / 10000, 1 + 4 / 1000])| ≤ 100000 :=
  ⟨exTerra_layout, by decide +kernel⟩

/-- **C90** A scan tells the coordinates of the patch. -/
theorem C90_scan (h : TerraLayout f ts) :
    ∃ c d w, f.scan = .ok (c, d) ∧ f.read none none true = .ok (some w) ∧ w.times.labels = c.labels ∧ w.distances.labels = (Coord.range d).labels := by
  obtain ⟨start, step, h1, h2, h3⟩ := C90_read h
  have key := TerraFile.read_spec h none none
  simp only [Option.getD_none] at key
  rw [samplesBetween_free, samplesBetween_free] at key
  unfold GivesRecording at key
  have e1 := (TerraFile.clock_valid h).len_pos
  have e2 := (TerraFile.cable_valid h).len_pos
  rw [if_neg (by
    rw [← List.length_eq_zero_iff, ← List.length_eq_zero_iff, (TerraFile.clock_valid h).length_values, (TerraFile.cable_valid h).length_values]
    omega)] at key
  obtain ⟨w, w1, w2, w3, _⟩ := key
  refine ⟨.range (TerraFile.clock ts), f.cable, w, ?_, w1, w2, w3⟩
  unfold TerraFile.scan
  rw [TerraFile.timeCoord_spec h, TerraFile.distanceCoord_spec h]
  rfl
example : TerraLayout exTerra [1, 1 + 21 / 10000, 1 + 4 / 1000] := exTerra_layout

/-- **C90** With `snap_dims=False` a file with unfilled rows cannot be read between limits of time which leave out any of its rows. -/
theorem C90_unsnapped_refused (h : TerraLayout f ts) (hk : ts.length < f.times.length) (a b : Option ℚ) (d : Option (Option ℚ × Option ℚ))
    (hout : ∃ t ∈ f.times, ¬ Between 0 a b (nanos t)) : ∃ e, f.read (some (a, b)) d false = .error e := by
  have hL : ∃ x ∈ f.times.map nanos, ¬ Between 0 a b x := by
    obtain ⟨t, ht, hb⟩ := hout
    exact ⟨_, List.mem_map_of_mem ht, hb⟩
  have hlt : (samplesBetween 0 a b (f.times.map nanos)).length < f.data.rows.length := by
    rw [h.rows, ← List.length_map (as := f.times) nanos]
    unfold samplesBetween
    rw [List.length_filter_lt_length_iff_exists]
    obtain ⟨x, hx, hb⟩ := hL
    exact ⟨x, hx, by simpa using hb⟩
  have hne : samplesBetween 0 a b (f.times.map nanos) ≠ f.times.map nanos := by
    intro he
    rw [he, List.length_map, h.rows] at hlt
    exact lt_irrefl _ hlt
  obtain ⟨h1, _, h3⟩ := ArrCoord.select_spec.{0} .time (f.times.map nanos) a b
  unfold TerraFile.read
  rw [TerraFile.rawCoord_spec h hk, TerraFile.distanceCoord_spec h]
  simp only [bind, Except.bind, Coord.query, Option.getD_some]
  obtain ⟨x, xs, x1, _⟩ := select_parallel (TerraFile.cable_valid h) (d.getD (none, none)).1 (d.getD (none, none)).2
  rw [Prod.mk.eta] at x1
  by_cases hnil : samplesBetween 0 a b (f.times.map nanos) = []
  · rw [h1 hnil]
    simp only
    rw [x1]
    simp only [TerraFile.rowIndex]
    rw [if_pos (by simp only [Coord.length]; omega)]
    exact ⟨_, rfl⟩
  · obtain ⟨ix, _, _, hs⟩ := h3 hnil hne
    rw [hs]
    cases hg : getCoordData .time ((f.times.map nanos).filter fun x => decide (Between 0 a b x)) with
    | error e => exact ⟨e, rfl⟩
    | ok c =>
      have hc := getCoordData_length hg
      simp only [Except.map]
      rw [x1]
      simp only [TerraFile.rowIndex]
      rw [if_pos (by rw [hc]; exact hlt)]
      exact ⟨_, rfl⟩
example : TerraLayout exTerra [1, 1 + 21 / 10000, 1 + 4 / 1000] ∧ 3 < exTerra.times.length ∧
    ∃ t ∈ exTerra.times, ¬ Between 0 (some 1002000000) none (nanos t) :=
  ⟨exTerra_layout, by decide, by decide +kernel⟩

/-- **C90** (violated) With `snap_dims=False` the rows between two times cannot be read, though the times of the file tell which they are. -/
theorem C90_limits_violated : exTerra.read (some (some 1000000000, some 1003000000)) none false = .error .attributeError ∧
    samplesBetween 0 (some 1000000000) (some 1003000000) (exTerra.times.map nanos) = [1000000000, 1002100000] := by
  constructor
  · have : (match exTerra.read (some (some 1000000000, some 1003000000)) none false with
      | .error e => some e
      | .ok _ => none) = some .attributeError := by decide +kernel
    revert this
    cases exTerra.read (some (some 1000000000, some 1003000000)) none false <;> simp
  · decide +kernel

/-- **C90** (violated) With `snap_dims=False` unfilled rows are read as samples of 1970, which a scan of the file does not tell. -/
theorem C90_unfilled_violated :
    (exTerra.read none none false).map (Option.map fun w => (w.times.labels, w.rows)) =
      .ok (some ([some 1000000000, some 1002100000, some 1004000000, some 0], [[1, 2], [3, 4], [5, 6], [0, 0]])) ∧
    exTerra.scan.map (fun p => p.1.labels) = .ok [some 1000000000, some 1002000000, some 1004000000] := by
  constructor <;> decide +kernel

end Verif
