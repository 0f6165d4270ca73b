import Verif.Proof.Tdms
/-!
# C88: reading TDMS files

The whole statement: every sample of the file is returned once, at its time and channel, and limits keep exactly the samples between
them. It holds for interleaved files and for files of at most one full chunk and a rest (`C88_read_partial`). With two or more full
chunks the samples of different chunks are mixed (`C88_mixed`, `C88_chunks_violated`); a file of full chunks only cannot be read
(`C88_full_refused`, `C88_full_violated`), nor one of several segments (`C88_segments_refused`, `C88_segments_violated`).
-/
namespace Verif
open Spec

variable {α : Type} {f : TdmsFile α} {s : RawSegment α} {len : ℕ}

/-- The values 0, 1, 2, ... -/
def exRaw (n : ℕ) : RawSegment ℕ := ⟨n, id⟩

/-- A file with two channels, half a metre apart, sampled at 1 kHz, in chunks of three samples. -/
def exTdms (interleaved : Bool) (segments : List (RawSegment ℕ)) : TdmsFile ℕ where
  segments := segments
  nch := 2
  chunk := 3
  interleaved := interleaved
  itemsize := 2
  otherBytes := 0
  frequency := 1000
  stamp := 5000000000
  multiplier := 1 / 2
  measured := 2
  startPos := 10
  resolution := 1

theorem exTdms_layout (i : Bool) (len : ℕ) (h : 1 ≤ len) : TdmsLayout (exTdms i [exRaw (len * 2)]) (exRaw (len * 2)) len where
  one := rfl
  size := rfl
  channels := by simp [exTdms]
  chunks := by simp [exTdms]
  item := by simp [exTdms]
  no_more := rfl
  some_samples := h
  forward := by norm_num [exTdms]
  slow := by norm_num [exTdms]
  outwards := by norm_num [exTdms]
  cable := by norm_num [exTdms]

theorem segmentSamples_length : (segmentSamples f s len).length = len := by simp [segmentSamples]
theorem segmentSamples_width : ∀ r ∈ segmentSamples f s len, r.length = f.nch := by
  intro r hr
  obtain ⟨i, _, rfl⟩ := List.mem_map.1 hr
  simp

theorem tdms_rows_of (h : TdmsLayout f s len) (hs : f.interleaved = true ∨ (len < 2 * f.chunk ∧ len ≠ f.chunk)) :
    f.segmentData s = .ok (segmentSamples f s len) := by
  unfold TdmsFile.segmentData
  have h1 := h.channels
  have h2 := h.chunks
  rw [if_neg (by omega)]
  cases hi : f.interleaved with
  | true =>
    rw [TdmsFile.fullChunks_inter hi, TdmsFile.segLength_eq h, if_neg (by have := h.some_samples; omega), TdmsFile.interleavedRows_eq h hi]
  | false =>
    have hs' : len < 2 * f.chunk ∧ len ≠ f.chunk := by simpa [hi] using hs
    rw [TdmsFile.fullChunks_eq h hi, TdmsFile.segLength_eq h, if_neg, TdmsFile.rows_eq h hi, TdmsFile.readOrder_straight hs'.1]
    · unfold segmentSamples TdmsFile.rowAt
      rw [hi]
      rfl
    · intro he
      have hd : len / f.chunk < 2 := Nat.div_lt_of_lt_mul (by omega)
      have := h.some_samples
      generalize len / f.chunk = q at he hd
      have hq : q = 0 ∨ q = 1 := by omega
      rcases hq with hq | hq <;> rw [hq] at he <;> omega

/-- **C88, partial** An interleaved file, or one in chunks with at most one full chunk (and not just that): all samples are read from
their places, in order, under labels which start at the time stamp and advance by the sampling interval (rounded to nanoseconds), and at
the start position and advance by the resolution; and reading with any limits of time and distance gives the samples between the limits,
with their labels. Missing are files in more than one full chunk, of full chunks only, and of several segments. -/
theorem C88_read_partial (h : TdmsLayout f s len) (hs : f.interleaved = true ∨ (len < 2 * f.chunk ∧ len ≠ f.chunk)) :
    ∃ step, Nearest (1 / f.frequency * 1000000000) step ∧
      GivesRecording (f.read none none) (progression f.stamp step len) (progression f.startPos (f.resolution * f.multiplier) f.nch)
        (segmentSamples f s len) ∧
      ∀ time distance : Option ℚ × Option ℚ, ∀ t d, (t = some time ∨ t = none ∧ time = (none, none)) →
        (d = some distance ∨ d = none ∧ distance = (none, none)) →
        GivesRecording (f.read t d)
          (samplesBetween (step / (2 * 10 ^ 10)) time.1 time.2 (progression f.stamp step len))
          (samplesBetween (f.resolution * f.multiplier / (2 * 10 ^ 10)) distance.1 distance.2 (progression f.startPos (f.resolution * f.multiplier) f.nch))
          ((pickedBy (step / (2 * 10 ^ 10)) time.1 time.2 (progression f.stamp step len) (segmentSamples f s len)).map
            (pickedBy (f.resolution * f.multiplier / (2 * 10 ^ 10)) distance.1 distance.2
              (progression f.startPos (f.resolution * f.multiplier) f.nch))) := by
  have key := TdmsFile.read_spec h (tdms_rows_of h hs) segmentSamples_length segmentSamples_width
  have e1 : (f.clock len).values = progression f.stamp (nanos (1 / f.frequency)) len := (TdmsFile.clock_valid h).values_eq
  have e2 : f.cable.values = progression f.startPos (f.resolution * f.multiplier) f.nch := (TdmsFile.cable_valid h).values_eq
  rw [e1, e2] at key
  refine ⟨nanos (1 / f.frequency), nanos_nearest _, ?_, ?_⟩
  · have := key none none
    simp only [Option.getD_none] at this
    rw [samplesBetween_free, samplesBetween_free, pickedBy_free _ _ _ (by simp [progression, segmentSamples])] at this
    have hrows : (segmentSamples f s len).map (pickedBy (f.resolution * f.multiplier / (2 * 10 ^ 10)) none none (progression f.startPos (f.resolution * f.multiplier) f.nch)) = segmentSamples f s len := by
      conv_rhs => rw [← List.map_id (segmentSamples f s len)]
      apply List.map_congr_left
      intro r hr
      rw [pickedBy_free _ _ _ (by rw [segmentSamples_width r hr]; simp [progression])]; rfl
    rw [hrows] at this
    exact this
  · rintro time distance t d ht hd
    have h1 : t.getD (none, none) = time := by rcases ht with rfl | ⟨rfl, rfl⟩ <;> rfl
    have h2 : d.getD (none, none) = distance := by rcases hd with rfl | ⟨rfl, rfl⟩ <;> rfl
    have := key t d
    rw [h1, h2] at this
    exact this
example : TdmsLayout (exTdms false [exRaw 10]) (exRaw 10) 5 ∧ (5 < 2 * (exTdms false [exRaw 10]).chunk ∧ 5 ≠ (exTdms false [exRaw 10]).chunk) :=
  ⟨exTdms_layout false 5 (by norm_num), by decide⟩
example : TdmsLayout (exTdms true [exRaw 14]) (exRaw 14) 7 ∧ (exTdms true [exRaw 14]).interleaved = true := ⟨exTdms_layout true 7 (by norm_num), rfl⟩
example : ((exTdms false [exRaw 10]).read (some (some 5001000000, none)) none).map (Option.map fun w => (w.times.labels, w.distances.labels, w.rows)) =
    .ok (some ([some 5001000000, some 5002000000, some 5003000000, some 5004000000], [some 10, some (21 / 2)], [[1, 4], [2, 5], [6, 8], [7, 9]])) := by
  decide +kernel

/-- **C88** What is read from a file in chunks that does not end with a full chunk: row `j` of the `m` full chunks of `size` samples
holds the sample `j / m` of chunk `j % m`; the samples of the rest are in order. -/
theorem C88_order (h : TdmsLayout f s len) (hi : f.interleaved = false) (hd : len % f.chunk ≠ 0) :
    ∃ step, Nearest (1 / f.frequency * 1000000000) step ∧
      GivesRecording (f.read none none) (progression f.stamp step len) (progression f.startPos (f.resolution * f.multiplier) f.nch) ((List.range len).map fun j => (List.range f.nch).map fun c =>
      s.elem (chunkedPlace f.nch f.chunk len
        (if j < len / f.chunk * f.chunk then j % (len / f.chunk) * f.chunk + j / (len / f.chunk) else j) c)) := by
  have hR : f.segmentData s = .ok ((TdmsFile.readOrder f.chunk len).map (TdmsFile.rowAt f s len)) := by
    unfold TdmsFile.segmentData
    have h1 := h.channels
    have h2 := h.chunks
    rw [if_neg (by omega), TdmsFile.fullChunks_eq h hi, TdmsFile.segLength_eq h, if_neg, TdmsFile.rows_eq h hi]
    intro he
    apply hd
    rw [← he, Nat.mul_mod_left]
  have hw : ∀ r ∈ (TdmsFile.readOrder f.chunk len).map (TdmsFile.rowAt f s len), r.length = f.nch := by
    intro r hr
    obtain ⟨i, _, rfl⟩ := List.mem_map.1 hr
    simp [TdmsFile.rowAt]
  have key := TdmsFile.read_spec h hR (by rw [List.length_map, TdmsFile.readOrder_length]) hw none none
  simp only [Option.getD_none] at key
  rw [samplesBetween_free, samplesBetween_free, pickedBy_free _ _ _ (by
    rw [(TdmsFile.clock_valid h).length_values, List.length_map, TdmsFile.readOrder_length]; rfl)] at key
  have e1 : (f.clock len).values = progression f.stamp (nanos (1 / f.frequency)) len := (TdmsFile.clock_valid h).values_eq
  have e2 : f.cable.values = progression f.startPos (f.resolution * f.multiplier) f.nch := (TdmsFile.cable_valid h).values_eq
  refine ⟨nanos (1 / f.frequency), nanos_nearest _, ?_⟩
  · rw [← e1, ← e2]
    convert key using 1
    have hrows : ∀ R : List (List α), (∀ r ∈ R, r.length = f.nch) →
        R.map (pickedBy (f.resolution * f.multiplier / (2 * 10 ^ 10)) none none f.cable.values) = R := by
      intro R hR
      conv_rhs => rw [← List.map_id R]
      apply List.map_congr_left
      intro r hr
      rw [pickedBy_free _ _ _ (by rw [hR r hr, (TdmsFile.cable_valid h).length_values]; rfl)]; rfl
    rw [hrows _ hw]
    have hlen : (TdmsFile.readOrder f.chunk len) = (List.range len).map fun j =>
        if j < len / f.chunk * f.chunk then j % (len / f.chunk) * f.chunk + j / (len / f.chunk) else j := by
      have hsum : len = len / f.chunk * f.chunk + len % f.chunk := by
        have := Nat.div_add_mod len f.chunk
        rw [Nat.mul_comm] at this
        exact this.symm
      unfold TdmsFile.readOrder
      set q := len / f.chunk with hq
      have : List.range len = List.range (q * f.chunk) ++ (List.range (len % f.chunk)).map (q * f.chunk + ·) := by
        conv_lhs => rw [hsum]
        rw [List.range_add]
      rw [this, List.map_append, List.map_map]
      congr 1
      · apply List.map_congr_left
        intro j hj
        rw [if_pos (by simpa using hj)]
        rfl
      · apply List.map_congr_left
        intro j hj
        simp only [Function.comp]
        rw [if_neg (by omega)]
    rw [hlen, List.map_map]
    rfl
example : TdmsLayout (exTdms false [exRaw 14]) (exRaw 14) 7 ∧ (exTdms false [exRaw 14]).interleaved = false ∧ 7 % (exTdms false [exRaw 14]).chunk ≠ 0 :=
  ⟨exTdms_layout false 7 (by norm_num), rfl, by decide⟩

/-- **C88 fails whenever there are two full chunks or more** (of two samples or more): the second row read is the first sample of the
second chunk, not the second sample. -/
theorem C88_mixed (h : TdmsLayout f s len) (hi : f.interleaved = false) (hd : len % f.chunk ≠ 0) (h2 : 2 ≤ len / f.chunk) (hc : 2 ≤ f.chunk) :
    ∃ w, f.read none none = .ok (some w) ∧ w.rows.length = len ∧
      w.rows[1]? = some ((List.range f.nch).map fun c => s.elem (chunkedPlace f.nch f.chunk len f.chunk c)) := by
  obtain ⟨step, _, hg⟩ := C88_order h hi hd
  unfold GivesRecording at hg
  rw [if_neg (by
    have := h.some_samples
    have := h.channels
    rintro (e | e) <;> · have := congrArg List.length e; simp [progression] at this; omega)] at hg
  obtain ⟨w, e1, _, _, e2⟩ := hg
  refine ⟨w, e1, by rw [e2]; simp, ?_⟩
  have h4 : 2 * 2 ≤ len / f.chunk * f.chunk := Nat.mul_le_mul h2 hc
  have h5 : len / f.chunk * f.chunk ≤ len := Nat.div_mul_le_self _ _
  rw [e2, List.getElem?_map, List.getElem?_range (by omega)]
  simp only [Option.map_some]
  rw [if_pos (by omega), Nat.mod_eq_of_lt (by omega), Nat.div_eq_of_lt (by omega)]
  simp
example : TdmsLayout (exTdms false [exRaw 14]) (exRaw 14) 7 ∧ 7 % (exTdms false [exRaw 14]).chunk ≠ 0 ∧ 2 ≤ 7 / (exTdms false [exRaw 14]).chunk :=
  ⟨exTdms_layout false 7 (by norm_num), by decide, by decide⟩

/-- **C88 fails for files of several full chunks**: the samples are mixed. -/
theorem C88_chunks_violated :
    ((exTdms false [exRaw 14]).read none none).map (Option.map (·.rows)) =
      .ok (some [[0, 3], [6, 9], [1, 4], [7, 10], [2, 5], [8, 11], [12, 13]]) ∧
    segmentSamples (exTdms false [exRaw 14]) (exRaw 14) 7 = [[0, 3], [1, 4], [2, 5], [6, 9], [7, 10], [8, 11], [12, 13]] := by
  constructor <;> decide +kernel

/-- **C88** A file of full chunks only cannot be read, with or without limits. -/
theorem C88_full_refused (h : TdmsLayout f s len) (hi : f.interleaved = false) (hd : len % f.chunk = 0) (t d : Option (Option ℚ × Option ℚ)) :
    f.read t d = .error .typeError := by
  unfold TdmsFile.read
  rw [TdmsFile.distanceCoord_spec h, (TdmsFile.timeCoord_spec h).1, TdmsFile.data_eq h]
  have : f.segmentData s = .error .typeError := by
    unfold TdmsFile.segmentData
    have h1 := h.channels
    have h2 := h.chunks
    rw [if_neg (by omega), TdmsFile.fullChunks_eq h hi, TdmsFile.segLength_eq h, if_pos]
    exact Nat.div_mul_cancel (Nat.dvd_of_mod_eq_zero hd)
  rw [this]
  rfl
example : TdmsLayout (exTdms false [exRaw 6]) (exRaw 6) 3 ∧ 3 % (exTdms false [exRaw 6]).chunk = 0 := ⟨exTdms_layout false 3 (by norm_num), by decide⟩

/-- **C88 fails for files of full chunks.** -/
theorem C88_full_violated : ((exTdms false [exRaw 6]).read none none).map (Option.map (·.rows)) = .error .typeError ∧
    segmentSamples (exTdms false [exRaw 6]) (exRaw 6) 3 = [[0, 3], [1, 4], [2, 5]] := by
  constructor <;> decide +kernel

/-- **C88** A file of several segments cannot be read (without limits): segments are put beside each other, as if they had further
channels. -/
theorem C88_segments_refused (s1 s2 : RawSegment α) (rest : List (RawSegment α)) (hs : f.segments = s1 :: s2 :: rest) {dc : RangeCoord}
    (hdc : f.distanceCoord = .ok dc) (hlen : dc.len = f.nch) (hch : 1 ≤ f.nch) (w : Recording α) : f.read none none ≠ .ok (some w) := by
  intro hr
  unfold TdmsFile.read at hr
  rw [hdc] at hr
  obtain ⟨x1, e1, hr⟩ := bind_split hr
  cases e1
  obtain ⟨tc, e2, hr⟩ := bind_split hr
  obtain ⟨d, e3, hr⟩ := bind_split hr
  have hw : d.width = f.nch * (2 + rest.length) := by
    unfold TdmsFile.data at e3
    rw [hs] at e3
    obtain ⟨r1, _, e4⟩ := bind_split e3
    obtain ⟨r2, _, e5⟩ := bind_split e4
    cases e5
    simp only [List.length_cons]
    ring
  unfold readPart at hr
  rw [if_neg (by simp)] at hr
  obtain ⟨⟨t, x, d'⟩, e6, hr⟩ := bind_split hr
  cases e6
  simp only at hr
  split_ifs at hr with hz
  · cases hr
  · obtain ⟨r, e7, _⟩ := bind_split hr
    unfold Recording.new at e7
    split_ifs at e7 with hsh
    have := hsh.2
    simp only [Coord.length] at this
    rw [hlen, hw] at this
    nlinarith
example : ((exTdms true [exRaw 4, exRaw 4]).distanceCoord = .ok ⟨10, 11, 1 / 2, 2⟩) ∧ (exTdms true [exRaw 4, exRaw 4]).nch = 2 := by
  constructor <;> decide +kernel

/-- **C88 fails for files of several segments.** -/
theorem C88_segments_violated : ((exTdms true [exRaw 4, exRaw 4]).read none none).map (Option.map (·.rows)) = .error .coordError ∧
    ((exTdms true [exRaw 4, exRaw 6]).read none none).map (Option.map (·.rows)) = .error .valueError := by
  constructor <;> decide +kernel

end Verif
