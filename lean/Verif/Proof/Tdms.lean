import Verif.Proof.Reader
import Verif.Proof.Units
import Verif.Spec.Tdms
/-! # Lemmas about TDMS files -/
namespace Verif
open Spec

theorem reshape3_rows {α} (a : ℕ → ℕ → ℕ → α) {d2 d3 : ℕ} (j c : ℕ) (hc : c < d3) :
    reshape3 a d2 d3 d3 j c = a (j / d2) (j % d2) c := by
  unfold reshape3
  have h1 : (j * d3 + c) / d3 = j := by
    rw [Nat.add_comm, Nat.add_mul_div_right _ _ (by omega), Nat.div_eq_of_lt hc, Nat.zero_add]
  have h2 : (j * d3 + c) % d3 = c := by
    rw [Nat.add_comm, Nat.add_mul_mod_self_right, Nat.mod_eq_of_lt hc]
  have h3 : (j * d3 + c) / (d2 * d3) = j / d2 := by
    rw [Nat.mul_comm d2 d3, ← Nat.div_div_eq_div_mul, h1]
  rw [h1, h2, h3]

namespace TdmsFile
variable {α : Type} {f : TdmsFile α} {s : RawSegment α} {len : ℕ}

/-- The sample that row `j` of the full chunks holds. -/
def heldBy (nblk chunk j : ℕ) : ℕ := j % nblk * chunk + j / nblk

theorem segLength_eq (h : TdmsLayout f s len) : f.segLength s = len := by
  unfold segLength
  rw [h.size, Nat.mul_div_cancel _ h.channels]

theorem fullChunks_eq (h : TdmsLayout f s len) (hi : f.interleaved = false) : f.fullChunks s = len / f.chunk := by
  unfold fullChunks
  rw [hi, segLength_eq h]; simp

theorem fullChunks_inter (hi : f.interleaved = true) : f.fullChunks s = 0 := by
  unfold fullChunks
  simp [hi]

/-- The row of a sample in a file stored in chunks. -/
def rowAt (f : TdmsFile α) (s : RawSegment α) (len i : ℕ) : List α :=
  (List.range f.nch).map fun c => s.elem (chunkedPlace f.nch f.chunk len i c)

theorem heldBy_div {nblk chunk j : ℕ} (hj : j < nblk * chunk) : heldBy nblk chunk j / chunk = j % nblk ∧ heldBy nblk chunk j % chunk = j / nblk := by
  have hc : 0 < chunk := by
    rcases Nat.eq_zero_or_pos chunk with h | h
    · subst h; simp at hj
    · exact h
  have hlt : j / nblk < chunk := Nat.div_lt_of_lt_mul hj
  unfold heldBy
  constructor
  · rw [Nat.add_comm, Nat.add_mul_div_right _ _ hc, Nat.div_eq_of_lt hlt, Nat.zero_add]
  · rw [Nat.add_comm, Nat.add_mul_mod_self_right, Nat.mod_eq_of_lt hlt]

theorem chunkRows_eq (h : TdmsLayout f s len) (hi : f.interleaved = false) :
    f.chunkRows s = (List.range (len / f.chunk * f.chunk)).map fun j => rowAt f s len (heldBy (len / f.chunk) f.chunk j) := by
  unfold chunkRows
  rw [fullChunks_eq h hi]
  apply List.map_congr_left
  intro j hj
  have hj' : j < len / f.chunk * f.chunk := by simpa using hj
  unfold rowAt
  apply List.map_congr_left
  intro c hc
  have hc' : c < f.nch := by simpa using hc
  rw [reshape3_rows _ _ _ hc']
  obtain ⟨e1, e2⟩ := heldBy_div hj'
  change s.elem _ = s.elem _
  congr 1
  unfold chunkedPlace
  rw [e1, e2]
  have hn : 0 < len / f.chunk := by
    rcases Nat.eq_zero_or_pos (len / f.chunk) with hz | hz
    · rw [hz] at hj'; simp at hj'
    · exact hz
  have hk : j % (len / f.chunk) < len / f.chunk := Nat.mod_lt _ hn
  have hle : j % (len / f.chunk) * f.chunk + f.chunk ≤ len := by
    calc _ = (j % (len / f.chunk) + 1) * f.chunk := by ring
      _ ≤ len / f.chunk * f.chunk := Nat.mul_le_mul_right _ hk
      _ ≤ len := Nat.div_mul_le_self _ _
  rw [min_eq_left (by omega)]
  ring

theorem lastRows_eq (h : TdmsLayout f s len) (hi : f.interleaved = false) :
    f.lastRows s = (List.range (len % f.chunk)).map fun i => rowAt f s len (len / f.chunk * f.chunk + i) := by
  unfold lastRows
  rw [fullChunks_eq h hi, segLength_eq h]
  have hm : len - len / f.chunk * f.chunk = len % f.chunk := by
    have := Nat.div_add_mod len f.chunk
    rw [Nat.mul_comm] at this
    omega
  simp only [hm]
  apply List.map_congr_left
  intro i hi'
  have hil : i < len % f.chunk := by simpa using hi'
  have hlt : i < f.chunk := hil.trans (Nat.mod_lt _ h.chunks)
  unfold rowAt
  apply List.map_congr_left
  intro c hc
  rw [hi]
  congr 1
  unfold chunkedPlace
  have e1 : (len / f.chunk * f.chunk + i) / f.chunk = len / f.chunk := by
    rw [Nat.add_comm, Nat.add_mul_div_right _ _ h.chunks, Nat.div_eq_of_lt hlt, Nat.zero_add]
  have e2 : (len / f.chunk * f.chunk + i) % f.chunk = i := by
    rw [Nat.add_comm, Nat.add_mul_mod_self_right, Nat.mod_eq_of_lt hlt]
  rw [e1, e2, hm, min_eq_right (Nat.mod_lt _ h.chunks).le]
  simp
  ring

theorem interleavedRows_eq (h : TdmsLayout f s len) (hi : f.interleaved = true) : f.chunkRows s ++ f.lastRows s = segmentSamples f s len := by
  unfold chunkRows lastRows segmentSamples
  rw [fullChunks_inter hi, segLength_eq h, hi]
  simp [interleavedPlace, Nat.add_comm]

/-- The order of the samples in the array read from a file stored in chunks. -/
def readOrder (chunk len : ℕ) : List ℕ :=
  (List.range (len / chunk * chunk)).map (heldBy (len / chunk) chunk) ++ (List.range (len % chunk)).map (len / chunk * chunk + ·)

theorem rows_eq (h : TdmsLayout f s len) (hi : f.interleaved = false) :
    f.chunkRows s ++ f.lastRows s = (readOrder f.chunk len).map (rowAt f s len) := by
  rw [chunkRows_eq h hi, lastRows_eq h hi]
  unfold readOrder
  rw [List.map_append, List.map_map, List.map_map]
  rfl

theorem readOrder_length (chunk len : ℕ) : (readOrder chunk len).length = len := by
  unfold readOrder
  have := Nat.div_add_mod len chunk
  rw [Nat.mul_comm] at this
  simpa using this

theorem readOrder_straight {chunk len : ℕ} (h : len < 2 * chunk) : readOrder chunk len = List.range len := by
  unfold readOrder
  have hd : len / chunk < 2 := Nat.div_lt_of_lt_mul (by omega)
  have := Nat.div_add_mod len chunk
  rcases Nat.lt_or_ge (len / chunk) 1 with h0 | h1
  · have e : len / chunk = 0 := Nat.lt_one_iff.1 h0
    rw [e]
    rw [e] at this
    simp at this
    simp [this]
  · have e : len / chunk = 1 := le_antisymm (Nat.lt_succ_iff.1 hd) h1
    rw [e]
    rw [e] at this
    have hl : len = chunk + len % chunk := by omega
    have e1 : (List.range (1 * chunk)).map (heldBy 1 chunk) = List.range chunk := by
      rw [Nat.one_mul]
      conv_rhs => rw [← List.map_id (List.range chunk)]
      apply List.map_congr_left
      intro j _
      unfold heldBy
      rw [Nat.mod_one, Nat.zero_mul, Nat.div_one, Nat.zero_add]; rfl
    rw [e1]
    conv_rhs => rw [hl, List.range_add]
    simp

theorem timeCoord_spec (h : TdmsLayout f s len) :
    f.timeCoord = .ok ⟨f.stamp, f.stamp + nanos (1 / f.frequency) * len, nanos (1 / f.frequency), len⟩ ∧ 0 < nanos (1 / f.frequency) := by
  have hf := h.forward
  have hpos : 0 < nanos (1 / f.frequency) := by
    have h1 := (nanos_nearest (1 / f.frequency)).2.2
    have h2 : (1 : ℚ) ≤ 1 / f.frequency * 1000000000 := by
      rw [div_mul_eq_mul_div, one_mul, le_div_iff₀ hf]
      linarith [h.slow]
    linarith
  refine ⟨?_, hpos⟩
  unfold timeCoord
  rw [if_neg hf.ne']
  have hn : (f.nch : ℚ) ≠ 0 := by have := h.channels; positivity
  have hit : (f.itemsize : ℚ) ≠ 0 := by have := h.item; positivity
  have hcount : f.sampleCount = len := by
    unfold sampleCount
    rw [h.one, h.no_more]
    simp only [List.map_cons, List.map_nil, List.sum_cons, List.sum_nil, h.size]
    push_cast
    field_simp
    ring
  have htr : (truncZ (nanos (1 / f.frequency) * (f.sampleCount - 1)) : ℚ) = nanos (1 / f.frequency) * (len - 1) := by
    rw [hcount]
    obtain ⟨⟨k, hk⟩, _⟩ := nanos_nearest (1 / f.frequency)
    rw [hk]
    have : ((k : ℚ) * (len - 1)) = ((k * (len - 1) : ℤ) : ℚ) := by push_cast; ring
    rw [this]
    unfold truncZ
    split_ifs
    · rw [Int.floor_intCast]
    · rw [Int.ceil_intCast]
  simp only
  rw [htr]
  have : f.stamp + nanos (1 / f.frequency) * ((len : ℚ) - 1) + nanos (1 / f.frequency) = f.stamp + nanos (1 / f.frequency) * len := by ring
  rw [this]
  exact mkRange_canonical hpos.ne' h.some_samples

theorem distanceCoord_spec (h : TdmsLayout f s len) :
    f.distanceCoord = .ok ⟨f.startPos, f.startPos + f.resolution * f.multiplier * f.nch, f.resolution * f.multiplier, f.nch⟩ := by
  unfold distanceCoord
  have : f.startPos + f.measured * f.multiplier = f.startPos + f.resolution * f.multiplier * f.nch := by rw [h.cable]; ring
  rw [this]
  exact mkRange_canonical h.outwards.ne' h.channels

/-- The coordinates. -/
def clock (f : TdmsFile α) (len : ℕ) : RangeCoord := ⟨f.stamp, f.stamp + nanos (1 / f.frequency) * len, nanos (1 / f.frequency), len⟩
@[inherit_doc clock] def cable (f : TdmsFile α) : RangeCoord :=
  ⟨f.startPos, f.startPos + f.resolution * f.multiplier * f.nch, f.resolution * f.multiplier, f.nch⟩

theorem clock_valid (h : TdmsLayout f s len) : (f.clock len).Valid := valid_canonical (timeCoord_spec h).2.ne' h.some_samples
theorem cable_valid (h : TdmsLayout f s len) : f.cable.Valid := valid_canonical h.outwards.ne' h.channels

theorem data_eq (h : TdmsLayout f s len) : f.data = (f.segmentData s).map fun rows => ⟨f.nch, rows⟩ := by
  unfold data
  rw [h.one]
  cases hd : f.segmentData s with
  | error e => simp only [hd]; rfl
  | ok r => simp [hd, bind, Except.bind, joinSegments, Except.map]

/-- Reading, with any limits, once the samples are known. -/
theorem read_spec (h : TdmsLayout f s len) {R : List (List α)} (hR : f.segmentData s = .ok R) (hlen : R.length = len)
    (hw : ∀ r ∈ R, r.length = f.nch) (time distance : Option (Option ℚ × Option ℚ)) :
    GivesRecording (f.read time distance)
      (samplesBetween (nanos (1 / f.frequency) / (2 * 10 ^ 10)) (time.getD (none, none)).1 (time.getD (none, none)).2 (f.clock len).values)
      (samplesBetween (f.resolution * f.multiplier / (2 * 10 ^ 10)) (distance.getD (none, none)).1 (distance.getD (none, none)).2 f.cable.values)
      ((pickedBy (nanos (1 / f.frequency) / (2 * 10 ^ 10)) (time.getD (none, none)).1 (time.getD (none, none)).2 (f.clock len).values R).map
        (pickedBy (f.resolution * f.multiplier / (2 * 10 ^ 10)) (distance.getD (none, none)).1 (distance.getD (none, none)).2 f.cable.values)) := by
  have ht := timeCoord_spec h
  have hr : f.read time distance = readPart (f.clock len) f.cable ⟨f.cable.len, R⟩ time distance := by
    unfold read
    rw [distanceCoord_spec h, ht.1, data_eq h, hR]
    rfl
  have := readPart_spec (clock_valid h) (cable_valid h) (R := R) hlen hw time distance
  rw [← hr] at this
  have e1 : |(f.clock len).step| = nanos (1 / f.frequency) := abs_of_pos ht.2
  have e2 : |f.cable.step| = f.resolution * f.multiplier := abs_of_pos h.outwards
  rw [e1, e2] at this
  exact this

end TdmsFile
end Verif
