import Verif.Proof.Sintela
/-! # C89: reading Sintela files -/
namespace Verif
open Spec

variable {β α : Type} {f : SintelaFile β α} {encode : α → List β} {packets : List (List β × List (List α))}

/-- Two packets with headers of three bytes, two rows of two channels each; every second channel from the third on was recorded. -/
def exSintela : SintelaFile ℕ ℕ where
  raw := [9, 9, 9, 1, 0, 0, 0, 2, 0, 0, 0, 3, 0, 0, 0, 4, 0, 0, 0, 8, 8, 8, 5, 0, 0, 0, 6, 0, 0, 0, 7, 0, 0, 0, 8, 0, 0, 0]
  decode := fun l => l.headD 0
  headerSize := 3
  numChannels := 2
  numSamples := 2
  startTime := 1000
  sampleRate := 500
  channelSpacing := 1 / 4
  startChannel := 3
  channelStep := 2

theorem exSintela_layout : SintelaLayout exSintela (fun x => [x, 0, 0, 0]) [([9, 9, 9], [[1, 2], [3, 4]]), ([8, 8, 8], [[5, 6], [7, 8]])] where
  bytes := by decide
  four := by simp
  means := by simp [exSintela]
  headers := by decide
  samples := by decide
  channels := by decide
  some_packets := by simp
  some_samples := by decide
  some_channels := by decide
  forward := by norm_num [exSintela]
  slow := by norm_num [exSintela]
  apart := by norm_num [exSintela]
  onwards := by decide

/-- **C89** A file written as packets of samples is read back, packet after packet, row after row: labels of time start at the start
time of the first packet and advance by the sampling interval (rounded to nanoseconds), labels of distance are the places of the
channels recorded. -/
theorem C89_read (h : SintelaLayout f encode packets) :
    ∃ step, Nearest (1 / f.sampleRate * 1000000000) step ∧
      GivesRecording (f.read none none) (progression f.startTime step (packets.length * f.numSamples))
        (progression (f.startChannel * f.channelSpacing) (f.channelStep * f.channelSpacing) f.numChannels) (packets.flatMap (·.2)) := by
  refine ⟨nanos (1 / f.sampleRate), nanos_nearest _, ?_⟩
  have key := readPart_spec (SintelaFile.clock_valid h) (SintelaFile.cable_valid h) (R := SintelaFile.allRows packets)
    (SintelaFile.allRows_length h) (SintelaFile.allRows_width h) none none
  rw [← SintelaFile.read_eq h] at key
  simp only [Option.getD_none] at key
  rw [samplesBetween_free, samplesBetween_free, pickedBy_free _ _ _ (by
    rw [(SintelaFile.clock_valid h).length_values, SintelaFile.allRows_length h]; rfl)] at key
  rw [(SintelaFile.clock_valid h).values_eq, (SintelaFile.cable_valid h).values_eq] at key
  have hrows : (SintelaFile.allRows packets).map (pickedBy (|f.cable.step| / (2 * 10 ^ 10)) none none (progression f.cable.start f.cable.step f.cable.len)) =
      SintelaFile.allRows packets := by
    conv_rhs => rw [← List.map_id (SintelaFile.allRows packets)]
    apply List.map_congr_left
    intro r hr
    rw [pickedBy_free _ _ _ (by rw [SintelaFile.allRows_width h r hr]; simp [progression, SintelaFile.cable])]; rfl
  rw [hrows] at key
  exact key
example : SintelaLayout exSintela (fun x => [x, 0, 0, 0]) [([9, 9, 9], [[1, 2], [3, 4]]), ([8, 8, 8], [[5, 6], [7, 8]])] := exSintela_layout
example : (exSintela.read none none).map (Option.map fun w => (w.times.labels, w.distances.labels, w.rows)) =
    .ok (some ([some 1000, some 2001000, some 4001000, some 6001000], [some (3 / 4), some (5 / 4)], [[1, 2], [3, 4], [5, 6], [7, 8]])) := by
  decide +kernel

/-- **C89** Reading with limits of time and distance, or of one of them, keeps exactly the samples between the limits (with the
tolerance of selections), with their labels; nothing is read if there are none. -/
theorem C89_limits (h : SintelaLayout f encode packets) :
    ∃ step, Nearest (1 / f.sampleRate * 1000000000) step ∧
      ∀ time distance : Option ℚ × Option ℚ, ∀ t d, (t = some time ∨ t = none ∧ time = (none, none)) →
        (d = some distance ∨ d = none ∧ distance = (none, none)) →
        GivesRecording (f.read t d)
          (samplesBetween (step / (2 * 10 ^ 10)) time.1 time.2 (progression f.startTime step (packets.length * f.numSamples)))
          (samplesBetween (f.channelStep * f.channelSpacing / (2 * 10 ^ 10)) distance.1 distance.2
            (progression (f.startChannel * f.channelSpacing) (f.channelStep * f.channelSpacing) f.numChannels))
          ((pickedBy (step / (2 * 10 ^ 10)) time.1 time.2 (progression f.startTime step (packets.length * f.numSamples)) (packets.flatMap (·.2))).map
            (pickedBy (f.channelStep * f.channelSpacing / (2 * 10 ^ 10)) distance.1 distance.2
              (progression (f.startChannel * f.channelSpacing) (f.channelStep * f.channelSpacing) f.numChannels))) := by
  refine ⟨nanos (1 / f.sampleRate), nanos_nearest _, ?_⟩
  rintro time distance t d ht hd
  have key := readPart_spec (SintelaFile.clock_valid h) (SintelaFile.cable_valid h) (R := SintelaFile.allRows packets)
    (SintelaFile.allRows_length h) (SintelaFile.allRows_width h) t d
  rw [← SintelaFile.read_eq h] at key
  have h1 : t.getD (none, none) = time := by rcases ht with rfl | ⟨rfl, rfl⟩ <;> rfl
  have h2 : d.getD (none, none) = distance := by rcases hd with rfl | ⟨rfl, rfl⟩ <;> rfl
  have habs1 : |(f.clock packets.length).step| = nanos (1 / f.sampleRate) := abs_of_pos (SintelaFile.step_pos h)
  have habs2 : |f.cable.step| = f.channelStep * f.channelSpacing := abs_of_pos (SintelaFile.dx_pos h)
  rw [h1, h2, habs1, habs2, (SintelaFile.clock_valid h).values_eq, (SintelaFile.cable_valid h).values_eq] at key
  exact key
example : SintelaLayout exSintela (fun x => [x, 0, 0, 0]) [([9, 9, 9], [[1, 2], [3, 4]]), ([8, 8, 8], [[5, 6], [7, 8]])] := exSintela_layout
example : (exSintela.read (some (some 2001000, some 4001000)) (some (some 1, none))).map (Option.map fun w => (w.times.labels, w.distances.labels, w.rows)) =
    .ok (some ([some 2001000, some 4001000], [some (5 / 4)], [[4], [6]])) := by
  decide +kernel

/-- **C89** A scan tells the coordinates of the patch. -/
theorem C89_scan (h : SintelaLayout f encode packets) :
    ∃ c d w, f.scan = .ok (c, d) ∧ f.read none none = .ok (some w) ∧ w.times = .range c ∧ w.distances = .range d := by
  refine ⟨_, _, ⟨.range (f.clock packets.length), .range f.cable, SintelaFile.allRows packets⟩, SintelaFile.scan_spec h, ?_, rfl, rfl⟩
  rw [SintelaFile.read_eq h]
  unfold readPart
  have hp1 := (SintelaFile.clock_valid h).len_pos
  have hp2 := (SintelaFile.cable_valid h).len_pos
  have hl := SintelaFile.allRows_length h
  simp only [Option.isSome_none, Bool.false_eq_true, or_self, if_false, bind, Except.bind]
  rw [if_neg (by
    simp only [Sheet.size, hl]
    exact (Nat.mul_pos hp1 hp2).ne')]
  unfold Recording.new
  rw [if_pos ⟨by simp only [Coord.length]; rw [hl]; rfl, rfl⟩]
  rfl
example : SintelaLayout exSintela (fun x => [x, 0, 0, 0]) [([9, 9, 9], [[1, 2], [3, 4]]), ([8, 8, 8], [[5, 6], [7, 8]])] := exSintela_layout

/-- **C89** A file which does not end with a whole packet is refused, by reading and by scanning. -/
theorem C89_refused (hp : f.packetSize ≠ 0) (h : ¬ ∃ n, f.raw.length = n * f.packetSize) (t d : Option (Option ℚ × Option ℚ)) :
    f.read t d = .error .invalidFileFormat ∧ f.scan = .error .invalidFileFormat := by
  have hn : f.numPackets = .error .invalidFileFormat := by
    unfold SintelaFile.numPackets
    rw [if_neg hp, if_pos]
    intro hm
    exact h ⟨f.raw.length / f.packetSize, (Nat.div_mul_cancel (Nat.dvd_of_mod_eq_zero hm)).symm⟩
  have hs : f.scan = .error .invalidFileFormat := by
    unfold SintelaFile.scan
    rw [hn]
    rfl
  refine ⟨?_, hs⟩
  unfold SintelaFile.read
  rw [hs]
  rfl
example : ({ exSintela with raw := 1 :: exSintela.raw } : SintelaFile ℕ ℕ).packetSize ≠ 0 ∧
    ¬ ∃ n, ({ exSintela with raw := 1 :: exSintela.raw } : SintelaFile ℕ ℕ).raw.length = n * ({ exSintela with raw := 1 :: exSintela.raw } : SintelaFile ℕ ℕ).packetSize := by
  refine ⟨by decide, ?_⟩
  rintro ⟨n, hn⟩
  simp [exSintela, SintelaFile.packetSize] at hn
  omega

end Verif
