import Verif.Proof.Reader
import Verif.Proof.Units
import Verif.Spec.Sintela
import Mathlib.Tactic.Positivity
/-! # Lemmas about Sintela files -/
namespace Verif
open Spec

theorem flatMap_length_const {β γ} {k : ℕ} (g : β → List γ) (l : List β) (h : ∀ b ∈ l, (g b).length = k) : (l.flatMap g).length = l.length * k := by
  induction l with
  | nil => simp
  | cons b l ih =>
    rw [List.flatMap_cons, List.length_append, h b (by simp), ih (fun x hx => h x (by simp [hx])), List.length_cons]
    ring

theorem chunksOf_map {β γ} {k : ℕ} (g : β → List γ) (l : List β) (h : ∀ b ∈ l, (g b).length = k) : chunksOf k l.length (l.flatMap g) = l.map g := by
  have := chunksOf_flatten k (l.map g) (by
    intro r hr
    obtain ⟨b, hb, rfl⟩ := List.mem_map.1 hr
    exact h b hb)
  rw [List.length_map] at this
  rw [← this]
  rfl

namespace SintelaFile
variable {β α : Type} {f : SintelaFile β α} {encode : α → List β} {packets : List (List β × List (List α))}

theorem packet_length (h : SintelaLayout f encode packets) {p : List β × List (List α)} (hp : p ∈ packets) :
    (p.1 ++ p.2.flatten.flatMap encode).length = f.packetSize := by
  rw [List.length_append, h.headers p hp, flatMap_length_const encode _ (fun x _ => h.four x),
    flatten_length_const f.numChannels _ (h.channels p hp), h.samples p hp]
  unfold packetSize
  ring

theorem packetSize_pos (h : SintelaLayout f encode packets) : 0 < f.packetSize := by
  unfold packetSize
  have := Nat.mul_pos h.some_channels h.some_samples
  omega

theorem raw_length (h : SintelaLayout f encode packets) : f.raw.length = packets.length * f.packetSize := by
  rw [h.bytes, flatMap_length_const _ _ (fun p hp => packet_length h hp)]

theorem packets_pos (h : SintelaLayout f encode packets) : 1 ≤ packets.length := List.length_pos_iff.2 h.some_packets

theorem numPackets_spec (h : SintelaLayout f encode packets) : f.numPackets = .ok packets.length := by
  unfold numPackets
  have hp := packetSize_pos h
  rw [if_neg hp.ne', raw_length h, if_neg (by simp), Nat.mul_div_cancel _ hp]

/-- The rows of all packets. -/
def allRows (packets : List (List β × List (List α))) : List (List α) := packets.flatMap (·.2)

theorem allRows_length (h : SintelaLayout f encode packets) : (allRows packets).length = packets.length * f.numSamples :=
  flatMap_length_const _ _ h.samples

theorem allRows_width (h : SintelaLayout f encode packets) : ∀ r ∈ allRows packets, r.length = f.numChannels := by
  intro r hr
  obtain ⟨p, hp, hr⟩ := List.mem_flatMap.1 hr
  exact h.channels p hp r hr

theorem loadData_spec (h : SintelaLayout f encode packets) : f.loadData = .ok ⟨f.numChannels, allRows packets⟩ := by
  unfold loadData
  have hp := packetSize_pos h
  rw [raw_length h, Nat.mul_div_cancel _ hp]
  have h1 : chunksOf f.packetSize packets.length f.raw = packets.map fun p => p.1 ++ p.2.flatten.flatMap encode := by
    rw [h.bytes]
    exact chunksOf_map _ _ fun p hp => packet_length h hp
  simp only
  rw [h1, List.map_map]
  have h2 : (packets.map ((fun p : List β => p.drop f.headerSize) ∘ fun p => p.1 ++ p.2.flatten.flatMap encode)).flatten =
      (allRows packets).flatten.flatMap encode := by
    have : packets.map ((fun p : List β => p.drop f.headerSize) ∘ fun p => p.1 ++ p.2.flatten.flatMap encode) =
        packets.map fun p => p.2.flatten.flatMap encode := by
      apply List.map_congr_left
      intro p hp
      simp only [Function.comp]
      rw [← h.headers p hp]
      simp
    rw [this]
    unfold allRows
    clear h1 this h
    induction packets with
    | nil => rfl
    | cons p l ih => simp_all [List.flatMap_append]
  rw [h2]
  have h3 : ((allRows packets).flatten.flatMap encode).length / 4 = (allRows packets).flatten.length := by
    rw [flatMap_length_const encode _ (fun x _ => h.four x), Nat.mul_div_cancel _ (by norm_num)]
  rw [h3, chunksOf_map encode _ (fun x _ => h.four x), List.map_map]
  have h4 : f.decode ∘ encode = id := by funext x; exact h.means x
  rw [h4, List.map_id]
  exact reshapeRows_rows h.some_channels _ (allRows_width h)

/-- The coordinates. -/
def clock (f : SintelaFile β α) (n : ℕ) : RangeCoord :=
  ⟨f.startTime, f.startTime + nanos (1 / f.sampleRate) * (n * f.numSamples : ℕ), nanos (1 / f.sampleRate), n * f.numSamples⟩
@[inherit_doc clock] def cable (f : SintelaFile β α) : RangeCoord :=
  ⟨f.startChannel * f.channelSpacing, f.startChannel * f.channelSpacing + (f.channelStep * f.channelSpacing) * f.numChannels,
    f.channelStep * f.channelSpacing, f.numChannels⟩

theorem step_pos (h : SintelaLayout f encode packets) : 0 < nanos (1 / f.sampleRate) := by
  have hf := h.forward
  have h1 := (nanos_nearest (1 / f.sampleRate)).2.2
  have h2 : (1 : ℚ) ≤ 1 / f.sampleRate * 1000000000 := by
    rw [div_mul_eq_mul_div, one_mul, le_div_iff₀ hf]
    linarith [h.slow]
  linarith

theorem dx_pos (h : SintelaLayout f encode packets) : 0 < f.channelStep * f.channelSpacing := by
  have h1 := h.apart
  have h2 : (1 : ℚ) ≤ f.channelStep := by exact_mod_cast h.onwards
  positivity

theorem clock_valid (h : SintelaLayout f encode packets) : (f.clock packets.length).Valid :=
  valid_canonical (step_pos h).ne' (Nat.mul_pos (packets_pos h) h.some_samples)
theorem cable_valid (h : SintelaLayout f encode packets) : f.cable.Valid := valid_canonical (dx_pos h).ne' h.some_channels

theorem scan_spec (h : SintelaLayout f encode packets) : f.scan = .ok (f.clock packets.length, f.cable) := by
  unfold scan
  rw [numPackets_spec h]
  have ht : f.timeCoord packets.length = .ok (f.clock packets.length) := by
    unfold timeCoord
    rw [if_neg h.forward.ne']
    simp only
    have := mkRange_canonical (start := (f.startTime : ℚ)) (step_pos h).ne' (Nat.mul_pos (packets_pos h) h.some_samples)
    have hcast : ((packets.length : ℚ) * f.numSamples) = ((packets.length * f.numSamples : ℕ) : ℚ) := by push_cast; ring
    rw [this]
    simp only [bind, Except.bind]
    rfl
  have hd : f.distanceCoord = .ok f.cable := by
    unfold distanceCoord
    simp only
    have := mkRange_canonical (start := (f.startChannel : ℚ) * f.channelSpacing) (dx_pos h).ne' h.some_channels
    have hcast : (f.startChannel : ℚ) * f.channelSpacing + (f.numChannels * f.channelStep) * f.channelSpacing =
      f.startChannel * f.channelSpacing + (f.channelStep * f.channelSpacing) * f.numChannels := by ring
    rw [hcast, this]
    simp only [bind, Except.bind]
    rfl
  simp only [bind, Except.bind, ht, hd]
  rfl

theorem read_eq (h : SintelaLayout f encode packets) (time distance : Option (Option ℚ × Option ℚ)) :
    f.read time distance = readPart (f.clock packets.length) f.cable ⟨f.cable.len, allRows packets⟩ time distance := by
  unfold read
  rw [scan_spec h, loadData_spec h]
  rfl

end SintelaFile
end Verif
