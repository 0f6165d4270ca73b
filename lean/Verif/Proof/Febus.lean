import Verif.Proof.Reader
import Verif.Spec.Febus
import Mathlib.Tactic.Positivity
/-! # Lemmas about Febus files -/
namespace Verif
open Spec

namespace Zone
variable {α : Type} {z : Zone α} {dt : ℚ} {pad kept : ℕ}

theorem blockPad_eq (h : FebusLayout z dt pad kept) : z.blockPad = pad := by
  unfold blockPad
  cases hv : z.hasVersion with
  | true => simp [(h.versioned hv).1]
  | false => simp [(h.unversioned hv).1]

theorem dt_pos (h : FebusLayout z dt pad kept) : 0 < dt := by have := h.slow; linarith

theorem zoneTime_spec (h : FebusLayout z dt pad kept) :
    z.zoneTime = .ok (dt, (((pad - kept) / 2 : ℕ) : ℤ), (((pad - kept) / 2 : ℕ) : ℤ) + kept - 1) := by
  have hp := blockPad_eq h
  have h1 := h.several
  have h2 := h.no_more
  have hdt := dt_pos h
  have hs : z.sampleStep = .ok dt := by
    unfold sampleStep
    cases hv : z.hasVersion with
    | true =>
      have : z.blockPad ≠ 0 := by rw [hp]; omega
      simp [(h.versioned hv).2, this]
    | false =>
      obtain ⟨_, e2, e3⟩ := h.unversioned hv
      simp only [Bool.false_eq_true, if_false, e2]
      rw [e3]
  have hk : z.keptRows dt = .ok kept := by
    unfold keptRows
    by_cases he : z.extent.2.2.1 = 0
    · obtain ⟨e1, e2⟩ := h.overlapping he
      rw [if_neg (by simpa using he), if_neg e1, hp]
      congr 1
      apply rint_eq_of_lt
      rw [abs_sub_comm]
      push_cast
      exact e2
    · rw [if_pos he, if_neg hdt.ne']
      congr 1
      apply rint_eq_of_lt
      rw [abs_sub_comm]
      push_cast
      exact h.fitting he
  unfold zoneTime
  rw [hs]
  change (if _ then _ else _) = _
  rw [if_neg (by rw [hp]; simp; omega), hk]
  change (if _ then _ else _) = _
  rw [if_neg (by simp [h.gauge]), if_neg (by rw [hp]; omega), hp]
  congr 3
  · omega
  · omega

/-- The labels of time of a zone: first label, step and number. -/
def clock (z : Zone α) (dt : ℚ) (pad kept : ℕ) : RangeCoord :=
  let a := nanos (z.time0 + z.origin.2 / 1000 + (((pad - kept) / 2 : ℕ) : ℤ) * dt)
  ⟨a, a + nanos dt * (kept * z.blocks.length : ℕ), nanos dt, kept * z.blocks.length⟩

theorem nanos_pos (h : FebusLayout z dt pad kept) : 0 < nanos dt := by
  have h1 := (nanos_nearest dt).2
  have h2 := h.slow
  have : 2 ≤ dt * 1000000000 := by linarith
  linarith [h1.2]

theorem blocks_pos (h : FebusLayout z dt pad kept) : 1 ≤ z.blocks.length := by
  have := h.some_blocks
  cases hb : z.blocks with
  | nil => exact absurd hb this
  | cons a l => simp

theorem count_pos (h : FebusLayout z dt pad kept) : 1 ≤ kept * z.blocks.length := Nat.mul_pos h.some_kept (blocks_pos h)

theorem timeCoord_spec (h : FebusLayout z dt pad kept) :
    z.timeCoordOf (dt, (((pad - kept) / 2 : ℕ) : ℤ), (((pad - kept) / 2 : ℕ) : ℤ) + kept - 1) = .ok (.range (z.clock dt pad kept)) := by
  unfold timeCoordOf
  simp only
  have ho : z.origin.2 / 1000 ≤ 0 := div_nonpos_of_nonpos_of_nonneg h.before (by norm_num)
  rw [if_neg (not_not.2 ho)]
  have hrows : ((((pad - kept) / 2 : ℕ) : ℤ) + (kept : ℤ) - 1 - (((pad - kept) / 2 : ℕ) : ℤ) + 1) = (kept : ℤ) := by omega
  rw [hrows]
  set x := z.time0 + z.origin.2 / 1000 + (((((pad - kept) / 2 : ℕ) : ℤ)) : ℚ) * dt with hx
  have hn := count_pos h
  have hcast : ((kept : ℤ) : ℤ) * (z.blocks.length : ℤ) = ((kept * z.blocks.length : ℕ) : ℤ) := by push_cast; ring
  rw [hcast]
  have hgap : nanos dt ≤ 10 * (nanos (x + ((kept : ℤ) : ℚ) * dt * z.blocks.length) - nanos x) := by
    have e1 := (nanos_nearest dt).2
    have e2 := (nanos_nearest x).2
    have e3 := (nanos_nearest (x + ((kept : ℤ) : ℚ) * dt * z.blocks.length)).2
    have hq : (1 : ℚ) ≤ (kept : ℚ) * z.blocks.length := by exact_mod_cast hn
    have hm : dt ≤ ((kept : ℤ) : ℚ) * dt * z.blocks.length := by
      push_cast
      calc dt = 1 * dt := by ring
        _ ≤ ((kept : ℚ) * z.blocks.length) * dt := by apply mul_le_mul_of_nonneg_right hq (dt_pos h).le
        _ = (kept : ℚ) * dt * z.blocks.length := by ring
    have hsl := h.slow
    generalize ((kept : ℤ) : ℚ) * dt * z.blocks.length = y at *
    linarith [e1.1, e1.2, e2.1, e2.2, e3.1, e3.2]
  have := range_of_length (a := nanos x) (b := nanos (x + ((kept : ℤ) : ℚ) * dt * z.blocks.length)) (s := nanos dt) (nanos_pos h) hn hgap true (Or.inl rfl)
  rw [this]
  rfl

/-- The labels of the channels of a zone. -/
def cable (z : Zone α) : RangeCoord :=
  let a := z.extent.1 * z.spacing.1 + z.origin.1
  ⟨a, a + z.spacing.1 * z.nchan, z.spacing.1, z.nchan⟩

theorem distance_spec (h : FebusLayout z dt pad kept) : z.distanceCoord = .ok (.range z.cable) := by
  unfold distanceCoord
  have hc := h.some_channels
  have hq : (1 : ℚ) ≤ z.nchan := by exact_mod_cast hc
  have hs := h.outwards
  set a := z.extent.1 * z.spacing.1 + z.origin.1 with ha
  have := range_of_length (a := a) (b := a + z.nchan * z.spacing.1) (s := z.spacing.1) hs hc (by nlinarith) false (Or.inr (by ring))
  simp only
  rw [this]
  rfl

theorem clock_valid (h : FebusLayout z dt pad kept) : (z.clock dt pad kept).Valid := valid_canonical (nanos_pos h).ne' (count_pos h)
theorem cable_valid (h : FebusLayout z dt pad kept) : z.cable.Valid := valid_canonical h.outwards.ne' h.some_channels

/-- The slice of rows picks the middle rows of a block. -/
theorem cut_rows (h : FebusLayout z dt pad kept) {b : List (List α)} (hb : b ∈ z.blocks) :
    cutList ⟨some (((pad - kept) / 2 : ℕ) : ℤ), some ((((pad - kept) / 2 : ℕ) : ℤ) + kept - 1 + 1), none⟩ b = (b.drop ((pad - kept) / 2)).take kept := by
  unfold cutList
  have hl := (h.shape b hb).1
  have h1 := h.stored
  have h2 := h.no_more
  rw [pySlice_unit b ((pad - kept) / 2) ((pad - kept) / 2 + kept)]
  · simp
  · simp [clipBound]; omega
  · simp [clipBound]; omega

theorem cutList_all (l : List α) : cutList {} l = l := by
  unfold cutList; rw [pySlice_all]

/-- The rows of some blocks, with a slice of channels. -/
theorem cube_spec (h : FebusLayout z dt pad kept) (bs : List (List (List α))) (hbs : ∀ b ∈ bs, b ∈ z.blocks) (chans : PySlice) :
    cube bs ⟨some (((pad - kept) / 2 : ℕ) : ℤ), some ((((pad - kept) / 2 : ℕ) : ℤ) + kept - 1 + 1), none⟩ chans =
      (bs.flatMap fun b => (b.drop ((pad - kept) / 2)).take kept).map (cutList chans) := by
  unfold cube
  rw [List.map_flatMap]
  induction bs with
  | nil => rfl
  | cons b bs ih =>
    rw [List.flatMap_cons, List.flatMap_cons, ih (fun x hx => hbs x (by simp [hx])), cut_rows h (hbs b (by simp))]

theorem kept_length (h : FebusLayout z dt pad kept) {b : List (List α)} (hb : b ∈ z.blocks) :
    ((b.drop ((pad - kept) / 2)).take kept).length = kept := by
  have hl := (h.shape b hb).1
  have h1 := h.stored
  have h2 := h.no_more
  simp; omega

theorem rows_length (h : FebusLayout z dt pad kept) (bs : List (List (List α))) (hbs : ∀ b ∈ bs, b ∈ z.blocks) :
    (bs.flatMap fun b => (b.drop ((pad - kept) / 2)).take kept).length = kept * bs.length := by
  induction bs with
  | nil => simp
  | cons b bs ih =>
    rw [List.flatMap_cons, List.length_append, kept_length h (hbs b (by simp)), ih (fun x hx => hbs x (by simp [hx])), List.length_cons]
    ring

theorem rows_width (h : FebusLayout z dt pad kept) (bs : List (List (List α))) (hbs : ∀ b ∈ bs, b ∈ z.blocks) :
    ∀ r ∈ bs.flatMap fun b => (b.drop ((pad - kept) / 2)).take kept, r.length = z.nchan := by
  intro r hr
  obtain ⟨b, hb, hr⟩ := List.mem_flatMap.1 hr
  exact (h.shape b (hbs b hb)).2 r (List.mem_of_mem_drop (List.mem_of_mem_take hr))

theorem zoneRows_length (h : FebusLayout z dt pad kept) : (zoneRows z pad kept).length = kept * z.blocks.length :=
  rows_length h z.blocks fun _ hb => hb

theorem zoneRows_width (h : FebusLayout z dt pad kept) : ∀ r ∈ zoneRows z pad kept, r.length = z.nchan :=
  rows_width h z.blocks fun _ hb => hb

end Zone
end Verif
