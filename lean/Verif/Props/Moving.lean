import Verif.Proof.Moving
/-! # Moving windows: properties (C70) -/
namespace Verif
open Spec

/-- **C70** (interior). With an odd window of `2 h + 1` samples, not longer than the axis, a moving operation succeeds (the standard deviation needs
bottleneck), keeps the shape, and at each sample at least `h` samples away from both ends it is the operation of the `h` samples before, the sample and the
`h` samples after it. This holds whichever engine is used and whether or not bottleneck is installed. -/
theorem C70_centred {sd : List ℚ → ℚ} {installed : Bool} {engine : MoveEngine} {a : Nd ℚ} {h : ℕ} {op : MoveOp} {axis : ℕ}
    (hw : 2 * h + 1 ≤ a.shape.getD axis 0) (hs : op = .std → installed = true ∧ engine ≠ .scipy) :
    ∃ r, movingWindow sd installed engine a (2 * h + 1) op axis = .ok r ∧ r.shape = a.shape ∧
      ∀ i, Interior a axis h i → WindowValue sd op (centred (lineAt a axis i) (i.getD axis 0) h) (r.get i) := by
  have hs' : op = .std → (installed && (engine != .scipy)) = true := fun e => by
    have := hs e
    simp [this.1, this.2]
  obtain ⟨r, hr⟩ := movingWindow_total (sd := sd) (installed := installed) (engine := engine) (a := a) (w := 2 * h + 1) (op := op) (axis := axis)
    (mode := .reflect) (o := 0) (by omega) hw (fun e => ⟨hs' e, rfl⟩) (by omega)
  refine ⟨r, by exact_mod_cast hr, (movingWindow_ok hr).2.2.1, fun i hi => ?_⟩
  obtain ⟨l, hl, e⟩ := (movingWindow_ok hr).2.2.2.2 i
  rw [e]
  exact engineLine_centred hs' hl hi.1 (by rw [lineAt_length]; exact hi.2)

/-- Two rows of six samples. -/
def exRows : Nd ℚ := ⟨[2, 6], fun i => (if i.getD 0 0 = 0 then [3, 1, 4, 1, 5, 9] else [2, 7, 1, 8, 2, 8]).getD (i.getD 1 0) 0⟩

/-- The hypotheses of `C70_centred` hold for a window of three samples. -/
example : 2 * 1 + 1 ≤ exRows.shape.getD 1 0 ∧ Interior exRows 1 1 [1, 2] ∧ centred (lineAt exRows 1 [1, 2]) 2 1 = [7, 1, 8] ∧
    (movingWindow (fun _ => 0) true .auto exRows 3 .median 1).map (fun r => r.get [1, 2]) = .ok 7 ∧
    (movingWindow (fun _ => 0) false .auto exRows 3 .sum 1).map (fun r => r.get [1, 2]) = .ok 16 := by
  refine ⟨by decide, by unfold Interior; decide, by decide +kernel, by decide +kernel, by decide +kernel⟩

/-- **C70** (agreement). Any two ways to compute the same moving operation with an odd window agree away from the ends. -/
theorem C70_agree {sd : List ℚ → ℚ} {inst₁ inst₂ : Bool} {eng₁ eng₂ : MoveEngine} {a r₁ r₂ : Nd ℚ} {h : ℕ} {op : MoveOp} {axis : ℕ}
    (h₁ : movingWindow sd inst₁ eng₁ a (2 * h + 1) op axis = .ok r₁) (h₂ : movingWindow sd inst₂ eng₂ a (2 * h + 1) op axis = .ok r₂) {i : List ℕ}
    (hi : Interior a axis h i) : r₁.get i = r₂.get i := by
  have h₁' : movingWindow sd inst₁ eng₁ a ((2 * h + 1 : ℕ) : ℤ) op axis = .ok r₁ := by exact_mod_cast h₁
  have h₂' : movingWindow sd inst₂ eng₂ a ((2 * h + 1 : ℕ) : ℤ) op axis = .ok r₂ := by exact_mod_cast h₂
  obtain ⟨-, -, -, s1, m1⟩ := movingWindow_ok h₁'
  obtain ⟨-, -, -, s2, m2⟩ := movingWindow_ok h₂'
  obtain ⟨l1, e1, g1⟩ := m1 i
  obtain ⟨l2, e2, g2⟩ := m2 i
  rw [g1, g2]
  have hlt : i.getD axis 0 + h < (lineAt a axis i).length := by rw [lineAt_length]; exact hi.2
  exact windowValue_unique (engineLine_centred s1 e1 hi.1 hlt) (engineLine_centred s2 e2 hi.1 hlt)

/-- **C70** (range). Moving medians, means, least and greatest values lie between any bounds of the samples of their line: at the ends as well, for odd and
even windows, for all engines and all boundary modes but the one that fills with a constant. In particular constant data stay as they are. -/
theorem C70_within {sd : List ℚ → ℚ} {installed : Bool} {engine : MoveEngine} {a r : Nd ℚ} {w : ℤ} {op : MoveOp} {axis : ℕ} {mode : BoundaryMode} {o : ℤ}
    (hr : movingWindow sd installed engine a w op axis mode o = .ok r) (h1 : op ≠ .sum) (h2 : op ≠ .std) (hm : ∀ c, mode ≠ .constant c) {i : List ℕ}
    (hi : InRange a.shape i) {lo hi' : ℚ} (hb : ∀ x ∈ lineAt a axis i, lo ≤ x ∧ x ≤ hi') : r.shape = a.shape ∧ lo ≤ r.get i ∧ r.get i ≤ hi' := by
  obtain ⟨hw0, hw1, hsh, -, hl⟩ := movingWindow_ok hr
  obtain ⟨l, e, g⟩ := hl i
  refine ⟨hsh, ?_⟩
  rw [g]
  refine engineLine_bounds h1 h2 hm (by omega) (by rw [lineAt_length]; omega) e hb ?_
  rw [lineAt_length]
  exact inRange_axis hi (axis_of_pos (by omega))

/-- The hypotheses of `C70_within` hold, at an end and with an even window. -/
example : (∃ r, movingWindow (fun _ => 0) true .auto exRows 4 .mean 1 = .ok r) ∧ InRange exRows.shape [1, 5] ∧
    (∀ x ∈ lineAt exRows 1 [1, 5], (1 : ℚ) ≤ x ∧ x ≤ 8) ∧
    (movingWindow (fun _ => 0) true .auto exRows 4 .mean 1).map (fun r => r.get [1, 5]) = .ok (19 / 4) := by
  refine ⟨movingWindow_total (w := 4) (by decide) (by decide) (by intro h; cases h) (by decide), .cons (by decide) (.cons (by decide) .nil), ?_, by decide +kernel⟩
  decide +kernel

/-- **C70** (ends). Where scipy computes the result, every value is the operation of the window of a line that goes on beyond its ends as the boundary mode
says: of `w` samples, half of them before the sample, shifted by the origin. (Medians of even windows are left out: scipy takes the greater of the two
values in the middle.) -/
theorem C70_ends {sd : List ℚ → ℚ} {installed : Bool} {engine : MoveEngine} {a r : Nd ℚ} {w : ℕ} {op : MoveOp} {axis : ℕ} {mode : BoundaryMode} {o : ℤ}
    (hr : movingWindow sd installed engine a w op axis mode o = .ok r) (he : installed = false ∨ engine = .scipy ∨ mode ≠ .reflect ∨ o ≠ 0)
    (hm : op = .median → w % 2 = 1) {i : List ℕ} (hi : InRange a.shape i) :
    ∃ e, Extends mode (lineAt a axis i) e ∧
      WindowValue sd op ((List.range w).map fun t : ℕ => e (i.getD axis 0 - (w / 2 : ℕ) - o + t)) (r.get i) := by
  obtain ⟨hw0, hw1, hsh, hs, hl⟩ := movingWindow_ok hr
  obtain ⟨l, e, g⟩ := hl i
  rw [Int.toNat_natCast] at e
  have hlen : (lineAt a axis i).length = a.shape.getD axis 0 := lineAt_length a axis i
  refine ⟨_, extendAt_extends mode (List.length_pos_iff.1 (by omega)), ?_⟩
  rw [g]
  have hlt : i.getD axis 0 < (lineAt a axis i).length := by
    rw [hlen]
    exact inRange_axis hi (axis_of_pos (by omega))
  rcases engineLine_cases e with ⟨e', hb⟩ | ⟨hb, h1, h2, -⟩
  · rw [(scipyLine_ok e').2 _ hlt]
    refine windowValue_scipy (ws := scipyWindow mode o w (lineAt a axis i) (i.getD axis 0)) ?_ ?_ ?_
    · apply List.length_pos_iff.1
      rw [scipyWindow_length]
      omega
    · intro c
      have := hs c
      rw [hb c] at this
      cases this
    · intro c
      rw [scipyWindow_length]
      exact hm c
  · exfalso
    simp only [Bool.and_eq_true, bne_iff_ne] at hb
    rcases he with h | h | h | h
    · rw [h] at hb; exact absurd hb.1 (by simp)
    · exact hb.2 h
    · exact h h1
    · exact h h2

/-- The hypotheses of `C70_ends` hold: the first sample with three samples of a line that is mirrored. -/
example : (∃ r, movingWindow (fun _ => 0) true .auto exRows 3 .sum 1 .mirror = .ok r) ∧ BoundaryMode.mirror ≠ .reflect ∧
    (movingWindow (fun _ => 0) true .auto exRows 3 .sum 1 .mirror).map (fun r => r.get [1, 0]) = .ok (7 + 2 + 7) ∧
    (movingWindow (fun _ => 0) true .auto exRows 3 .sum 1 (.constant 100)).map (fun r => r.get [1, 0]) = .ok (100 + 2 + 7) ∧
    (movingWindow (fun _ => 0) true .auto exRows 3 .sum 1 .wrap 1).map (fun r => r.get [1, 0]) = .ok (2 + 8 + 2) := by
  refine ⟨movingWindow_total (w := 3) (by decide) (by decide) (by intro h; cases h) (by decide), by decide, by decide +kernel, by decide +kernel,
    by decide +kernel⟩

/-- **C70** (acceptance). A moving operation is refused exactly if the window has no samples or more than the axis, the standard deviation is asked for
without bottleneck or with a boundary option bottleneck does not have, or the origin is outside of the window where scipy computes the result. -/
theorem C70_accepted (sd : List ℚ → ℚ) (installed : Bool) (engine : MoveEngine) (a : Nd ℚ) (w : ℤ) (op : MoveOp) (axis : ℕ) (mode : BoundaryMode) (o : ℤ) :
    (∃ r, movingWindow sd installed engine a w op axis mode o = .ok r) ↔
      0 < w ∧ w ≤ a.shape.getD axis 0 ∧ (op = .std → installed = true ∧ engine ≠ .scipy ∧ mode = .reflect ∧ o = 0) ∧ -(w / 2) ≤ o ∧ o < w - w / 2 := by
  constructor
  · rintro ⟨r, hr⟩
    obtain ⟨hw0, hw1, hsh, hs, hl⟩ := movingWindow_ok hr
    obtain ⟨l, e, -⟩ := hl []
    refine ⟨hw0, hw1, fun c => ?_, ?_⟩
    · have h1 := hs c
      simp only [Bool.and_eq_true, bne_iff_ne] at h1
      refine ⟨h1.1, h1.2, ?_⟩
      rcases engineLine_cases e with ⟨-, hb⟩ | ⟨-, h2, h3, -⟩
      · have := hs c
        rw [hb c] at this
        cases this
      · exact ⟨h2, h3⟩
    · rcases engineLine_cases e with ⟨e', -⟩ | ⟨-, -, h3, -⟩
      · unfold scipyLine at e'
        split_ifs at e' with hc
        omega
      · omega
  · rintro ⟨hw0, hw1, hs, ho1, ho2⟩
    lift w to ℕ using hw0.le
    refine movingWindow_total (by omega) (by omega) (fun c => ?_) (by omega)
    obtain ⟨h1, h2, rfl, rfl⟩ := hs c
    simp [h1, h2, needsScipy]

/-- Accepted and refused requests. -/
example : (movingWindow (fun _ => 0) true .auto exRows 7 .mean 1).map (fun _ => ()) = .error .parameterError ∧
    (movingWindow (fun _ => 0) false .bottleneck exRows 3 .std 1).map (fun _ => ()) = .error .parameterError ∧
    (movingWindow (fun _ => 0) true .auto exRows 3 .mean 1 .reflect 2).map (fun _ => ()) = .error .valueError ∧
    (movingWindow (fun _ => 0) true .auto exRows 3 .mean 1 .reflect 1).map (fun _ => ()) = .ok () := by
  refine ⟨by decide +kernel, by decide +kernel, by decide +kernel, by decide +kernel⟩

/-- **C70 violated**: the engines do not agree at the ends. With bottleneck the sum of three at the first sample is that of the two first samples, and
at the last one that of the three last samples, the same as at the sample before. -/
theorem C70_ends_violated :
    (movingWindow (fun _ => 0) true .auto exRows 3 .sum 1).map (fun r => r.get [0, 4]) = .ok 15 ∧
    (movingWindow (fun _ => 0) true .auto exRows 3 .sum 1).map (fun r => r.get [0, 0]) = .ok 4 ∧
    (movingWindow (fun _ => 0) false .auto exRows 3 .sum 1).map (fun r => r.get [0, 0]) = .ok 7 ∧
    (movingWindow (fun _ => 0) true .auto exRows 3 .sum 1).map (fun r => r.get [0, 5]) = .ok 15 ∧
    (movingWindow (fun _ => 0) false .auto exRows 3 .sum 1).map (fun r => r.get [0, 5]) = .ok 23 := by
  refine ⟨by decide +kernel, by decide +kernel, by decide +kernel, by decide +kernel, by decide +kernel⟩

/-- **C70 violated**: with an even window the engines differ by one sample: at sample 4 of `3, 1, 4, 1, 5, 9` the sum of two is `5 + 9` with
bottleneck and `1 + 5` with scipy. -/
theorem C70_even_violated :
    (movingWindow (fun _ => 0) true .auto exRows 2 .sum 1).map (fun r => r.get [0, 4]) = .ok 14 ∧
    (movingWindow (fun _ => 0) false .auto exRows 2 .sum 1).map (fun r => r.get [0, 4]) = .ok 6 := by
  refine ⟨by decide +kernel, by decide +kernel⟩

end Verif
