import Verif.Proof.Radians
import Verif.Props.Patch
/-!
# C102: Radians to strain
-/
namespace Verif
open Spec
variable {pi : ℚ} {tab : UnitTable} {a : StrainArgs} {arg : Option (Option ℚ)} {p q : RadPatch}

/-- **C102.** Data in radians (or a multiple, or per something) become strain: each sample is λ / (4 π n L ζ) times its number of radians, strain takes the place of radians in the
units, and the coordinates stay. -/
theorem C102_strain {g m : ℚ} {u : UnitWord} (hg : IsGauge p arg g) (hpos : 0 < g) (hu : p.units = some (m, u)) (hs : u.saysRadian = true) (hb : RadiansOnce (tab.base u))
    (hpi : pi ≠ 0) (hi : a.index ≠ 0) (hz : a.stress ≠ 0) : ∃ q, p.toStrain pi tab a arg = .ok q ∧ IsStrain pi tab a g m u p q := by
  have hne : 4 * pi * a.index * g * a.stress ≠ 0 := mul_ne_zero (mul_ne_zero (mul_ne_zero (mul_ne_zero (by norm_num) hpi) hi) hpos.ne') hz
  refine ⟨⟨p.cm, ⟨p.data.shape, fun i => nanMul (nanMul (p.data.get i) (some (a.wave / (4 * pi * a.index * g * a.stress)))) (some (m * tab.scale u))⟩,
    some (1, (tab.base u).times [("strain", 1), ("radian", -1)]), p.gauge⟩, ?_, rfl, rfl, rfl, ?_, ?_⟩
  · unfold RadPatch.toStrain
    simp only [bind, Except.bind, gauge_ok hg hpos, hu]
    rw [if_pos hs]
    unfold RadPatch.convert StrainArgs.const
    simp only [bind, Except.bind]
    rw [if_neg hne]
    simp only
    rw [radians_out hb, if_neg Bool.false_ne_true]
  · intro i
    show nanMul (nanMul (p.data.get i) _) _ = _
    cases p.data.get i with
    | none => rfl
    | some x =>
      show some (x * _ * (m * tab.scale u)) = some _
      congr 1
      unfold strainOf
      ring
  · refine ⟨_, rfl, fun n => ?_⟩
    rw [UnitWord.exp_times]
    by_cases h1 : n = "strain"
    · subst h1
      rw [if_pos rfl, if_neg (by decide), show UnitWord.exp [("strain", 1), ("radian", -1)] "strain" = 1 by decide]
      ring
    · rw [if_neg h1]
      by_cases h2 : n = "radian"
      · subst h2
        rw [if_pos rfl, show UnitWord.exp [("strain", 1), ("radian", -1)] "radian" = -1 by decide]
        ring
      · rw [if_neg h2, UnitWord.exp_not_mem (u := [("strain", 1), ("radian", -1)]) (by simp [h1, h2])]
        ring

/-- Radians, thousandths of them, seconds and metres. -/
def exUnits : UnitTable := fun n => if n = "milliradian" then (1 / 1000, [("radian", 1)]) else if n = "minute" then (60, [("second", 1)]) else (1, [(n, 1)])

/-- Phases in thousandths of a radian per minute. -/
def exPhase : RadPatch := ⟨exPatch.cm, ⟨[2, 4], fun i => if i = [0, 0] then none else some (i.getD 1 0 : ℕ)⟩, some (2, [("milliradian", 1), ("minute", -1)]), some (some 10)⟩

/-- Arguments of `radians_to_strain`. -/
def exArgs : StrainArgs := ⟨155 / 100000000, 79 / 100, 1445 / 1000⟩

example : IsGauge exPhase none 10 ∧ exPhase.units = some (2, [("milliradian", 1), ("minute", -1)]) ∧
    UnitWord.saysRadian [("milliradian", 1), ("minute", -1)] = true ∧ RadiansOnce (exUnits.base [("milliradian", 1), ("minute", -1)]) :=
  ⟨Or.inr ⟨rfl, rfl⟩, rfl, by decide +kernel, by unfold RadiansOnce; decide +kernel⟩

example : ((exPhase.toStrain (22 / 7) exUnits ⟨1, 1, 1⟩ none).map fun q => (q.units, q.data.get [0, 0], q.data.get [1, 3])) =
    .ok (some (1, [("second", -1), ("strain", 1)]), none, some (7 / 880 * (3 * 2 / 60000))) := by decide +kernel

/-- **C102.** Converting again, with the same arguments, changes nothing. -/
theorem C102_idempotent (h : p.toStrain pi tab a arg = .ok q) : q.toStrain pi tab a arg = .ok q := by
  unfold RadPatch.toStrain at h
  cases hg : p.gaugeLength arg with
  | error e => rw [hg] at h; cases h
  | ok g =>
    rw [hg] at h
    simp only [bind, Except.bind] at h
    cases hu : p.units with
    | none =>
      simp only [hu] at h
      cases h
      unfold RadPatch.toStrain
      simp only [bind, Except.bind, hg, hu]
    | some mu =>
      obtain ⟨m, u⟩ := mu
      simp only [hu] at h
      by_cases hs : u.saysRadian = true
      · rw [if_pos hs] at h
        unfold RadPatch.convert at h
        cases hc : a.const pi g with
        | error e => rw [hc] at h; cases h
        | ok c =>
          rw [hc] at h
          simp only [bind, Except.bind] at h
          split_ifs at h with hr
          cases h
          unfold RadPatch.toStrain
          have hg' : ∀ (d : Nd (Option ℚ)) (w : Option (ℚ × UnitWord)), RadPatch.gaugeLength ⟨p.cm, d, w, p.gauge⟩ arg = .ok g := fun _ _ => hg
          simp only [bind, Except.bind, hg']
          rw [if_neg hr]
      · rw [if_neg hs] at h
        cases h
        unfold RadPatch.toStrain
        simp only [bind, Except.bind, hg, hu]
        rw [if_neg hs]

example : ((exPhase.toStrain (22 / 7) exUnits exArgs none).map fun q => q.data.shape) = .ok [2, 4] := by decide +kernel

/-- **C102.** A gauge length which is missing, zero or negative is refused; data without radians in their units stay as they are; radians to another power than the first are refused. -/
theorem C102_otherwise :
    ((arg = none ∧ p.gauge = none) ∨ (∃ g, IsGauge p arg g ∧ g ≤ 0) → p.toStrain pi tab a arg = .error .parameterError) ∧
    ((∃ g, IsGauge p arg g ∧ 0 < g) → (∀ m u, p.units = some (m, u) → u.saysRadian = false) → p.toStrain pi tab a arg = .ok p) ∧
    ((∃ g, IsGauge p arg g ∧ 0 < g) → pi ≠ 0 → a.index ≠ 0 → a.stress ≠ 0 → ∀ m u, p.units = some (m, u) → u.saysRadian = true → (tab.base u).exp "radian" ≠ 1 →
      p.toStrain pi tab a arg = .error .unitError) := by
  refine ⟨fun h => ?_, fun ⟨g, hg, hpos⟩ h => ?_, fun ⟨g, hg, hpos⟩ hpi hi hz m u hu hs hr => ?_⟩
  · have : p.gaugeLength arg = .error .parameterError := by
      unfold RadPatch.gaugeLength
      rcases h with ⟨rfl, h⟩ | ⟨g, rfl | ⟨rfl, h⟩, hle⟩
      · simp only [Option.isSome_none, Bool.false_eq_true, if_false, h]
      · simp only [Option.isSome_some, if_true]
        rw [if_pos hle]
      · simp only [Option.isSome_none, Bool.false_eq_true, if_false, h]
        rw [if_pos hle]
    unfold RadPatch.toStrain
    rw [this]
    rfl
  · unfold RadPatch.toStrain
    simp only [bind, Except.bind, gauge_ok hg hpos]
    cases hu : p.units with
    | none => rfl
    | some mu =>
      simp only
      rw [h mu.1 mu.2 hu, if_neg Bool.false_ne_true]
  · have hne : 4 * pi * a.index * g * a.stress ≠ 0 := mul_ne_zero (mul_ne_zero (mul_ne_zero (mul_ne_zero (by norm_num) hpi) hi) hpos.ne') hz
    unfold RadPatch.toStrain
    simp only [bind, Except.bind, gauge_ok hg hpos, hu]
    rw [if_pos hs]
    unfold RadPatch.convert StrainArgs.const
    simp only [bind, Except.bind]
    rw [if_neg hne]
    simp only
    rw [if_pos (radians_left hr)]

example : IsGauge exPhase (some (some (-1))) (-1) ∧ (-1 : ℚ) ≤ 0 := ⟨Or.inl rfl, by norm_num⟩
example : (exUnits.base [("radian", 2)]).exp "radian" ≠ 1 ∧ UnitWord.saysRadian [("radian", 2)] = true := by decide +kernel

/-- **C102 violated** (gauge length NaN, the default of the attributes of some formats): it is not refused, and all samples become NaN. -/
theorem C102_nan_violated {m : ℚ} {u : UnitWord} (harg : arg = none) (hg : p.gauge = some none) (hu : p.units = some (m, u)) (hs : u.saysRadian = true)
    (hb : RadiansOnce (tab.base u)) : ∃ q, p.toStrain pi tab a arg = .ok q ∧ ∀ i, q.data.get i = none := by
  refine ⟨⟨p.cm, ⟨p.data.shape, fun i => nanMul (nanMul (p.data.get i) none) (some (m * tab.scale u))⟩,
    some (1, (tab.base u).times [("strain", 1), ("radian", -1)]), p.gauge⟩, ?_, fun i => ?_⟩
  · have : p.gaugeLength arg = .ok none := by
      unfold RadPatch.gaugeLength
      simp only [harg, Option.isSome_none, Bool.false_eq_true, if_false, hg]
    unfold RadPatch.toStrain
    simp only [bind, Except.bind, this, hu]
    rw [if_pos hs]
    unfold RadPatch.convert StrainArgs.const
    simp only [bind, Except.bind]
    rw [radians_out hb, if_neg Bool.false_ne_true]
  · show nanMul (nanMul (p.data.get i) none) _ = none
    cases p.data.get i <;> rfl

example : ({ exPhase with gauge := some none } : RadPatch).gauge = some none := rfl

end Verif
