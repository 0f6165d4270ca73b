import Verif.Spec.PassFilter
import Verif.Props.Scale
import Verif.Proof.Units
import Mathlib.Tactic.FieldSimp
/-! # Pass and notch filters: lemmas -/
namespace Verif
open Spec

theorem passBand_iff {N rate : ℚ} (hN : 0 < N) (hr : rate / 2 = N) (lo hi : Option ℚ) (b : PassBand) :
    passBand rate lo hi = .ok b ↔ LimitsInside N lo hi ∧ bandFor N lo hi = some b := by
  have h0 : ∀ x : ℚ, 0 < x / N ↔ 0 < x := fun x => by rw [lt_div_iff₀ hN, zero_mul]
  have h1 : ∀ x : ℚ, x / N < 1 ↔ x < N := fun x => by rw [div_lt_iff₀ hN, one_mul]
  have h2 : ∀ x y : ℚ, x / N < y / N ↔ x < y := fun x y => div_lt_div_iff_of_pos_right hN
  unfold passBand
  rw [hr]
  rcases lo with _ | x <;> rcases hi with _ | y
  · simp only [Option.map_none, checkFilterRange, choosePass, bind, Except.bind, Option.any_none, Bool.false_eq_true, if_false, reduceCtorEq, bandFor,
      and_false]
  · simp only [Option.map_none, Option.map_some, checkFilterRange, choosePass, iirfilterCheck, PassBand.limits, bind, Except.bind, Option.any_none, Option.any_some,
      Bool.false_eq_true, if_false, bandFor, Option.some.injEq, List.any_cons, List.any_nil, Bool.or_false]
    constructor
    · intro h
      split_ifs at h with c1 c2
      · simp only [Bool.or_eq_true, decide_eq_true_eq, not_or, not_le] at c2
        refine ⟨⟨.inr (by simp), by simp, ?_, by simp⟩, by cases h; rfl⟩
        rintro z hz; cases hz
        exact ⟨(h0 _).1 c2.1, (h1 _).1 c2.2⟩
    · rintro ⟨⟨-, -, h, -⟩, rfl⟩
      obtain ⟨ha, hb⟩ := h y rfl
      rw [if_neg (by simp only [Bool.or_eq_true, decide_eq_true_eq, not_or, not_lt]; exact ⟨((h0 _).2 ha).le, ((h1 _).2 hb).le⟩)]
      exact if_neg (by simp only [Bool.or_eq_true, decide_eq_true_eq, not_or, not_le]; exact ⟨(h0 _).2 ha, (h1 _).2 hb⟩)
  · simp only [Option.map_none, Option.map_some, checkFilterRange, choosePass, iirfilterCheck, PassBand.limits, bind, Except.bind, Option.any_none, Option.any_some,
      Bool.false_eq_true, if_false, bandFor, Option.some.injEq, List.any_cons, List.any_nil, Bool.or_false]
    constructor
    · intro h
      split_ifs at h with c1 c2
      · simp only [Bool.or_eq_true, decide_eq_true_eq, not_or, not_le] at c2
        refine ⟨⟨.inl (by simp), ?_, by simp, by simp⟩, by cases h; rfl⟩
        rintro z hz; cases hz
        exact ⟨(h0 _).1 c2.1, (h1 _).1 c2.2⟩
    · rintro ⟨⟨-, h, -, -⟩, rfl⟩
      obtain ⟨ha, hb⟩ := h x rfl
      rw [if_neg (by simp only [Bool.or_eq_true, decide_eq_true_eq, not_or, not_lt]; exact ⟨((h0 _).2 ha).le, ((h1 _).2 hb).le⟩)]
      exact if_neg (by simp only [Bool.or_eq_true, decide_eq_true_eq, not_or, not_le]; exact ⟨(h0 _).2 ha, (h1 _).2 hb⟩)
  · simp only [Option.map_some, checkFilterRange, choosePass, iirfilterCheck, PassBand.limits, bind, Except.bind, Option.any_some,
      bandFor, Option.some.injEq, List.any_cons, List.any_nil, Bool.or_false]
    constructor
    · intro h
      split_ifs at h with c1 c2 c3 c4
      · simp only [Bool.or_eq_true, decide_eq_true_eq, not_or, not_le] at c4
        refine ⟨⟨.inl (by simp), ?_, ?_, ?_⟩, by cases h; rfl⟩
        · rintro z hz
          cases hz
          exact ⟨(h0 _).1 c4.1.1, (h1 _).1 c4.1.2⟩
        · rintro z hz
          cases hz
          exact ⟨(h0 _).1 c4.2.1, (h1 _).1 c4.2.2⟩
        · rintro u v hu hv
          cases hu
          cases hv
          exact (h2 _ _).1 (not_le.1 c3)
    · rintro ⟨⟨-, hx, hy, hxy⟩, rfl⟩
      obtain ⟨ha, hb⟩ := hx x rfl
      obtain ⟨hc, hd⟩ := hy y rfl
      have := hxy x y rfl rfl
      rw [if_neg (by simp only [Bool.or_eq_true, decide_eq_true_eq, not_or, not_lt]; exact ⟨((h0 _).2 ha).le, ((h1 _).2 hb).le⟩)]
      rw [if_neg (by simp only [Bool.or_eq_true, decide_eq_true_eq, not_or, not_lt]; exact ⟨((h0 _).2 hc).le, ((h1 _).2 hd).le⟩)]
      rw [if_neg (not_le.2 ((h2 _ _).2 this))]
      exact if_neg (by
        simp only [Bool.or_eq_true, decide_eq_true_eq, not_or, not_le]
        exact ⟨⟨(h0 _).2 ha, (h1 _).2 hb⟩, (h0 _).2 hc, (h1 _).2 hd⟩)

theorem samplingRate_even {m : CM} {d : String} {k : Kind} {s₀ s : ℚ} {n : ℕ} (hd : EvenAlong m d k s₀ s n) :
    samplingRate m d = .ok (1 / stepFloat k s) := by
  obtain ⟨_, stop, h⟩ := hd
  unfold samplingRate
  rw [h]

theorem rate_half (k : Kind) (s : ℚ) : 1 / stepFloat k s / 2 = nyquistOf k s := by
  unfold nyquistOf sampleSpacing stepFloat
  rw [div_right_comm]
  norm_num

theorem nyquist_pos {k : Kind} {s : ℚ} (h : 0 < s) : 0 < nyquistOf k s := by
  unfold nyquistOf sampleSpacing
  split_ifs <;> positivity

theorem linesBy_eachLine {K : Type} [Inhabited K] {f : List K → List K} {p : PatchM K} {d : String} (hf : ∀ l, (f l).length = l.length)
    (hsh : p.cm.shape = p.data.shape) (hd : d ∈ p.cm.dims) : LinesBy f p ⟨p.cm, p.data.eachLine f (p.cm.dims.idxOf d)⟩ d := by
  refine ⟨rfl, rfl, fun i hi => lineAt_eachLine hf (dim_axis hsh hd hi)⟩

theorem getFilterUnits_writes {lo hi : Option ℚ} {a b : PassLimit} (ha : LimitText lo a) (hb : LimitText hi b) (u : Option (Quant ℚ)) :
    getFilterUnits a.toFLimit b.toFLimit u = .ok (lo, hi) := by
  cases ha <;> cases hb <;> rfl

theorem checkSequence_writes {lo hi : Option ℚ} {a b : PassLimit} (ha : LimitText lo a) (hb : LimitText hi b) (h : lo ≠ none ∨ hi ≠ none) :
    checkFilterSequence (some [a, b]) = .ok (a, b) := by
  cases ha <;> cases hb <;> first | rfl | simp at h

end Verif
