import Verif.Spec.Radians
import Mathlib.Data.List.Dedup
import Mathlib.Tactic.Ring
import Mathlib.Tactic.FieldSimp
/-! # Lemmas: radians and strain -/
namespace Verif
open Spec

theorem UnitWord.exp_not_mem {u : UnitWord} {n : String} (h : n ∉ u.map Prod.fst) : u.exp n = 0 := by
  unfold UnitWord.exp
  rw [List.filter_eq_nil_iff.2]
  · rfl
  · intro e he hc
    exact h (List.mem_map.2 ⟨e, he, by simpa using hc⟩)

theorem UnitWord.exp_of_names {l : List String} (hl : l.Nodup) (f : String → ℤ) (n : String) :
    UnitWord.exp ((l.map fun s => (s, f s)).filter fun e => e.2 != 0) n = if n ∈ l then f n else 0 := by
  induction l with
  | nil => rfl
  | cons s l ih =>
    rw [List.nodup_cons] at hl
    have ih := ih hl.2
    rw [List.map_cons, List.filter_cons]
    by_cases hs : f s = 0
    · simp only [hs, bne_self_eq_false, Bool.false_eq_true, if_false]
      rw [ih]
      by_cases hn : n = s
      · subst hn; simp [hl.1, hs]
      · simp [hn]
    · have hb : ((s, f s).2 != 0) = true := by simpa using hs
      rw [if_pos hb]
      have hcons : ∀ (e : String × ℤ) (r : UnitWord), UnitWord.exp (e :: r) n = (if e.1 = n then e.2 else 0) + UnitWord.exp r n := by
        intro e r
        unfold UnitWord.exp
        rw [List.filter_cons]
        by_cases he : e.1 = n
        · simp [he]
        · simp [he]
      rw [hcons, ih]
      by_cases hn : n = s
      · subst hn; simp [hl.1]
      · simp [hn, Ne.symm hn]

theorem UnitWord.exp_times (u v : UnitWord) (n : String) : (u.times v).exp n = u.exp n + v.exp n := by
  unfold UnitWord.times
  rw [UnitWord.exp_of_names (List.nodup_dedup _)]
  split_ifs with h
  · rfl
  · rw [List.mem_dedup, List.map_append, List.mem_append, not_or] at h
    rw [UnitWord.exp_not_mem h.1, UnitWord.exp_not_mem h.2]
    rfl

theorem UnitWord.mem_times {u v : UnitWord} {e : String × ℤ} (h : e ∈ u.times v) : (e.1 ∈ u.map Prod.fst ∨ e.1 ∈ v.map Prod.fst) ∧ e.2 = u.exp e.1 + v.exp e.1 ∧ e.2 ≠ 0 := by
  unfold UnitWord.times at h
  rw [List.mem_filter, List.mem_map] at h
  obtain ⟨⟨n, hn, rfl⟩, h2⟩ := h
  rw [List.mem_dedup, List.map_append, List.mem_append] at hn
  exact ⟨hn, rfl, by simpa using h2⟩

theorem saysRadian_iff {u : UnitWord} : u.saysRadian = true ↔ ∃ e ∈ u, UnitWord.saysRadian [e] = true := by
  unfold UnitWord.saysRadian
  simp only [List.any_eq_true, List.any_cons, List.any_nil, Bool.or_false]

theorem saysRadian_name {s : String} {a b : ℤ} : UnitWord.saysRadian [(s, a)] = UnitWord.saysRadian [(s, b)] := rfl

/-- Dividing by radians takes them out. -/
theorem radians_out {b : UnitWord} (h : RadiansOnce b) : (b.times [("strain", 1), ("radian", -1)]).saysRadian = false := by
  rw [Bool.eq_false_iff]
  intro hc
  obtain ⟨⟨n, k⟩, he, hr⟩ := saysRadian_iff.1 hc
  obtain ⟨h1, h2, h3⟩ := UnitWord.mem_times he
  by_cases hn : n = "radian"
  · subst hn
    apply h3
    rw [h2, h.1]
    show (1 : ℤ) + UnitWord.exp [("strain", 1), ("radian", -1)] "radian" = 0
    decide
  · rcases h1 with h1 | h1
    · obtain ⟨e, he', hen⟩ := List.mem_map.1 h1
      have := h.2 e he' (by rw [hen]; exact hn)
      obtain ⟨en, ek⟩ := e
      simp only at hen
      subst hen
      rw [saysRadian_name (b := ek)] at hr
      rw [hr] at this
      cases this
    · simp only [List.map_cons, List.map_nil, List.mem_cons, List.not_mem_nil, or_false] at h1
      rcases h1 with rfl | h1
      · rw [saysRadian_name (b := 1)] at hr
        revert hr
        decide +kernel
      · exact hn h1

/-- Radians which are there another number of times stay. -/
theorem radians_left {b : UnitWord} (h : b.exp "radian" ≠ 1) : (b.times [("strain", 1), ("radian", -1)]).saysRadian = true := by
  rw [saysRadian_iff]
  refine ⟨("radian", b.exp "radian" + UnitWord.exp [("strain", 1), ("radian", -1)] "radian"), ?_, by rw [saysRadian_name (b := 1)]; decide +kernel⟩
  have hm : UnitWord.exp [("strain", 1), ("radian", -1)] "radian" = -1 := by decide
  unfold UnitWord.times
  rw [List.mem_filter, List.mem_map]
  refine ⟨⟨"radian", ?_, rfl⟩, ?_⟩
  · rw [List.mem_dedup, List.map_append, List.mem_append]
    exact Or.inr (by simp)
  · rw [hm, bne_iff_ne]
    intro hc
    simp only at hc
    omega

theorem gauge_ok {p : RadPatch} {arg : Option (Option ℚ)} {g : ℚ} (h : IsGauge p arg g) (hg : 0 < g) : p.gaugeLength arg = .ok (some g) := by
  unfold RadPatch.gaugeLength
  rcases h with rfl | ⟨rfl, h⟩
  · simp only [Option.isSome_some, if_true]
    rw [if_neg (not_le.2 hg)]
  · simp only [Option.isSome_none, Bool.false_eq_true, if_false, h]
    rw [if_neg (not_le.2 hg)]

end Verif
