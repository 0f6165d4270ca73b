import Verif.Model.CoordArray
import Verif.Proof.RangeSelect
import Mathlib.Data.List.Sort
/-! Lemmas on array coordinates. -/
namespace Verif
open Spec

/-! ### Counting in sorted lists -/

theorem countP_prefix {l : List ℚ} {p : ℚ → Bool} (h : l.Pairwise (fun x y => p y = true → p x = true)) :
    ∀ i (hi : i < l.length), (p l[i] = true ↔ i < l.countP p) := by
  induction l with
  | nil => intro i hi; simp at hi
  | cons a r ih =>
    rw [List.pairwise_cons] at h
    intro i hi
    by_cases ha : p a = true
    · rw [List.countP_cons_of_pos ha]
      cases i with
      | zero => simp [ha]
      | succ i =>
        have := ih h.2 i (by simpa using hi)
        simp only [List.getElem_cons_succ, this]; omega
    · rw [List.countP_cons_of_neg ha]
      have h0 : r.countP p = 0 := by
        rw [List.countP_eq_zero]
        intro x hx hpx
        exact ha (h.1 x hx hpx)
      rw [h0]
      cases i with
      | zero => simp [ha]
      | succ i =>
        have hx : r[i]'(by simpa using hi) ∈ r := List.getElem_mem _
        simp only [List.getElem_cons_succ]
        constructor
        · intro hp; exact absurd (h.1 _ hx hp) ha
        · intro hh; omega

theorem searchLeft_spec {l : List ℚ} (h : l.Pairwise (· ≤ ·)) (v : ℚ) (i : ℕ) (hi : i < l.length) :
    l[i] < v ↔ i < searchLeft l v := by
  have := countP_prefix (l := l) (p := fun x => decide (x < v))
    (h.imp fun {a b} hab hb => by simp only [decide_eq_true_eq] at *; linarith) i hi
  simpa [searchLeft] using this

theorem searchRight_spec {l : List ℚ} (h : l.Pairwise (· ≤ ·)) (v : ℚ) (i : ℕ) (hi : i < l.length) :
    l[i] ≤ v ↔ i < searchRight l v := by
  have := countP_prefix (l := l) (p := fun x => decide (x ≤ v))
    (h.imp fun {a b} hab hb => by simp only [decide_eq_true_eq] at *; linarith) i hi
  simpa [searchRight] using this

theorem searchLeft_le (l : List ℚ) (v : ℚ) : searchLeft l v ≤ l.length := List.countP_le_length
theorem searchRight_le (l : List ℚ) (v : ℚ) : searchRight l v ≤ l.length := List.countP_le_length
theorem searchLeft_le_right (l : List ℚ) (v : ℚ) : searchLeft l v ≤ searchRight l v := by
  apply List.countP_mono_left
  intro x _ hx
  simp only [decide_eq_true_eq] at *
  exact hx.le

theorem searchRight_strict {l : List ℚ} (h : l.Pairwise (· < ·)) (v : ℚ) :
    searchRight l v ≤ searchLeft l v + 1 := by
  by_contra hc
  have hr := searchRight_le l v
  have hle : l.Pairwise (· ≤ ·) := h.imp le_of_lt
  have h1 : l[searchLeft l v]'(by omega) ≤ v := (searchRight_spec hle v _ (by omega)).2 (by omega)
  have h2 : l[searchLeft l v + 1]'(by omega) ≤ v := (searchRight_spec hle v _ (by omega)).2 (by omega)
  have h3 : ¬ l[searchLeft l v]'(by omega) < v := fun hh => by
    have := (searchLeft_spec hle v _ (by omega)).1 hh; omega
  have h4 : l[searchLeft l v]'(by omega) < l[searchLeft l v + 1]'(by omega) :=
    List.pairwise_iff_getElem.1 h _ _ _ _ (by omega)
  linarith

/-! ### filters as slices -/

theorem filter_eq_drop_take {l : List ℚ} {p : ℚ → Bool} {a b : ℕ} (hb : b ≤ l.length)
    (hp : ∀ i (hi : i < l.length), (p l[i] = true ↔ a ≤ i ∧ i < b)) :
    l.filter p = (l.drop a).take (b - a) := by
  have hl : l = (List.range l.length).map (fun i => l.getD i 0) := by
    apply List.ext_getElem
    · simp
    · intro i h1 h2; simp [List.getElem?_eq_getElem h1]
  conv_lhs => rw [hl]
  rw [List.filter_map]
  have := filter_range_interval l.length (p ∘ fun i => l.getD i 0) a b hb (by
    intro i hi
    have := hp i hi
    simpa [List.getElem?_eq_getElem hi] using this)
  rw [this]
  by_cases hab : a ≤ b
  · rw [← takeIdx_range']
    apply List.map_injective_iff.2 (Option.some_injective ℚ)
    rw [takeIdx_of_lt (by intro i hi; simp [List.mem_range'] at hi; omega), List.map_map]
    apply List.map_congr_left
    intro i hi
    simp only [List.mem_range'] at hi
    have : i < l.length := by omega
    simp [List.getElem?_eq_getElem this]
  · have : b - a = 0 := by omega
    simp [this]

/-! ### strictness checks -/

theorem strictInc_iff (l : List ℚ) : strictInc l = true ↔ l.Pairwise (· < ·) := by
  induction l with
  | nil => simp [strictInc]
  | cons a r ih =>
    cases r with
    | nil => simp [strictInc]
    | cons b r =>
      rw [strictInc, Bool.and_eq_true, ih, List.pairwise_cons (a := a)]
      simp only [decide_eq_true_eq]
      constructor
      · rintro ⟨h1, h2⟩
        refine ⟨?_, h2⟩
        intro x hx
        rcases List.mem_cons.1 hx with rfl | hx
        · exact h1
        · exact h1.trans ((List.pairwise_cons.1 h2).1 x hx)
      · rintro ⟨h1, h2⟩
        exact ⟨h1 b (by simp), h2⟩

theorem strictDec_iff (l : List ℚ) : strictDec l = true ↔ l.Pairwise (· > ·) := by
  induction l with
  | nil => simp [strictDec]
  | cons a r ih =>
    cases r with
    | nil => simp [strictDec]
    | cons b r =>
      rw [strictDec, Bool.and_eq_true, ih, List.pairwise_cons (a := a)]
      simp only [decide_eq_true_eq]
      constructor
      · rintro ⟨h1, h2⟩
        refine ⟨?_, h2⟩
        intro x hx
        rcases List.mem_cons.1 hx with rfl | hx
        · exact h1
        · exact lt_trans ((List.pairwise_cons.1 h2).1 x hx) h1
      · rintro ⟨h1, h2⟩
        exact ⟨h1 b (by simp), h2⟩

theorem isReverse_of_inc {l : List ℚ} (h : l.Pairwise (· < ·)) : MonoCoord.isReverse l = false := by
  unfold MonoCoord.isReverse
  rw [List.any_eq_false]
  intro p hp
  obtain ⟨i, hi, rfl⟩ := List.getElem_of_mem hp
  simp only [List.length_zip, List.length_tail] at hi
  have := List.pairwise_iff_getElem.1 h i (i + 1) (by omega) (by omega) (by omega)
  simp only [List.getElem_zip, List.getElem_tail, decide_eq_true_eq, not_lt]
  exact this.le

theorem isReverse_of_dec {l : List ℚ} (h : l.Pairwise (· > ·)) (hl : 2 ≤ l.length) :
    MonoCoord.isReverse l = true := by
  unfold MonoCoord.isReverse
  match l, h, hl with
  | a :: b :: r, h, _ =>
    have : b < a := (List.pairwise_cons.1 h).1 b (by simp)
    simp [this]

theorem isSorted_of_inc {l : List ℚ} (h : l.Pairwise (· < ·)) (hl : 1 ≤ l.length) :
    MonoCoord.isSorted l = true := by
  unfold MonoCoord.isSorted
  match l, h, hl with
  | [a], h, _ => simp
  | a :: b :: r, h, _ =>
    have : a < b := (List.pairwise_cons.1 h).1 b (by simp)
    simp [this]

theorem isSorted_of_dec {l : List ℚ} (h : l.Pairwise (· > ·)) (hl : 2 ≤ l.length) :
    MonoCoord.isSorted l = false := by
  unfold MonoCoord.isSorted
  rw [Bool.or_eq_false_iff]
  constructor
  · rw [List.any_eq_false]
    intro p hp
    obtain ⟨i, hi, rfl⟩ := List.getElem_of_mem hp
    simp only [List.length_zip, List.length_tail] at hi
    have := List.pairwise_iff_getElem.1 h i (i + 1) (by omega) (by omega) (by omega)
    simp only [List.getElem_zip, List.getElem_tail, decide_eq_true_eq, not_lt]
    exact le_of_lt this
  · simp; omega

/-! ### monotonic select -/

namespace MonoCoord

/-- The lower index of a select: from it on, samples are past the first limit. -/
theorem getIndexV_back (l : List ℚ) (v : ℚ) : getIndexV l v false =
    searchLeft (if isReverse l then l.map (fun x => -x) else l) (if isReverse l then -v else v) := by
  unfold getIndexV
  simp

theorem select_core {kind : Kind} {l : List ℚ} (S T : ℕ) (hS : S ≤ l.length) (hT : T ≤ l.length)
    (p : ℚ → Bool) (hp : ∀ i (hi : i < l.length), (p l[i] = true ↔ S ≤ i ∧ i < T))
    (newStart newStop : Option ℤ)
    (h1 : newStart = some (S : ℤ) ∨ (newStart = none ∧ S = 0))
    (h2 : newStop = some (T : ℤ) ∨ (newStop = none ∧ T = l.length)) :
    ∃ sl, pySlice l sl = .ok (l.filter p) ∧
      (if sliceDegenerate l.length newStart newStop then Except.ok (Coord.part 0, (⟨some 0, some 0, none⟩ : PySlice))
       else do
        let sub ← pySlice l ⟨newStart, newStop, none⟩
        let c ← getCoordData kind sub
        return (c, ⟨newStart, newStop, none⟩)) = (getCoordData kind (l.filter p)).map (·, sl) := by
  have hf := filter_eq_drop_take (l := l) (p := p) hT hp
  have hsl : pySlice l ⟨newStart, newStop, none⟩ = .ok (l.filter p) := by
    rw [hf]
    apply pySlice_unit
    · rcases h1 with h | ⟨h, h'⟩ <;> rw [h]
      · simp [clipBound]; omega
      · simp [h']
    · rcases h2 with h | ⟨h, h'⟩ <;> rw [h]
      · simp [clipBound]; omega
      · simp [h']
  by_cases hd : sliceDegenerate l.length newStart newStop = true
  · have hnil : l.filter p = [] := by
      rw [hf]
      unfold sliceDegenerate at hd
      have : T ≤ S ∨ l.length ≤ S := by
        rcases h1 with h1 | ⟨h1, h1'⟩ <;> rcases h2 with h2 | ⟨h2, h2'⟩ <;> simp [h1, h2] at hd <;> omega
      rcases this with h | h
      · simp [Nat.sub_eq_zero_of_le h]
      · simp [List.drop_eq_nil_of_le h]
    refine ⟨⟨some 0, some 0, none⟩, ?_, ?_⟩
    · rw [hnil]
      have := pySlice_unit l 0 0 (some 0) (some 0) (by simp [clipBound]) (by simp [clipBound])
      simpa using this
    · rw [if_pos hd, hnil]; rfl
  · refine ⟨⟨newStart, newStop, none⟩, hsl, ?_⟩
    rw [if_neg hd, hsl]
    simp only [bind, Except.bind, pure, Except.pure]
    cases getCoordData kind (l.filter p) <;> rfl

theorem stop_inc {l : List ℚ} (h : l.Pairwise (· < ·)) (v : ℚ) (s : Option ℤ)
    (hs : s = bumpStop l (some v)
      (if getIndexV l v true < l.length then some ((getIndexV l v true : ℕ) : ℤ) else none)) :
    s = some (searchRight l v : ℤ) ∨ (s = none ∧ searchRight l v = l.length) := by
  have hrev := isReverse_of_inc h
  have hle : l.Pairwise (· ≤ ·) := h.imp le_of_lt
  have hL := searchLeft_le l v
  have hRn := searchRight_le l v
  have hLR := searchLeft_le_right l v
  have hS := searchRight_strict h v
  by_cases hc : 0 < searchLeft l v ∧ ∃ hh : searchLeft l v < l.length, l[searchLeft l v] = v
  · obtain ⟨h0, hlt, heq⟩ := hc
    have hR : searchRight l v = searchLeft l v + 1 := by
      have := (searchRight_spec hle v _ hlt).1 heq.le
      omega
    have hg : getIndexV l v true = searchLeft l v := by
      unfold getIndexV
      simp only [hrev, Bool.false_eq_true, if_false, Bool.not_false, Bool.true_and, if_true, hlt, h0,
        decide_true, min_eq_left (show searchLeft l v ≤ l.length - 1 by omega), List.getElem?_eq_getElem hlt, heq]
    left
    rw [hs, hg]
    simp [hlt, bumpStop, heq, hR]
  · have hg : getIndexV l v true = searchRight l v := by
      unfold getIndexV
      simp only [hrev, Bool.false_eq_true, if_false, Bool.not_false, Bool.true_and, if_true]
      rw [if_neg]
      simp only [Bool.and_eq_true, decide_eq_true_eq]
      rintro ⟨⟨h1, h2⟩, h3⟩
      apply hc
      refine ⟨h2, h1, ?_⟩
      rw [min_eq_left (by omega), List.getElem?_eq_getElem h1] at h3
      simpa using h3
    rw [hg] at hs
    by_cases hlt : searchRight l v < l.length
    · left
      have : ¬ l[searchRight l v] = v := by
        intro hh
        have := (searchRight_spec hle v _ hlt).1 hh.le
        omega
      rw [hs]
      simp [hlt, bumpStop, this]
    · right
      rw [hs]
      simp [hlt, bumpStop]
      omega

theorem stop_dec {l : List ℚ} (h : l.Pairwise (· > ·)) (hl : 2 ≤ l.length) (v : ℚ) (s : Option ℤ)
    (hs : s = bumpStop l (some v)
      (if getIndexV l v true < l.length then some ((getIndexV l v true : ℕ) : ℤ) else none)) :
    s = some (searchRight (l.map fun x => -x) (-v) : ℤ) ∨
      (s = none ∧ searchRight (l.map fun x => -x) (-v) = l.length) := by
  have hrev := isReverse_of_dec h hl
  have hle : (l.map fun x => -x).Pairwise (· ≤ ·) := by
    rw [List.pairwise_map]; exact h.imp fun {a b} hab => by simp only [neg_le_neg_iff]; exact le_of_lt hab
  have hRn := searchRight_le (l.map fun x => -x) (-v)
  have hg : getIndexV l v true = searchRight (l.map fun x => -x) (-v) := by
    unfold getIndexV
    simp [hrev]
  rw [List.length_map] at hRn
  rw [hg] at hs
  by_cases hlt : searchRight (l.map fun x => -x) (-v) < l.length
  · left
    have : ¬ l[searchRight (l.map fun x => -x) (-v)] = v := by
      intro hh
      have := (searchRight_spec hle (-v) _ (by simpa using hlt)).1 (by simp [hh])
      omega
    rw [hs]
    simp [hlt, bumpStop, this]
  · right
    rw [hs]
    simp [hlt, bumpStop]
    omega

/-- Exactness of `select` on a strictly monotonic array. -/
theorem select_spec (kind : Kind) (l : List ℚ) (hl : l.Pairwise (· < ·) ∨ l.Pairwise (· > ·))
    (a b : Option ℚ) :
    ∃ sl, pySlice l sl = .ok (samplesBetween 0 a b l) ∧
      select kind l (a, b) = (getCoordData kind (samplesBetween 0 a b l)).map (·, sl) := by
  -- lists of at most one element count as increasing
  have hl : l.Pairwise (· < ·) ∨ (l.Pairwise (· > ·) ∧ 2 ≤ l.length) := by
    rcases hl with h | h
    · exact Or.inl h
    · by_cases h2 : 2 ≤ l.length
      · exact Or.inr ⟨h, h2⟩
      · left
        match l, h2 with
        | [], _ => simp
        | [a], _ => simp
        | _ :: _ :: _, h2 => simp at h2
  have hbt := fun x => RangeCoord.between_iff_orderPair 0 a b x
  unfold samplesBetween select
  generalize orderPair (a, b) = p at hbt ⊢
  obtain ⟨lo, hi⟩ := p
  simp only at hbt ⊢
  rcases hl with h | ⟨h, h2⟩
  · have hrev := isReverse_of_inc h
    have hle : l.Pairwise (· ≤ ·) := h.imp le_of_lt
    simp only [hrev, Bool.false_eq_true, if_false]
    obtain ⟨S, hSdef⟩ : ∃ S, S = (lo.map (searchLeft l)).getD 0 := ⟨_, rfl⟩
    obtain ⟨T, hTdef⟩ : ∃ T, T = (hi.map (searchRight l)).getD l.length := ⟨_, rfl⟩
    apply select_core S T
    · cases lo with
      | none => simp [hSdef]
      | some v => rw [hSdef]; exact searchLeft_le l v
    · cases hi with
      | none => simp [hTdef]
      | some v => rw [hTdef]; exact searchRight_le l v
    · intro i hi'
      rw [decide_eq_true_eq, hbt]
      apply and_congr
      · cases lo with
        | none => simp [RangeCoord.Lo, hSdef]
        | some v =>
          have := searchLeft_spec hle v i hi'
          simp only [RangeCoord.Lo, Option.some.injEq, forall_eq', sub_zero, hSdef, Option.map_some, Option.getD_some]
          rw [← not_lt, this, not_lt]
      · cases hi with
        | none => simp [RangeCoord.Hi, hTdef, hi']
        | some v =>
          have := searchRight_spec hle v i hi'
          simpa [RangeCoord.Hi, hTdef] using this
    · cases lo with
      | none => right; simp [hSdef]
      | some v =>
        simp only [Option.map_some, getIndexV_back, hrev, Bool.false_eq_true, if_false, hSdef]
        by_cases h0 : 0 < searchLeft l v
        · simp [h0]
        · right; simp; omega
    · cases hi with
      | none => right; simp [hTdef, bumpStop]
      | some v => rw [hTdef]; exact stop_inc h v _ rfl
  · have hrev := isReverse_of_dec h h2
    have hle : (l.map fun x => -x).Pairwise (· ≤ ·) := by
      rw [List.pairwise_map]; exact h.imp fun {a b} hab => by simp only [neg_le_neg_iff]; exact le_of_lt hab
    simp only [hrev, if_true]
    obtain ⟨S, hSdef⟩ : ∃ S, S = (hi.map fun v => searchLeft (l.map fun x => -x) (-v)).getD 0 := ⟨_, rfl⟩
    obtain ⟨T, hTdef⟩ : ∃ T, T = (lo.map fun v => searchRight (l.map fun x => -x) (-v)).getD l.length := ⟨_, rfl⟩
    apply select_core S T
    · cases hi with
      | none => simp [hSdef]
      | some v => simpa [hSdef] using searchLeft_le (l.map fun x => -x) (-v)
    · cases lo with
      | none => simp [hTdef]
      | some v => simpa [hTdef] using searchRight_le (l.map fun x => -x) (-v)
    · intro i hi'
      rw [decide_eq_true_eq, hbt, and_comm]
      apply and_congr
      · cases hi with
        | none => simp [RangeCoord.Hi, hSdef]
        | some v =>
          have := searchLeft_spec hle (-v) i (by simpa using hi')
          simp only [List.getElem_map, neg_lt_neg_iff] at this
          simp only [RangeCoord.Hi, Option.some.injEq, forall_eq', add_zero, hSdef, Option.map_some, Option.getD_some]
          rw [← not_lt, this, not_lt]
      · cases lo with
        | none => simp [RangeCoord.Lo, hTdef, hi']
        | some v =>
          have := searchRight_spec hle (-v) i (by simpa using hi')
          simp only [List.getElem_map, neg_le_neg_iff] at this
          simpa [RangeCoord.Lo, hTdef] using this
    · cases hi with
      | none => right; simp [hSdef]
      | some v =>
        simp only [Option.map_some, getIndexV_back, hrev, if_true, hSdef]
        by_cases h0 : 0 < searchLeft (l.map fun x => -x) (-v)
        · simp [h0]
        · right; simp; omega
    · cases lo with
      | none => right; simp [hTdef, bumpStop]
      | some v => rw [hTdef]; exact stop_dec h h2 v _ rfl

end MonoCoord
end Verif
