import Verif.Spec.Moving
import Verif.Proof.Gaps
import Verif.Props.CoordLimits
import Verif.Proof.Units
import Verif.Proof.Correlate
import Verif.Proof.Concat
import Mathlib.Tactic.LinearCombination
/-! # Moving windows -/
namespace Verif
open Spec

/-! ### Lines beyond their ends -/

theorem reflect_lt {n : ℕ} (hn : 0 < n) (j : ℤ) : (if j % (2 * n) < n then j % (2 * n) else 2 * n - 1 - j % (2 * n)).toNat < n := by
  have h1 : 0 ≤ j % (2 * (n : ℤ)) := Int.emod_nonneg _ (by omega)
  have h2 : j % (2 * (n : ℤ)) < 2 * n := Int.emod_lt_of_pos _ (by omega)
  split_ifs <;> omega

theorem mirror_lt {n : ℕ} (hn : 0 < n) (j : ℤ) : (if j % (2 * n - 2) < n then j % (2 * n - 2) else 2 * n - 2 - j % (2 * (n : ℤ) - 2)).toNat < n := by
  by_cases h1 : n = 1
  · subst h1
    norm_num
    split_ifs <;> omega
  · have h3 : 0 ≤ j % (2 * (n : ℤ) - 2) := Int.emod_nonneg _ (by omega)
    have h4 : j % (2 * (n : ℤ) - 2) < 2 * n - 2 := Int.emod_lt_of_pos _ (by omega)
    split_ifs <;> omega

theorem line_getD_mem {l : List ℚ} {k : ℕ} (h : k < l.length) : l.getD k 0 ∈ l := by
  rw [List.getD_eq_getElem?_getD, List.getElem?_eq_getElem h]
  exact List.getElem_mem h

theorem extendAt_mem {mode : BoundaryMode} (hm : ∀ c, mode ≠ .constant c) {l : List ℚ} (hl : l ≠ []) (j : ℤ) : extendAt mode l j ∈ l := by
  have hn : 0 < l.length := List.length_pos_iff.2 hl
  cases mode with
  | reflect => exact line_getD_mem (reflect_lt hn j)
  | constant c => exact absurd rfl (hm c)
  | nearest => exact line_getD_mem (by omega)
  | mirror => exact line_getD_mem (mirror_lt hn j)
  | wrap =>
    refine line_getD_mem ?_
    have h1 : 0 ≤ j % (l.length : ℤ) := Int.emod_nonneg _ (by omega)
    have h2 : j % (l.length : ℤ) < l.length := Int.emod_lt_of_pos _ (by omega)
    omega

theorem extendAt_inside (mode : BoundaryMode) (l : List ℚ) {j : ℤ} (h0 : 0 ≤ j) (h1 : j < l.length) : extendAt mode l j = l.getD j.toNat 0 := by
  cases mode with
  | reflect =>
    simp only [extendAt]
    rw [Int.emod_eq_of_lt h0 (by omega), if_pos h1]
  | constant c => simp only [extendAt]; rw [if_pos ⟨h0, h1⟩]
  | nearest => simp only [extendAt]; congr 2; omega
  | mirror =>
    simp only [extendAt]
    by_cases hn : l.length = 1
    · have : j = 0 := by omega
      subst this
      simp [hn]
    · by_cases hj : j = 2 * l.length - 2
      · omega
      · rw [Int.emod_eq_of_lt h0 (by omega), if_pos h1]
  | wrap => simp only [extendAt]; rw [Int.emod_eq_of_lt h0 h1]

theorem extendAt_extends (mode : BoundaryMode) {l : List ℚ} (hl : l ≠ []) : Extends mode l (extendAt mode l) := by
  have hn : 0 < l.length := List.length_pos_iff.2 hl
  refine ⟨?_, ?_, ?_, ?_, ?_, ?_⟩
  · intro j hj
    rw [extendAt_inside _ _ (by omega) (by omega), List.getD_eq_getElem?_getD, Int.toNat_natCast, List.getElem?_eq_getElem hj]
    rfl
  · rintro rfl
    refine ⟨fun j => ?_, fun j => ?_⟩
    · simp only [extendAt]
      congr 1
      have h1 : 0 ≤ j % (2 * (l.length : ℤ)) := Int.emod_nonneg _ (by omega)
      have h2 : j % (2 * (l.length : ℤ)) < 2 * l.length := Int.emod_lt_of_pos _ (by omega)
      have h3 : (-1 - j) % (2 * (l.length : ℤ)) = 2 * l.length - 1 - j % (2 * l.length) := by
        have h4 : -1 - j = (2 * (l.length : ℤ) - 1 - j % (2 * l.length)) + 2 * l.length * (-(j / (2 * l.length)) - 1) := by
          have h5 := Int.emod_add_mul_ediv j (2 * l.length)
          linear_combination h5
        rw [h4, Int.add_mul_emod_self_left, Int.emod_eq_of_lt (by omega) (by omega)]
      rw [h3]
      split_ifs <;> omega
    · simp only [extendAt]
      rw [Int.add_emod_right]
  · rintro c rfl j hj
    simp only [extendAt]
    rw [if_neg (by omega)]
  · rintro rfl
    refine ⟨fun j hj => ?_, fun j hj => ?_⟩ <;> (simp only [extendAt]; congr 2; omega)
  · rintro rfl
    refine ⟨fun j => ?_, fun j => ?_⟩
    · simp only [extendAt]
      congr 1
      by_cases hn1 : l.length = 1
      · simp only [hn1]
        norm_num
        split_ifs <;> omega
      · have h1 : 0 ≤ j % (2 * (l.length : ℤ) - 2) := Int.emod_nonneg _ (by omega)
        have h2 : j % (2 * (l.length : ℤ) - 2) < 2 * l.length - 2 := Int.emod_lt_of_pos _ (by omega)
        have h5 := Int.emod_add_mul_ediv j (2 * l.length - 2)
        by_cases hr : j % (2 * (l.length : ℤ) - 2) = 0
        · have h4 : -j = 0 + (2 * (l.length : ℤ) - 2) * (-(j / (2 * l.length - 2))) := by
            rw [hr] at h5
            linear_combination h5
          rw [h4, Int.add_mul_emod_self_left, hr]
          simp
        · have h4 : -j = ((2 * (l.length : ℤ) - 2) - j % (2 * l.length - 2)) + (2 * l.length - 2) * (-(j / (2 * l.length - 2)) - 1) := by
            linear_combination h5
          rw [h4, Int.add_mul_emod_self_left, Int.emod_eq_of_lt (a := (2 * (l.length : ℤ) - 2) - j % (2 * l.length - 2)) (by omega) (by omega)]
          split_ifs <;> omega
    · simp only [extendAt]
      rw [Int.add_emod_right]
  · rintro rfl j
    simp only [extendAt]
    rw [Int.add_emod_right]

/-! ### The value of a window -/

theorem windowValue_scipy {sd : List ℚ → ℚ} {op : MoveOp} {ws : List ℚ} (h0 : ws ≠ []) (hs : op ≠ .std) (hm : op = .median → ws.length % 2 = 1) :
    WindowValue sd op ws (op.ofScipy ws) := by
  have hn : (ws.length : ℚ) ≠ 0 := by
    have := List.length_pos_iff.2 h0
    positivity
  cases op with
  | median =>
    have h := npMedian_isMedian ws
    simp only [npMedian, if_pos (hm rfl)] at h
    exact h
  | mean => rfl
  | std => exact absurd rfl hs
  | sum =>
    simp only [WindowValue, MoveOp.ofScipy]
    field_simp
  | least => exact foldl_min_isMin h0
  | greatest => exact foldl_max_isMax h0

theorem windowValue_bottleneck (sd : List ℚ → ℚ) (op : MoveOp) {ws : List ℚ} (h0 : ws ≠ []) : WindowValue sd op ws (op.ofBottleneck sd ws) := by
  cases op with
  | median => exact npMedian_isMedian ws
  | mean => rfl
  | std => rfl
  | sum => rfl
  | least => exact foldl_min_isMin h0
  | greatest => exact foldl_max_isMax h0

theorem windowValue_unique {sd : List ℚ → ℚ} {op : MoveOp} {ws : List ℚ} {x y : ℚ} (h : WindowValue sd op ws x) (h' : WindowValue sd op ws y) : x = y := by
  cases op with
  | median => exact isMedian_unique h h'
  | mean => exact h.trans h'.symm
  | std => exact h.trans h'.symm
  | sum => exact h.trans h'.symm
  | least => exact le_antisymm (h.2 _ h'.1) (h'.2 _ h.1)
  | greatest => exact le_antisymm (h'.2 _ h.1) (h.2 _ h'.1)

theorem sum_bounds {lo hi : ℚ} : ∀ {l : List ℚ}, (∀ x ∈ l, lo ≤ x ∧ x ≤ hi) → lo * l.length ≤ l.sum ∧ l.sum ≤ hi * l.length
  | [], _ => by simp
  | x :: l, h => by
    have h1 := h x (by simp)
    have h2 := sum_bounds (l := l) fun y hy => h y (by simp [hy])
    simp only [List.sum_cons, List.length_cons, Nat.cast_add, Nat.cast_one]
    constructor <;> nlinarith [h1.1, h1.2, h2.1, h2.2]

theorem mean_bounds {lo hi : ℚ} {l : List ℚ} (h0 : l ≠ []) (h : ∀ x ∈ l, lo ≤ x ∧ x ≤ hi) : lo ≤ l.sum / l.length ∧ l.sum / l.length ≤ hi := by
  have hn : (0 : ℚ) < l.length := by exact_mod_cast List.length_pos_iff.2 h0
  have := sum_bounds h
  exact ⟨(le_div_iff₀ hn).2 this.1, (div_le_iff₀ hn).2 this.2⟩

theorem ofScipy_bounds {lo hi : ℚ} {op : MoveOp} (h1 : op ≠ .sum) (h2 : op ≠ .std) {l : List ℚ} (h0 : l ≠ []) (h : ∀ x ∈ l, lo ≤ x ∧ x ≤ hi) :
    lo ≤ op.ofScipy l ∧ op.ofScipy l ≤ hi := by
  cases op with
  | median => exact h _ (sort_getD_mem (Nat.div_lt_self (List.length_pos_iff.2 h0) (by norm_num)))
  | mean => exact mean_bounds h0 h
  | std => exact absurd rfl h2
  | sum => exact absurd rfl h1
  | least => exact h _ (foldl_min_isMin h0).1
  | greatest => exact h _ (foldl_max_isMax h0).1

theorem median_bounds {lo hi : ℚ} {l : List ℚ} (h0 : l ≠ []) (h : ∀ x ∈ l, lo ≤ x ∧ x ≤ hi) : lo ≤ npMedian false l ∧ npMedian false l ≤ hi := by
  have hp := List.length_pos_iff.2 h0
  have e := npMedian_isMedian l _ (sort_perm l) (sort_sorted l)
  have a := h _ (sort_getD_mem (l := l) (i := (l.length - 1) / 2) (by omega))
  have b := h _ (sort_getD_mem (l := l) (i := l.length / 2) (by omega))
  rw [e]
  constructor <;> linarith [a.1, a.2, b.1, b.2]

theorem ofBottleneck_bounds {sd : List ℚ → ℚ} {lo hi : ℚ} {op : MoveOp} (h1 : op ≠ .sum) (h2 : op ≠ .std) {l : List ℚ} (h0 : l ≠ [])
    (h : ∀ x ∈ l, lo ≤ x ∧ x ≤ hi) : lo ≤ op.ofBottleneck sd l ∧ op.ofBottleneck sd l ≤ hi := by
  cases op with
  | median => exact median_bounds h0 h
  | mean => exact mean_bounds h0 h
  | std => exact absurd rfl h2
  | sum => exact absurd rfl h1
  | least => exact h _ (foldl_min_isMin h0).1
  | greatest => exact h _ (foldl_max_isMax h0).1

/-! ### The windows -/

theorem scipyWindow_length (mode : BoundaryMode) (o : ℤ) (w : ℕ) (l : List ℚ) (i : ℕ) : (scipyWindow mode o w l i).length = w := by simp [scipyWindow]

theorem scipyWindow_centred (mode : BoundaryMode) (l : List ℚ) {k h : ℕ} (h1 : h ≤ k) (h2 : k + h < l.length) :
    scipyWindow mode 0 (2 * h + 1) l k = centred l k h := by
  apply List.ext_getElem?
  intro t
  unfold scipyWindow centred
  by_cases ht : t < 2 * h + 1
  · rw [List.getElem?_map, List.getElem?_range ht, List.getElem?_take_of_lt ht, List.getElem?_drop, Option.map_some,
      extendAt_inside _ _ (by omega) (by omega), List.getD_eq_getElem?_getD, show ((k : ℤ) - ((2 * h + 1) / 2 : ℕ) - 0 + t).toNat = k - h + t by omega,
      List.getElem?_eq_getElem (show k - h + t < l.length by omega)]
    rfl
  · rw [List.getElem?_eq_none (by simp; omega), List.getElem?_eq_none (by simp; omega)]

theorem trailing_centred (l : List ℚ) {k h : ℕ} (h1 : h ≤ k) : trailingWindow (2 * h + 1) l (k + h) = centred l k h := by
  unfold trailingWindow centred
  rw [List.drop_take]
  congr 1
  · omega
  · congr 1; omega

theorem trailing_ne_nil {w : ℕ} (hw : 0 < w) {l : List ℚ} {i : ℕ} (hi : i < l.length) : trailingWindow w l i ≠ [] := by
  apply List.length_pos_iff.1
  simp [trailingWindow]
  omega

theorem trailing_mem {w : ℕ} {l : List ℚ} {i : ℕ} {x : ℚ} (h : x ∈ trailingWindow w l i) : x ∈ l := List.mem_of_mem_take (List.mem_of_mem_drop h)

theorem shiftResult_getD {w : ℕ} {r : List ℚ} (hw : w ≤ r.length) (i : ℕ) :
    (shiftResult w r).getD i 0 = r.getD (if i + w / 2 < r.length then i + w / 2 else i) 0 := by
  unfold shiftResult
  by_cases h0 : w / 2 = 0
  · rw [if_pos h0, h0]; simp
  · rw [if_neg h0]
    simp only [List.getD_eq_getElem?_getD]
    congr 1
    split_ifs with h
    · rw [List.getElem?_append_left (by simp; omega), List.getElem?_drop, Nat.add_comm]
    · rw [List.getElem?_append_right (by simp; omega), List.getElem?_drop]
      congr 1
      simp
      omega

theorem bottleneck_getD (sd : List ℚ → ℚ) (op : MoveOp) {w : ℕ} {l : List ℚ} (hw : w ≤ l.length) {i : ℕ} (hi : i < l.length) :
    (bottleneckLine sd op w l).getD i 0 = op.ofBottleneck sd (trailingWindow w l (if i + w / 2 < l.length then i + w / 2 else i)) := by
  unfold bottleneckLine
  rw [shiftResult_getD (by simpa using hw)]
  simp only [List.length_map, List.length_range]
  have : (if i + w / 2 < l.length then i + w / 2 else i) < l.length := by split_ifs <;> omega
  rw [List.getD_eq_getElem?_getD, List.getElem?_map, List.getElem?_range this]
  rfl

theorem scipyLine_ok {op : MoveOp} {mode : BoundaryMode} {o : ℤ} {w : ℕ} {l r : List ℚ} (h : scipyLine op mode o w l = .ok r) :
    r.length = l.length ∧ ∀ i, i < l.length → r.getD i 0 = op.ofScipy (scipyWindow mode o w l i) := by
  unfold scipyLine at h
  split_ifs at h
  cases h
  refine ⟨by simp, fun i hi => ?_⟩
  rw [List.getD_eq_getElem?_getD, List.getElem?_map, List.getElem?_range hi]
  rfl

theorem scipyLine_total (op : MoveOp) (mode : BoundaryMode) {o : ℤ} {w : ℕ} (h : 0 ≤ (w / 2 : ℕ) + o ∧ (w / 2 : ℕ) + o < w) (l : List ℚ) :
    ∃ r, scipyLine op mode o w l = .ok r := by
  unfold scipyLine
  rw [if_pos h]
  exact ⟨_, rfl⟩

/-- Success does not depend on the samples. -/
theorem engineLine_data {sd : List ℚ → ℚ} {bn : Bool} {op : MoveOp} {mode : BoundaryMode} {o : ℤ} {w : ℕ} {l r : List ℚ}
    (h : engineLine sd bn op mode o w l = .ok r) (l' : List ℚ) : ∃ r', engineLine sd bn op mode o w l' = .ok r' := by
  unfold engineLine scipyLine at *
  split_ifs at * <;> exact ⟨_, rfl⟩

/-- What a value of the result is the value of. -/
theorem engineLine_cases {sd : List ℚ → ℚ} {bn : Bool} {op : MoveOp} {mode : BoundaryMode} {o : ℤ} {w : ℕ} {l r : List ℚ}
    (h : engineLine sd bn op mode o w l = .ok r) : (scipyLine op mode o w l = .ok r ∧ (op = .std → bn = false)) ∨
      (bn = true ∧ mode = .reflect ∧ o = 0 ∧ r = bottleneckLine sd op w l) := by
  unfold engineLine at h
  have hn : needsScipy mode o = false → mode = .reflect ∧ o = 0 := by simp [needsScipy]
  split_ifs at h with h1 h2 h3 h4 h5
  · exact .inl ⟨h, fun _ => by simpa using h1⟩
  · exact .inl ⟨h, fun e => by rw [h2] at e; cases e⟩
  · cases h
    simp only [Bool.or_eq_true, not_or, Bool.not_eq_true] at h3
    exact .inr ⟨by simpa using h1, (hn h3.2).1, (hn h3.2).2, rfl⟩
  · exact .inl ⟨h, fun e => absurd e h5⟩
  · cases h
    exact .inr ⟨by simpa using h1, (hn (by simpa using h4)).1, (hn (by simpa using h4)).2, rfl⟩

/-- The value in the interior. -/
theorem engineLine_centred {sd : List ℚ → ℚ} {bn : Bool} {op : MoveOp} {mode : BoundaryMode} {h : ℕ} {l r : List ℚ} (hs : op = .std → bn = true)
    (hr : engineLine sd bn op mode 0 (2 * h + 1) l = .ok r) {k : ℕ} (h1 : h ≤ k) (h2 : k + h < l.length) :
    WindowValue sd op (centred l k h) (r.getD k 0) := by
  have hne : centred l k h ≠ [] := by
    apply List.length_pos_iff.1
    simp [centred]
    omega
  rcases engineLine_cases hr with ⟨e, hb⟩ | ⟨-, -, -, rfl⟩
  · rw [(scipyLine_ok e).2 k (by omega), scipyWindow_centred _ _ h1 h2]
    refine windowValue_scipy hne ?_ ?_
    · intro c
      have := hs c
      rw [hb c] at this
      cases this
    · intro _
      rw [← scipyWindow_centred .reflect _ h1 h2, scipyWindow_length]
      omega
  · rw [bottleneck_getD _ _ (by omega) (by omega), if_pos (by omega), show k + (2 * h + 1) / 2 = k + h by omega, trailing_centred _ h1]
    exact windowValue_bottleneck _ _ hne

theorem engineLine_bounds {sd : List ℚ → ℚ} {bn : Bool} {op : MoveOp} {mode : BoundaryMode} {o : ℤ} {w : ℕ} {l r : List ℚ} (h1 : op ≠ .sum)
    (h2 : op ≠ .std) (hm : ∀ c, mode ≠ .constant c) (h0 : 0 < w) (hw : w ≤ l.length) (hr : engineLine sd bn op mode o w l = .ok r) {lo hi : ℚ}
    (h : ∀ x ∈ l, lo ≤ x ∧ x ≤ hi) {k : ℕ} (hk : k < l.length) : lo ≤ r.getD k 0 ∧ r.getD k 0 ≤ hi := by
  have hl : l ≠ [] := List.length_pos_iff.1 (by omega)
  rcases engineLine_cases hr with ⟨e, hb⟩ | ⟨-, -, -, rfl⟩
  · rw [(scipyLine_ok e).2 k hk]
    refine ofScipy_bounds h1 h2 ?_ ?_
    · apply List.length_pos_iff.1
      rw [scipyWindow_length]
      exact h0
    · intro x hx
      obtain ⟨t, -, rfl⟩ := List.mem_map.1 hx
      exact h _ (extendAt_mem hm hl _)
  · rw [bottleneck_getD _ _ hw hk]
    exact ofBottleneck_bounds h1 h2 (trailing_ne_nil h0 (by split_ifs <;> omega)) fun x hx => h _ (trailing_mem hx)

/-! ### Arrays -/

theorem lineAt_length {α : Type} (a : Nd α) (axis : ℕ) (i : List ℕ) : (lineAt a axis i).length = a.shape.getD axis 0 := by simp [lineAt]

theorem lineAt_getD (a : Nd ℚ) (axis : ℕ) (i : List ℕ) {t : ℕ} (h : t < a.shape.getD axis 0) : (lineAt a axis i).getD t 0 = a.get (i.set axis t) := by
  rw [lineAt, List.getD_eq_getElem?_getD, List.getElem?_map, List.getElem?_range h]
  rfl

theorem axis_of_pos {sh : List ℕ} {axis : ℕ} (h : 0 < sh.getD axis 0) : axis < sh.length := by
  by_contra c
  rw [List.getD_eq_getElem?_getD, List.getElem?_eq_none (by omega)] at h
  exact absurd h (by simp)

theorem inRange_axis {sh i : List ℕ} (hi : InRange sh i) {axis : ℕ} (h : axis < sh.length) : i.getD axis 0 < sh.getD axis 0 := (inRange_iff.1 hi).2 axis h

theorem set_self_getD {i : List ℕ} {axis : ℕ} : i.set axis (i.getD axis 0) = i := by
  apply List.ext_getElem?
  intro k
  rw [List.getElem?_set]
  split_ifs with h1 h2
  · subst h1
    rw [List.getD_eq_getElem?_getD, List.getElem?_eq_getElem h2]
    rfl
  · subst h1
    exact (List.getElem?_eq_none (by omega)).symm
  · rfl

theorem lineAt_self (a : Nd ℚ) (axis : ℕ) {i : List ℕ} (h : i.getD axis 0 < a.shape.getD axis 0) : (lineAt a axis i).getD (i.getD axis 0) 0 = a.get i := by
  rw [lineAt_getD _ _ _ h, set_self_getD]

theorem getD_set_self {i : List ℕ} {axis t : ℕ} (h : axis < i.length) : (i.set axis t).getD axis 0 = t := by
  rw [List.getD_eq_getElem?_getD, List.getElem?_set, if_pos rfl, if_pos h]
  rfl

theorem lineAt_set {α : Type} (a : Nd α) (axis : ℕ) (i : List ℕ) (t : ℕ) : lineAt a axis (i.set axis t) = lineAt a axis i := by
  simp [lineAt]

theorem movingWindow_ok {sd : List ℚ → ℚ} {installed : Bool} {engine : MoveEngine} {a r : Nd ℚ} {w : ℤ} {op : MoveOp} {axis : ℕ} {mode : BoundaryMode}
    {o : ℤ} (h : movingWindow sd installed engine a w op axis mode o = .ok r) : 0 < w ∧ w ≤ a.shape.getD axis 0 ∧ r.shape = a.shape ∧
      (op = .std → (installed && (engine != .scipy)) = true) ∧
      ∀ i, ∃ l, engineLine sd (installed && (engine != .scipy)) op mode o w.toNat (lineAt a axis i) = .ok l ∧ r.get i = l.getD (i.getD axis 0) 0 := by
  unfold movingWindow at h
  split_ifs at h with h1 h2
  obtain ⟨bn, hb, h⟩ := bind_split h
  unfold selectEngine at hb
  simp only at hb
  split_ifs at hb with h3
  cases hb
  unfold Nd.mapLines at h
  split at h
  · cases h
  rename_i r0 hr0
  cases h
  refine ⟨by omega, by omega, rfl, ?_, ?_⟩
  · intro e
    simp only [e, decide_true, Bool.and_true, Bool.not_eq_true', Bool.not_eq_false] at h3
    exact h3
  · intro i
    obtain ⟨l, hl⟩ := engineLine_data hr0 (lineAt a axis i)
    refine ⟨l, hl, ?_⟩
    show (match engineLine sd (installed && (engine != .scipy)) op mode o w.toNat (lineAt a axis i) with
      | .ok r => r.getD (i.getD axis 0) 0
      | .error _ => 0) = _
    rw [hl]

theorem engineLine_total {sd : List ℚ → ℚ} {bn : Bool} {op : MoveOp} {mode : BoundaryMode} {o : ℤ} {w : ℕ} (l : List ℚ)
    (hs : op = .std → needsScipy mode o = false) (h : 0 ≤ (w / 2 : ℕ) + o ∧ (w / 2 : ℕ) + o < w) : ∃ r, engineLine sd bn op mode o w l = .ok r := by
  obtain ⟨r, hr⟩ := scipyLine_total op mode h l
  unfold engineLine
  split_ifs with h1 h2 h3 h4 h5
  · exact ⟨r, hr⟩
  · exact ⟨r, hr⟩
  · exact ⟨_, rfl⟩
  · rw [hs h5] at h4
    cases h4
  · exact ⟨r, hr⟩
  · exact ⟨_, rfl⟩

theorem movingWindow_total {sd : List ℚ → ℚ} {installed : Bool} {engine : MoveEngine} {a : Nd ℚ} {w : ℕ} {op : MoveOp} {axis : ℕ} {mode : BoundaryMode}
    {o : ℤ} (h0 : 0 < w) (hw : w ≤ a.shape.getD axis 0) (hs : op = .std → (installed && (engine != .scipy)) = true ∧ needsScipy mode o = false)
    (ho : 0 ≤ (w / 2 : ℕ) + o ∧ (w / 2 : ℕ) + o < w) : ∃ r, movingWindow sd installed engine a w op axis mode o = .ok r := by
  unfold movingWindow
  rw [if_neg (by omega), if_neg (by omega)]
  have hb : selectEngine installed engine op = .ok (installed && (engine != .scipy)) := by
    unfold selectEngine
    simp only
    rw [if_neg]
    intro h
    simp only [Bool.and_eq_true, decide_eq_true_eq] at h
    have := (hs h.2).1
    simp [this] at h
  rw [hb]
  simp only [bind, Except.bind]
  unfold Nd.mapLines
  obtain ⟨r, hr⟩ := engineLine_total (sd := sd) (bn := (installed && (engine != .scipy))) (List.replicate (a.shape.getD axis 0) 0) (fun h => (hs h).2) ho
  rw [show ((w : ℤ)).toNat = w from rfl, hr]
  exact ⟨_, rfl⟩

end Verif
