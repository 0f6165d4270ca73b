import Verif.Spec.Scale
import Verif.Proof.Moving
import Mathlib.Algebra.BigOperators.Intervals
import Mathlib.Algebra.Order.BigOperators.Ring.Finset
import Mathlib.Tactic.FieldSimp
/-! # Scaling lines: lemmas -/
namespace Verif
open Spec

section
variable {K : Type}

theorem present_eq (l : List (Option K)) : present l = known l := rfl

theorem known_map (f : K → K) (l : List (Option K)) : known (l.map (Option.map f)) = (known l).map f := by
  unfold known List.reduceOption
  induction l with
  | nil => rfl
  | cons a l ih => cases a <;> simp_all

theorem mem_known {l : List (Option K)} {x : K} : x ∈ known l ↔ some x ∈ l := by
  simp [known, List.reduceOption]

theorem known_map_congr {f g : K → K} {l : List (Option K)} (h : ∀ x ∈ known l, f x = g x) : l.map (Option.map f) = l.map (Option.map g) := by
  refine List.map_congr_left fun x hx => ?_
  cases x with
  | none => rfl
  | some x => simp [h x (mem_known.2 hx)]

theorem changed_id {f : K → K} {l r : List (Option K)} (hc : Changed f l r) (h : ∀ x ∈ known l, f x = x) : r = l := by
  rw [hc, known_map_congr (g := id) h]
  simp

end

/-! ### Arrays and patches -/

theorem lineAt_eachLine {α : Type} [Inhabited α] {f : List α → List α} {a : Nd α} {axis : ℕ} {i : List ℕ} (hf : ∀ l, (f l).length = l.length) (ha : axis < i.length) :
    lineAt (a.eachLine f axis) axis i = f (lineAt a axis i) := by
  have hlen : (f (lineAt a axis i)).length = a.shape.getD axis 0 := by rw [hf, lineAt_length]
  refine List.ext_getElem? fun t => ?_
  by_cases ht : t < a.shape.getD axis 0
  · unfold lineAt
    rw [List.getElem?_map, List.getElem?_range (by exact ht)]
    show some ((f (lineAt a axis (i.set axis t))).getD ((i.set axis t).getD axis 0) default) = _
    rw [lineAt_set, getD_set_self ha, List.getD_eq_getElem?_getD]
    have : t < (f (lineAt a axis i)).length := by omega
    show some ((f (lineAt a axis i))[t]?.getD default) = (f (lineAt a axis i))[t]?
    rw [List.getElem?_eq_getElem this]
    rfl
  · rw [List.getElem?_eq_none (by rw [lineAt_length]; show a.shape.getD axis 0 ≤ t; omega), List.getElem?_eq_none (by omega)]

theorem eachLine_ok {α : Type} [Inhabited α] {f : List α → List α} {p q : PatchM α} {d : String} (hf : ∀ l, (f l).length = l.length)
    (h : p.eachLine f d = .ok q) : d ∈ p.cm.dims ∧ q.cm = p.cm ∧ q.data.shape = p.data.shape ∧
      ∀ i, p.cm.dims.idxOf d < i.length → lineAt q.data (p.cm.dims.idxOf d) i = f (lineAt p.data (p.cm.dims.idxOf d) i) := by
  unfold PatchM.eachLine at h
  split_ifs at h with hd
  cases h
  exact ⟨hd, rfl, rfl, fun i hi => lineAt_eachLine hf hi⟩

section
variable {K : Type} [Field K] [LinearOrder K]

theorem normalizeLine_length (root : K → K) (bits : Option ℕ) (kind : NormKind) (l : List (Option K)) : (normalizeLine root bits kind l).length = l.length := by
  cases kind <;> simp [normalizeLine]

variable [IsStrictOrderedRing K]

omit [IsStrictOrderedRing K] in
theorem npAbs_eq {bits : Option ℕ} {v : List K} (h : NoLeast bits v) {x : K} (hx : x ∈ v) : npAbs bits x = |x| := by
  unfold npAbs
  cases bits with
  | none => rfl
  | some b =>
    show (if _ then _ else _) = _
    rw [if_neg]
    intro e
    exact h b rfl (e ▸ hx)

omit [Field K] [IsStrictOrderedRing K] in
theorem greatestOf_spec {l : List K} (hl : l ≠ []) : ∃ m, greatestOf l = some m ∧ m ∈ l ∧ ∀ x ∈ l, x ≤ m := by
  cases l with
  | nil => exact absurd rfl hl
  | cons a l =>
    refine ⟨_, rfl, ?_⟩
    clear hl
    induction l generalizing a with
    | nil => simp
    | cons b l ih =>
      obtain ⟨h1, h2⟩ := ih (max a b)
      show List.foldl max (max a b) l ∈ _ ∧ ∀ x ∈ _, x ≤ List.foldl max (max a b) l
      constructor
      · rcases List.mem_cons.1 h1 with e | e
        · rw [e]
          rcases max_choice a b with c | c <;> rw [c] <;> simp
        · simp [e]
      · intro x hx
        have hm := h2 (max a b) (by simp)
        rcases List.mem_cons.1 hx with e | e
        · rw [e]; exact (le_max_left _ _).trans hm
        · rcases List.mem_cons.1 e with e | e
          · rw [e]; exact (le_max_right _ _).trans hm
          · exact h2 x (by simp [e])

theorem sum_abs_pos {v : List K} (h : ∃ x ∈ v, x ≠ 0) : 0 < (v.map abs).sum := by
  obtain ⟨x, hx, h0⟩ := h
  have h1 : |x| ≤ (v.map abs).sum := List.single_le_sum (by simp) _ (List.mem_map.2 ⟨x, hx, rfl⟩)
  exact lt_of_lt_of_le (abs_pos.2 h0) h1

theorem sum_sq_pos {v : List K} (h : ∃ x ∈ v, x ≠ 0) : 0 < (v.map (· ^ 2)).sum := by
  obtain ⟨x, hx, h0⟩ := h
  have h1 : x ^ 2 ≤ (v.map (· ^ 2)).sum := List.single_le_sum (by simp [sq_nonneg]) _ (List.mem_map.2 ⟨x, hx, rfl⟩)
  exact lt_of_lt_of_le (by positivity) h1

omit [LinearOrder K] [IsStrictOrderedRing K] in
theorem sum_map_div {α : Type} (f : α → K) (c : K) (v : List α) : (v.map fun x => f x / c).sum = (v.map f).sum / c := by
  induction v with
  | nil => simp
  | cons a v ih => simp [ih, add_div]

omit [LinearOrder K] [IsStrictOrderedRing K] in
theorem sum_map_sub (c : K) (v : List K) : (v.map fun x => x - c).sum = v.sum - v.length * c := by
  induction v with
  | nil => simp
  | cons a v ih => simp only [List.map_cons, List.sum_cons, ih, List.length_cons, Nat.cast_add, Nat.cast_one]; ring

/-- The divisor of a line: the norm, and one for the norm zero. -/
theorem lineDivisor_spec {root : K → K} (hroot : IsRoot root) {bits : Option ℕ} {kind : NormKind} (hk : kind ≠ .bit) {l : List (Option K)}
    (hb : NoLeast bits (known l)) (hne : known l ≠ []) :
    ∃ d, lineDivisor root bits kind l = some d ∧ ((∀ x ∈ known l, x = 0) → d = 0) ∧
      ((∃ x ∈ known l, x ≠ 0) → 0 < d ∧ UnitNorm kind ((known l).map (· / d))) := by
  have e1 : (known l).map (npAbs bits) = (known l).map abs := List.map_congr_left fun x hx => npAbs_eq hb hx
  have e2 : ((known l).map fun x => npAbs bits x ^ 2) = (known l).map (· ^ 2) :=
    List.map_congr_left fun x hx => by rw [npAbs_eq hb hx, sq_abs]
  cases kind with
  | bit => exact absurd rfl hk
  | l1 =>
    refine ⟨((known l).map abs).sum, by simp only [lineDivisor, present_eq, e1], fun h => ?_, fun h => ⟨sum_abs_pos h, ?_⟩⟩
    · refine List.sum_eq_zero fun y hy => ?_
      obtain ⟨x, hx, rfl⟩ := List.mem_map.1 hy
      simp [h x hx]
    · have hp := sum_abs_pos h
      show (((known l).map _).map abs).sum = 1
      rw [List.map_map]
      have : (abs ∘ fun x : K => x / ((known l).map abs).sum) = fun x => |x| / ((known l).map abs).sum := by
        funext x
        simp only [Function.comp, abs_div, abs_of_pos hp]
      rw [this, sum_map_div, div_self hp.ne']
  | l2 =>
    have h0 : (0 : K) ≤ ((known l).map (· ^ 2)).sum := List.sum_nonneg (by simp [sq_nonneg])
    obtain ⟨r0, rr⟩ := hroot _ h0
    refine ⟨root ((known l).map (· ^ 2)).sum, by simp only [lineDivisor, present_eq, e2], fun h => ?_, fun h => ?_⟩
    · have : ((known l).map (· ^ 2)).sum = 0 := by
        refine List.sum_eq_zero fun y hy => ?_
        obtain ⟨x, hx, rfl⟩ := List.mem_map.1 hy
        simp [h x hx]
      rw [this] at rr ⊢
      exact mul_self_eq_zero.1 rr
    · have hp := sum_sq_pos h
      have hrp : 0 < root ((known l).map (· ^ 2)).sum := by
        rcases r0.lt_or_eq with c | c
        · exact c
        · rw [← c] at rr
          rw [← rr] at hp
          simp at hp
      refine ⟨hrp, ?_⟩
      show (((known l).map _).map (· ^ 2)).sum = 1
      rw [List.map_map]
      have : ((· ^ 2) ∘ fun x : K => x / root ((known l).map (· ^ 2)).sum) = fun x => x ^ 2 / ((known l).map (· ^ 2)).sum := by
        funext x
        simp only [Function.comp, div_pow]
        rw [sq (root _), rr]
      rw [this, sum_map_div, div_self hp.ne']
  | max =>
    obtain ⟨m, hm, hmem, hle⟩ := greatestOf_spec (l := (known l).map abs) (by simpa using hne)
    obtain ⟨y, hy, rfl⟩ := List.mem_map.1 hmem
    refine ⟨|y|, by simp only [lineDivisor, present_eq, e1, hm], fun h => by simp [h y hy], ?_⟩
    rintro ⟨x, hx, h0⟩
    have hp : 0 < |y| := lt_of_lt_of_le (abs_pos.2 h0) (hle _ (List.mem_map.2 ⟨x, hx, rfl⟩))
    refine ⟨hp, ?_, ?_⟩
    · intro z hz
      obtain ⟨x, hx, rfl⟩ := List.mem_map.1 hz
      rw [abs_div, abs_abs, div_le_one hp]
      exact hle _ (List.mem_map.2 ⟨x, hx, rfl⟩)
    · exact ⟨y / |y|, List.mem_map.2 ⟨y, hy, rfl⟩, by rw [abs_div, abs_abs, div_self hp.ne']⟩

theorem normalizeLine_spec {root : K → K} (hroot : IsRoot root) {bits : Option ℕ} {kind : NormKind} (hk : kind ≠ .bit) {l : List (Option K)}
    (hb : NoLeast bits (known l)) :
    ∃ c, 0 < c ∧ Changed (· / c) l (normalizeLine root bits kind l) ∧ ((∀ x ∈ known l, x = 0) → c = 1) ∧
      ((∃ x ∈ known l, x ≠ 0) → UnitNorm kind (known (normalizeLine root bits kind l))) := by
  have hn : normalizeLine root bits kind l = l.map fun x => overDivisor x (lineDivisor root bits kind l) := by
    cases kind <;> first | rfl | exact absurd rfl hk
  by_cases hne : known l = []
  · have hall : ∀ x ∈ l, x = none := by
      intro x hx
      cases x with
      | none => rfl
      | some x => exact absurd (mem_known.2 hx) (by simp [hne])
    refine ⟨1, one_pos, ?_, fun _ => rfl, ?_⟩
    · rw [hn]
      refine List.map_congr_left fun x hx => ?_
      rw [hall x hx]
      rfl
    · rw [hne]
      rintro ⟨x, hx, -⟩
      simp at hx
  obtain ⟨d, hd, h1, h2⟩ := lineDivisor_spec hroot hk hb hne
  have hch : Changed (· / if d = 0 then 1 else d) l (normalizeLine root bits kind l) := by
    rw [hn, hd]
    refine List.map_congr_left fun x _ => ?_
    cases x <;> rfl
  by_cases hz : ∃ x ∈ known l, x ≠ 0
  · obtain ⟨h3, h4⟩ := h2 hz
    rw [if_neg h3.ne'] at hch
    refine ⟨d, h3, hch, fun h => ?_, fun _ => ?_⟩
    · obtain ⟨x, hx, h0⟩ := hz
      exact absurd (h x hx) h0
    · rw [hch, known_map]
      exact h4
  · have hz' : ∀ x ∈ known l, x = 0 := by
      intro x hx
      by_contra c
      exact hz ⟨x, hx, c⟩
    rw [if_pos (h1 hz')] at hch
    exact ⟨1, one_pos, hch, fun _ => rfl, fun h => absurd h hz⟩

/-- Only one factor gives the norm one. -/
theorem unitNorm_unique {kind : NormKind} (hk : kind ≠ .bit) {v : List K} {c : K} (hc : 0 < c) (h : UnitNorm kind v) (h' : UnitNorm kind (v.map (· / c))) : c = 1 := by
  cases kind with
  | bit => exact absurd rfl hk
  | l1 =>
    have h2 : ((v.map (· / c)).map abs).sum = 1 := h'
    rw [List.map_map, show (abs ∘ fun x : K => x / c) = fun x => |x| / c from funext fun x => by simp [abs_div, abs_of_pos hc], sum_map_div] at h2
    rw [show (v.map abs).sum = 1 from h] at h2
    field_simp at h2
    exact h2.symm
  | l2 =>
    have h2 : ((v.map (· / c)).map (· ^ 2)).sum = 1 := h'
    rw [List.map_map, show ((· ^ 2) ∘ fun x : K => x / c) = fun x => x ^ 2 / c ^ 2 from funext fun x => by simp [div_pow], sum_map_div] at h2
    rw [show (v.map (· ^ 2)).sum = 1 from h] at h2
    have h3 : c ^ 2 = 1 := by
      field_simp at h2
      exact h2.symm
    nlinarith [sq_nonneg (c - 1)]
  | max =>
    obtain ⟨h1, x, hx, hx1⟩ := h
    obtain ⟨h2, y, hy, hy1⟩ := h'
    obtain ⟨z, hz, rfl⟩ := List.mem_map.1 hy
    have a1 := h2 _ (List.mem_map.2 ⟨x, hx, rfl⟩)
    have a2 := h1 z hz
    rw [abs_div, abs_of_pos hc] at a1 hy1
    rw [hx1, div_le_one hc] at a1
    rw [div_eq_one_iff_eq hc.ne'] at hy1
    exact le_antisymm (hy1 ▸ a2) a1

/-! ### Means and variances -/

theorem sum_demeaned {v : List K} : (v.map fun x => x - lineMean v).sum = 0 := by
  rw [sum_map_sub, lineMean]
  cases v with
  | nil => simp
  | cons a v =>
    have : ((a :: v).length : K) ≠ 0 := by simp; positivity
    field_simp
    ring

theorem lineVar_nonneg (v : List K) : 0 ≤ lineVar v := by
  unfold lineVar
  exact div_nonneg (List.sum_nonneg (by simp [sq_nonneg])) (by positivity)

theorem lineVar_pos {v : List K} (h : ∃ x ∈ v, ∃ y ∈ v, x ≠ y) : 0 < lineVar v := by
  obtain ⟨x, hx, y, hy, hxy⟩ := h
  have hl : 0 < (v.length : K) := by
    have := List.length_pos_of_mem hx
    exact_mod_cast this
  refine div_pos ?_ hl
  have : ∃ z ∈ v, z - lineMean v ≠ 0 := by
    by_contra c
    push Not at c
    exact hxy (by rw [sub_eq_zero.1 (c x hx), sub_eq_zero.1 (c y hy)])
  obtain ⟨z, hz, h0⟩ := this
  have h1 : (z - lineMean v) ^ 2 ≤ (v.map fun x => (x - lineMean v) ^ 2).sum := List.single_le_sum (by simp [sq_nonneg]) _ (List.mem_map.2 ⟨z, hz, rfl⟩)
  exact lt_of_lt_of_le (by positivity) h1

theorem lineVar_const {v : List K} {c : K} (h : ∀ x ∈ v, x = c) : lineVar v = 0 := by
  have e : v = List.replicate v.length c := List.eq_replicate_iff.2 ⟨rfl, h⟩
  by_cases h0 : v = []
  · subst h0
    simp [lineVar]
  have hm : lineMean v = c := by
    have : (v.length : K) ≠ 0 := by
      have := List.length_pos_iff.2 h0
      positivity
    rw [lineMean]
    conv_lhs => rw [e]
    simp only [List.sum_replicate, List.length_replicate, nsmul_eq_mul]
    field_simp
  unfold lineVar
  rw [hm, List.sum_eq_zero, zero_div]
  intro y hy
  obtain ⟨x, hx, rfl⟩ := List.mem_map.1 hy
  simp [h x hx]

omit [IsStrictOrderedRing K] in
theorem root_pos {root : K → K} (hroot : IsRoot root) {x : K} (h : 0 < x) : 0 < root x := by
  obtain ⟨h1, h2⟩ := hroot x h.le
  rcases h1.lt_or_eq with c | c
  · exact c
  · rw [← c] at h2
    simp at h2
    exact absurd h2 h.ne

/-! ### Straight lines -/

omit [LinearOrder K] [IsStrictOrderedRing K] in
theorem sum_range_eq (n : ℕ) (f : ℕ → K) : ((List.range n).map f).sum = ∑ t ∈ Finset.range n, f t := by
  rw [Finset.sum_eq_multiset_sum]
  rfl

theorem mapIdx_range {α β : Type} (n : ℕ) (g : ℕ → α) (f : ℕ → α → β) : ((List.range n).map g).mapIdx f = (List.range n).map fun t => f t (g t) := by
  apply List.ext_getElem
  · simp
  · intro k h1 h2
    simp

/-- The least squares line of `x`: slope and mean. -/
theorem leastSquares {n : ℕ} {x y : ℕ → K} (hy : ∀ t < n, y t = x t - ((∑ s ∈ Finset.range n, x s) / n +
      (∑ s ∈ Finset.range n, ((s : K) - ((n : K) - 1) / 2) * x s) / (∑ s ∈ Finset.range n, ((s : K) - ((n : K) - 1) / 2) ^ 2) * ((t : K) - ((n : K) - 1) / 2))) :
    (∑ t ∈ Finset.range n, y t = 0) ∧ ∑ t ∈ Finset.range n, (t : K) * y t = 0 := by
  set c : K := ((n : K) - 1) / 2 with hc
  set S := ∑ s ∈ Finset.range n, ((s : K) - c) ^ 2 with hS
  set T := ∑ s ∈ Finset.range n, ((s : K) - c) * x s with hT
  set X := ∑ s ∈ Finset.range n, x s with hX
  have h0 : ∑ s ∈ Finset.range n, ((s : K) - c) = 0 := by
    rw [Finset.sum_sub_distrib, Finset.sum_const, Finset.card_range, nsmul_eq_mul]
    have h := Finset.sum_range_id_mul_two n
    have h' : (∑ s ∈ Finset.range n, (s : K)) * 2 = (n : K) * ((n : K) - 1) := by
      rcases Nat.eq_zero_or_pos n with e | e
      · subst e; simp
      · have := congrArg (Nat.cast (R := K)) h
        push_cast [Nat.cast_sub e] at this
        exact this
    rw [hc]
    linear_combination h' / 2
  have hn : ∑ t ∈ Finset.range n, y t = ∑ t ∈ Finset.range n, (x t - (X / n + T / S * ((t : K) - c))) :=
    Finset.sum_congr rfl fun t ht => hy t (Finset.mem_range.1 ht)
  have e1 : ∑ t ∈ Finset.range n, y t = 0 := by
    rw [hn, Finset.sum_sub_distrib, Finset.sum_add_distrib, ← Finset.mul_sum, h0, Finset.sum_const, Finset.card_range, nsmul_eq_mul, ← hX]
    rcases Nat.eq_zero_or_pos n with e | e
    · subst e
      simp [hX]
    · have : (n : K) ≠ 0 := by positivity
      field_simp
      ring
  refine ⟨e1, ?_⟩
  have e2 : ∑ t ∈ Finset.range n, ((t : K) - c) * y t = 0 := by
    by_cases hS0 : S = 0
    · refine Finset.sum_eq_zero fun t ht => ?_
      have := (Finset.sum_eq_zero_iff_of_nonneg (fun (s : ℕ) _ => sq_nonneg ((s : K) - c))).1 hS0 t ht
      rw [pow_eq_zero_iff (by norm_num)] at this
      rw [this, zero_mul]
    · have : ∑ t ∈ Finset.range n, ((t : K) - c) * y t =
          ∑ t ∈ Finset.range n, (((t : K) - c) * x t - (X / n * ((t : K) - c) + T / S * ((t : K) - c) ^ 2)) :=
        Finset.sum_congr rfl fun t ht => by rw [hy t (Finset.mem_range.1 ht)]; ring
      rw [this, Finset.sum_sub_distrib, Finset.sum_add_distrib, ← Finset.mul_sum, ← Finset.mul_sum, h0, ← hT, ← hS]
      field_simp
      ring
  have : ∑ t ∈ Finset.range n, (t : K) * y t = ∑ t ∈ Finset.range n, (((t : K) - c) * y t + c * y t) := Finset.sum_congr rfl fun t _ => by ring
  rw [this, Finset.sum_add_distrib, ← Finset.mul_sum, e1, e2]
  ring

/-- Residuals without mean and first moment are the least. -/
theorem residual_least {n : ℕ} {x y : ℕ → K} {a b : K} (hy : ∀ t < n, y t = x t - (a + b * t)) (h0 : ∑ t ∈ Finset.range n, y t = 0)
    (h1 : ∑ t ∈ Finset.range n, (t : K) * y t = 0) (a' b' : K) :
    ∑ t ∈ Finset.range n, y t ^ 2 ≤ ∑ t ∈ Finset.range n, (x t - (a' + b' * t)) ^ 2 := by
  have : ∑ t ∈ Finset.range n, (x t - (a' + b' * t)) ^ 2 =
      ∑ t ∈ Finset.range n, (y t ^ 2 + (2 * (a - a') * y t + 2 * (b - b') * ((t : K) * y t)) + ((a - a') + (b - b') * t) ^ 2) :=
    Finset.sum_congr rfl fun t ht => by rw [hy t (Finset.mem_range.1 ht)]; ring
  rw [this, Finset.sum_add_distrib, Finset.sum_add_distrib, Finset.sum_add_distrib, ← Finset.mul_sum, ← Finset.mul_sum, h0, h1]
  have := Finset.sum_nonneg fun (t : ℕ) (_ : t ∈ Finset.range n) => sq_nonneg ((a - a') + (b - b') * (t : K))
  linarith

end

end Verif
