import Verif.Spec.Trigger
import Verif.Proof.WindowFilter
import Mathlib.Tactic.FieldSimp
/-! # Kurtosis and STA/LTA: lemmas -/
namespace Verif
open Spec

/-! ### Moments -/

theorem sum_shift2 (m : ℚ) (l : List ℚ) : (l.map fun x => (x - m) ^ 2).sum = (l.map (· ^ 2)).sum - 2 * m * (l.map (· ^ 1)).sum + l.length * m ^ 2 := by
  induction l with
  | nil => simp
  | cons a l ih =>
    simp only [List.map_cons, List.sum_cons, ih, List.length_cons]
    push_cast
    ring

theorem sum_shift4 (m : ℚ) (l : List ℚ) : (l.map fun x => (x - m) ^ 4).sum =
    (l.map (· ^ 4)).sum - 4 * m * (l.map (· ^ 3)).sum + 6 * m ^ 2 * (l.map (· ^ 2)).sum - 4 * m ^ 3 * (l.map (· ^ 1)).sum + l.length * m ^ 4 := by
  induction l with
  | nil => simp
  | cons a l ih =>
    simp only [List.map_cons, List.sum_cons, ih, List.length_cons]
    push_cast
    ring

theorem sum_pow_one (l : List ℚ) : (l.map (· ^ 1)).sum = l.sum := by simp

theorem moment2_nonneg (l : List ℚ) : 0 ≤ centralMoment 2 l := by
  unfold centralMoment average
  refine div_nonneg (List.sum_nonneg ?_) (by positivity)
  simp only [List.mem_map]
  rintro _ ⟨x, -, rfl⟩
  positivity

/-- The formulas of the code are those of the central moments. -/
theorem pearson_eq {l : List ℚ} (h : l ≠ []) {N : ℚ} (hN : N = l.length) :
    pearson ((l.map (· ^ 1)).sum / N) ((l.map (· ^ 2)).sum / N) ((l.map (· ^ 3)).sum / N) ((l.map (· ^ 4)).sum / N) = kurtosisOf l := by
  subst hN
  have h0 : (l.length : ℚ) ≠ 0 := by
    have := List.length_pos_iff.2 h
    positivity
  have e2 : (l.map (· ^ 2)).sum / l.length - ((l.map (· ^ 1)).sum / l.length) ^ 2 = centralMoment 2 l := by
    unfold centralMoment average
    rw [List.length_map, sum_shift2, sum_pow_one]
    field_simp
    ring
  have e4 : (l.map (· ^ 4)).sum / l.length - 4 * ((l.map (· ^ 1)).sum / l.length) * ((l.map (· ^ 3)).sum / l.length) +
      6 * ((l.map (· ^ 1)).sum / l.length) ^ 2 * ((l.map (· ^ 2)).sum / l.length) - 3 * ((l.map (· ^ 1)).sum / l.length) ^ 4 = centralMoment 4 l := by
    unfold centralMoment average
    rw [List.length_map, sum_shift4, sum_pow_one]
    field_simp
    ring
  unfold pearson kurtosisOf
  simp only [e2, e4]
  by_cases hc : centralMoment 2 l = 0
  · rw [if_pos hc, if_neg (by rw [hc]; exact lt_irrefl 0)]
  · rw [if_neg hc, if_pos (lt_of_le_of_ne (moment2_nonneg l) (Ne.symm hc))]

theorem clippedWindow_eq (x : List ℚ) (n i : ℕ) : clippedWindow x n i = windowAround x n i := by
  unfold clippedWindow windowAround
  by_cases h : i + (n - n / 2) ≤ x.length
  · rw [min_eq_left h]
  · rw [min_eq_right (by omega), List.take_length, List.take_of_length_le (by omega)]

theorem windowAround_map (f : ℚ → ℚ) (x : List ℚ) (n i : ℕ) : windowAround (x.map f) n i = (windowAround x n i).map f := by
  simp only [windowAround, List.map_drop, List.map_take]

theorem windowAround_length (x : List ℚ) (n i : ℕ) : (windowAround x n i).length = clippedCount x.length n i := by
  simp only [windowAround, clippedCount, List.length_drop, List.length_take]

theorem windowAround_ne {x : List ℚ} {n i : ℕ} (hn : 1 ≤ n) (hi : i < x.length) : windowAround x n i ≠ [] := by
  rw [← List.length_pos_iff, windowAround_length, clippedCount]
  omega

theorem windowedKurtosis_get {n : ℕ} (hn : 1 ≤ n) {x : List ℚ} {i : ℕ} (hi : i < x.length) :
    (windowedKurtosis n x).getD i none = kurtosisOf (windowAround x n i) := by
  rw [windowedKurtosis, List.getD_eq_getElem?_getD, List.getElem?_map, List.getElem?_range hi, Option.map_some, Option.getD_some]
  simp only [powerMean, clippedWindow_eq, windowAround_map]
  exact pearson_eq (windowAround_ne hn hi) (by rw [windowAround_length])

/-! ### Moments of other samples -/

theorem average_affine (a b : ℚ) {l : List ℚ} (h : l ≠ []) : average (l.map fun x => a * x + b) = a * average l + b := by
  have h0 : (l.length : ℚ) ≠ 0 := by
    have := List.length_pos_iff.2 h
    positivity
  have : (l.map fun x => a * x + b).sum = a * l.sum + l.length * b := by
    clear h h0
    induction l with
    | nil => simp
    | cons x l ih =>
      simp only [List.map_cons, List.sum_cons, ih, List.length_cons]
      push_cast
      ring
  unfold average
  rw [this, List.length_map]
  field_simp

theorem average_mul (a : ℚ) (f : ℚ → ℚ) (l : List ℚ) : average (l.map fun x => a * f x) = a * average (l.map f) := by
  have : (l.map fun x => a * f x).sum = a * (l.map f).sum := by
    induction l with
    | nil => simp
    | cons x l ih => simp only [List.map_cons, List.sum_cons, ih]; ring
  unfold average
  rw [this, List.length_map, List.length_map, mul_div_assoc]

theorem moment_affine (k : ℕ) (a b : ℚ) (l : List ℚ) : centralMoment k (l.map fun x => a * x + b) = a ^ k * centralMoment k l := by
  by_cases h : l = []
  · subst h
    simp [centralMoment, average]
  unfold centralMoment
  rw [average_affine a b h, List.map_map, ← average_mul]
  congr 1
  refine List.map_congr_left fun x _ => ?_
  simp only [Function.comp]
  rw [← mul_pow]
  ring

theorem kurtosis_affine {a : ℚ} (ha : a ≠ 0) (b : ℚ) (l : List ℚ) : kurtosisOf (l.map fun x => a * x + b) = kurtosisOf l := by
  unfold kurtosisOf
  simp only [moment_affine]
  by_cases h : centralMoment 2 l = 0
  · rw [if_pos h, if_pos (by rw [h, mul_zero])]
  · rw [if_neg h, if_neg (mul_ne_zero (pow_ne_zero _ ha) h)]
    congr 1
    field_simp

theorem moment4_ge (l : List ℚ) : centralMoment 2 l ^ 2 ≤ centralMoment 4 l := by
  by_cases h : l = []
  · subst h
    simp [centralMoment, average]
  have h0 : (0 : ℚ) < l.length := by exact_mod_cast List.length_pos_iff.2 h
  set m := average l
  have key : ∀ (l : List ℚ) (v : ℚ), 0 ≤ (l.map fun x => (x - m) ^ 4).sum - 2 * v * (l.map fun x => (x - m) ^ 2).sum + l.length * v ^ 2 := by
    intro l v
    induction l with
    | nil => simp
    | cons x l ih =>
      simp only [List.map_cons, List.sum_cons, List.length_cons]
      push_cast
      nlinarith [sq_nonneg ((x - m) ^ 2 - v)]
  have := key l (centralMoment 2 l)
  have e2 : (l.map fun x => (x - m) ^ 2).sum = l.length * centralMoment 2 l := by
    unfold centralMoment average
    rw [List.length_map, mul_div_cancel₀ _ h0.ne']
    rfl
  have e4 : (l.map fun x => (x - m) ^ 4).sum = l.length * centralMoment 4 l := by
    unfold centralMoment average
    rw [List.length_map, mul_div_cancel₀ _ h0.ne']
    rfl
  rw [e2, e4] at this
  have h5 : 0 ≤ l.length * (centralMoment 4 l - centralMoment 2 l ^ 2) := by linarith [this]
  have := nonneg_of_mul_nonneg_right h5 h0
  linarith

theorem kurtosis_least {l : List ℚ} {x : ℚ} (h : kurtosisOf l = some x) : 1 ≤ x := by
  unfold kurtosisOf at h
  split_ifs at h with h0
  cases h
  have hp := lt_of_le_of_ne (moment2_nonneg l) (Ne.symm h0)
  rw [le_div_iff₀ (by positivity), one_mul]
  exact moment4_ge l

/-! ### The running kurtosis -/

theorem fading_succ (c : ℚ) (x : ℕ → ℚ) (i : ℕ) : fading c x (i + 1) = c * fading c x i + (1 - c) * x (i + 1) := by
  unfold fading
  rw [List.range_succ, List.map_append, List.sum_append]
  have : ((List.range (i + 1)).map fun j : ℕ => (1 - c) * c ^ (i + 1 - j) * x j).sum = c * ((List.range (i + 1)).map fun j : ℕ => (1 - c) * c ^ (i - j) * x j).sum := by
    rw [← List.sum_map_mul_left]
    congr 1
    refine List.map_congr_left fun j hj => ?_
    rw [List.mem_range] at hj
    rw [show i + 1 - j = (i - j) + 1 by omega, pow_succ]
    ring
  rw [this]
  simp

theorem fading_zero (c : ℚ) (x : ℕ → ℚ) : fading c x 0 = (1 - c) * x 0 := by simp [fading]

theorem fading_nonneg {c : ℚ} (h0 : 0 ≤ c) (h1 : c ≤ 1) {x : ℕ → ℚ} (h : ∀ j, 0 ≤ x j) (i : ℕ) : 0 ≤ fading c x i := by
  unfold fading
  refine List.sum_nonneg ?_
  simp only [List.mem_map]
  rintro _ ⟨j, -, rfl⟩
  have := h j
  have : 0 ≤ 1 - c := by linarith
  positivity

theorem npVar_eq (x : List ℚ) : npVar x = centralMoment 2 x := by
  unfold npVar centralMoment average
  rw [List.length_map]

/-- The state of the loop before position `t`. -/
def runState (c varx : ℚ) (x : ℕ → ℚ) : ℕ → ℚ × ℚ × Option ℚ
  | 0 => (0, 0, some 0)
  | t + 1 =>
    let off := fun j : ℕ => x j - fading c x j
    let var := fading c fun j => off j ^ 2
    (fading c x t, var t, some (fading c (fun j => off j ^ 4 / max (var j) varx ^ 2) t))

theorem norm_max (v w : ℚ) : (if w < v then v ^ 2 else w ^ 2) = max v w ^ 2 := by
  split_ifs with h
  · rw [max_eq_left h.le]
  · rw [max_eq_right (not_lt.1 h)]

theorem kurtosisStep_run {c varx : ℚ} {x : ℕ → ℚ} {t : ℕ} (h : max (fading c (fun j => (x j - fading c x j) ^ 2) t) varx ≠ 0) :
    kurtosisStep c varx (runState c varx x t) (x t) = runState c varx x (t + 1) := by
  have e1 : c * (runState c varx x t).1 + (1 - c) * x t = fading c x t := by
    cases t with
    | zero => simp [runState, fading_zero]
    | succ t => simp only [runState, fading_succ]
  have e2 : c * (runState c varx x t).2.1 + (1 - c) * (x t - fading c x t) ^ 2 = fading c (fun j => (x j - fading c x j) ^ 2) t := by
    cases t with
    | zero => simp [runState, fading_zero]
    | succ t => simp only [runState]; rw [fading_succ c (fun j => (x j - fading c x j) ^ 2)]
  unfold kurtosisStep
  simp only [e1, e2, norm_max]
  rw [if_pos (by positivity)]
  cases t with
  | zero =>
    simp only [runState, Option.map_some, fading_zero, Prod.mk.injEq, Option.some.injEq, true_and]
    ring
  | succ t =>
    simp only [runState, Option.map_some, Prod.mk.injEq, Option.some.injEq, true_and]
    rw [fading_succ c (fun j => (x j - fading c x j) ^ 4 / _)]
    ring

theorem kurtosisLoop_run {c varx : ℚ} {x : ℕ → ℚ} : ∀ (n t : ℕ), (∀ j < t + n, max (fading c (fun j => (x j - fading c x j) ^ 2) j) varx ≠ 0) →
    kurtosisLoop c varx (runState c varx x t) ((List.range n).map fun j => x (t + j)) = (List.range n).map fun j => (runState c varx x (t + j + 1)).2.2
  | 0, _, _ => rfl
  | n + 1, t, h => by
    rw [List.range_succ_eq_map, List.map_cons, List.map_cons, List.map_map, List.map_map, kurtosisLoop]
    rw [Nat.add_zero, kurtosisStep_run (h t (by omega))]
    congr 1
    have ih := kurtosisLoop_run n (t + 1) (x := x) (c := c) (varx := varx) (fun j hj => h j (by omega))
    have e1 : ((fun j => x (t + j)) ∘ Nat.succ) = fun j => x (t + 1 + j) := by
      funext j
      simp only [Function.comp]
      congr 1
      omega
    have e2 : ((fun j => (runState c varx x (t + j + 1)).2.2) ∘ Nat.succ) = fun j => (runState c varx x (t + 1 + j + 1)).2.2 := by
      funext j
      simp only [Function.comp]
      congr 3
      omega
    rw [e1, e2]
    exact ih

theorem kurtosisLoop_zero (c : ℚ) : ∀ (n : ℕ) (k : Option ℚ), kurtosisLoop c 0 (0, 0, k) (List.replicate n 0) = List.replicate n none
  | 0, _ => rfl
  | n + 1, k => by
    rw [List.replicate_succ, List.replicate_succ, kurtosisLoop]
    have : kurtosisStep c 0 (0, 0, k) 0 = (0, 0, none) := by simp [kurtosisStep]
    rw [this, kurtosisLoop_zero c n]

theorem moment2_zero {l : List ℚ} (h : centralMoment 2 l = 0) : ∀ x ∈ l, x = average l := by
  intro x hx
  have h0 : (0 : ℚ) < l.length := by exact_mod_cast List.length_pos_of_mem hx
  have e2 : (l.map fun x => (x - average l) ^ 2).sum = 0 := by
    unfold centralMoment at h
    rw [average, List.length_map, div_eq_zero_iff] at h
    exact h.resolve_right h0.ne'
  have hx2 : (x - average l) ^ 2 ≤ 0 := by
    rw [← e2]
    refine List.single_le_sum ?_ _ (List.mem_map.2 ⟨x, hx, rfl⟩)
    simp only [List.mem_map]
    rintro _ ⟨y, -, rfl⟩
    positivity
  have : x - average l = 0 := by
    by_contra hc
    have : 0 < (x - average l) ^ 2 := by positivity
    linarith
  linarith

theorem run_norm {c : ℚ} (h0 : 0 < c) (h1 : c < 1) {l : List ℚ} (hz : ∃ x ∈ l, x ≠ 0) {t : ℕ} (ht : t < l.length) :
    max (fading c (fun j => (l.getD j 0 - fading c (fun j => l.getD j 0) j) ^ 2) t) (centralMoment 2 l) ≠ 0 := by
  by_cases hv : centralMoment 2 l = 0
  · have hall := moment2_zero hv
    set x := fun j : ℕ => l.getD j 0
    have hx0 : x 0 ≠ 0 := by
      obtain ⟨y, hy, hy0⟩ := hz
      have e : x 0 = l[0] := by simp only [x]; rw [List.getD_eq_getElem?_getD, List.getElem?_eq_getElem (by omega)]; rfl
      rw [e, hall _ (List.getElem_mem _), ← hall y hy]
      exact hy0
    have pos : ∀ t, 0 < fading c (fun j => (x j - fading c x j) ^ 2) t := by
      have h1' : 0 < 1 - c := by linarith
      intro t
      induction t with
      | zero =>
        rw [fading_zero, fading_zero]
        have : x 0 - (1 - c) * x 0 = c * x 0 := by ring
        rw [this]
        positivity
      | succ t ih =>
        rw [fading_succ c (fun j => (x j - fading c x j) ^ 2)]
        positivity
    exact (lt_max_of_lt_left (pos t)).ne'
  · exact (lt_max_of_lt_right (lt_of_le_of_ne (moment2_nonneg l) (Ne.symm hv))).ne'

theorem recursive_factor {n : ℕ} (hn : 2 ≤ n) : (0 : ℚ) < 1 - 1 / n ∧ (1 : ℚ) - 1 / n < 1 := by
  have h : (2 : ℚ) ≤ n := by exact_mod_cast hn
  have hp : (0 : ℚ) < n := by linarith
  constructor
  · rw [sub_pos, div_lt_one hp]
    linarith
  · have : (0 : ℚ) < 1 / n := by positivity
    linarith

theorem recursiveKurtosis_get {n : ℕ} (hn : 2 ≤ n) {l : List ℚ} {i : ℕ} (hi : i < l.length) :
    (recursiveKurtosis n l).getD i none = if ∃ x ∈ l, x ≠ 0 then some (runningKurtosis (1 - 1 / n) l i) else none := by
  obtain ⟨h0, h1⟩ := recursive_factor hn
  unfold recursiveKurtosis
  rw [npVar_eq]
  split_ifs with hz
  · have hl : l = (List.range l.length).map fun j => l.getD (0 + j) 0 := by
      refine List.ext_getElem (by simp) fun j h _ => ?_
      simp [List.getElem?_eq_getElem h]
    have := kurtosisLoop_run (c := 1 - 1 / (n : ℚ)) (varx := centralMoment 2 l) (x := fun j => l.getD j 0) l.length 0
      (fun j hj => run_norm h0 h1 hz (by omega))
    rw [← hl] at this
    change (kurtosisLoop _ _ (runState (1 - 1 / (n : ℚ)) (centralMoment 2 l) (fun j => l.getD j 0) 0) l).getD i none = _
    rw [this, List.getD_eq_getElem?_getD, List.getElem?_map, List.getElem?_range hi, Option.map_some, Option.getD_some, Nat.zero_add]
    rfl
  · push Not at hz
    have hl : l = List.replicate l.length 0 := List.eq_replicate_iff.2 ⟨rfl, hz⟩
    have hv : centralMoment 2 l = 0 := by
      rw [hl]
      simp [centralMoment, average]
    rw [hv]
    have : kurtosisLoop (1 - 1 / (n : ℚ)) 0 (0, 0, some 0) l = List.replicate l.length none := by
      conv_lhs => rw [hl]
      exact kurtosisLoop_zero _ _ _
    rw [this, List.getD_eq_getElem?_getD, List.getElem?_replicate]
    split_ifs
    all_goals rfl

/-! ### Windows along a dimension -/

theorem sort_down {c : RangeCoord} (hv : c.Valid) (hs : c.step < 0) : ∃ a b, (c.sort false).map Prod.fst = .ok (.range ⟨a, b, -c.step, c.len⟩) := by
  have hlq : (0 : ℚ) ≤ (c.len : ℚ) - 1 := by
    have : (1 : ℚ) ≤ c.len := by exact_mod_cast hv.len_pos
    linarith
  have hmin : c.cmin = c.start + (c.len - 1) * c.step := by
    rw [hv.cmin_eq]; apply min_eq_right; nlinarith
  have hmax : c.cmax = c.start := by rw [hv.cmax_eq]; apply max_eq_left; nlinarith
  refine ⟨c.cmin, c.cmax + -c.step, ?_⟩
  unfold RangeCoord.sort
  rw [if_neg (by simpa [RangeCoord.sorted] using hs)]
  simp only [Bool.false_eq_true, if_false, bind, Except.bind]
  rw [new_canonical (neg_ne_zero.2 hv.step_ne) hv.len_pos (by rw [hmin, hmax]; ring)]
  rfl

theorem kurtosisWindow_asks {c : RangeCoord} (hv : c.Valid) {samples : Bool} {r : WinReq} {n : ℤ} (h : AsksFor |c.step| samples r n) :
    kurtosisWindow c samples r = if n < 2 then .error .parameterError else .ok n := by
  have key : ∃ d : RangeCoord, ascendingLabels c = .ok (.range d) ∧ d.step = |c.step| := by
    unfold ascendingLabels
    by_cases hs : c.step < 0
    · obtain ⟨a, b, e⟩ := sort_down hv hs
      exact ⟨_, by rw [if_pos (by simpa [RangeCoord.reverseSorted] using hs), e], (abs_of_neg hs).symm⟩
    · exact ⟨c, by rw [if_neg (by simpa [RangeCoord.reverseSorted] using hs)], (abs_of_nonneg (not_lt.1 hs)).symm⟩
  obtain ⟨d, e, hd⟩ := key
  have hp : 0 < d.step := by rw [hd]; exact abs_pos.2 hv.step_ne
  unfold kurtosisWindow
  rw [e]
  simp only [bind, Except.bind, Coord.sampleCount]
  rw [sampleCount_asks hp (by rw [hd]; exact h)]

theorem oneDim_single {β : Type} {m : CM} {d : String} (hd : d ∈ m.dims) (b : β) : oneDim m [(d, b)] = .ok (d, b) := by
  have h : m.dims.contains d = true := by simpa using hd
  unfold oneDim
  simp only [List.filter_cons, h, if_true, List.filter_nil, List.any_cons, Bool.not_true, List.any_nil, Bool.or_self, Bool.false_eq_true, if_false]

theorem oneDim_mem {β : Type} {m : CM} {kw : Dict β} {v : String × β} (h : oneDim m kw = .ok v) : v.1 ∈ m.dims ∧ kw = [v] := by
  unfold oneDim at h
  split at h
  · rename_i w hw
    split_ifs at h with c
    cases h
    simp only [List.any_eq_true, not_exists, not_and, Bool.not_eq_true, Bool.not_eq_false'] at c
    rw [List.filter_eq_self.2 c] at hw
    exact ⟨by simpa using c v (by rw [hw]; simp), hw⟩
  · cases h

/-! ### Rolling windows of every sample -/

theorem data_dims' {α : Type} {p : PatchM α} {d : String} (hsh : p.cm.shape = p.data.shape) (hd : d ∈ p.cm.dims) : p.data.shape.length = p.cm.dims.length := by
  rw [shape_dims hsh hd, List.length_map]

theorem sampleCount_asks_enforced {c : RangeCoord} (hs : 0 < c.step) {samples : Bool} {r : WinReq} {n : ℤ} (h : AsksFor c.step samples r n) :
    c.sampleCount samples true r = if (c.len : ℤ) < n then .error .parameterError else .ok n := by
  have h0 := sampleCount_asks hs h
  unfold RangeCoord.sampleCount at h0 ⊢
  obtain ⟨m, h1, h2⟩ := bind_split h0
  rw [h1]
  simp only [Bool.false_and, Bool.false_eq_true, if_false, Except.ok.injEq] at h2
  subst h2
  simp only [bind, Except.bind, Bool.true_and, decide_eq_true_eq]

theorem windowStep_plain {c : RangeCoord} {samples : Bool} {r : WinReq} : windowStep c none none samples r = (c.sampleCount samples true r).map fun w => (w, none) := by
  unfold windowStep
  cases c.sampleCount samples true r <;> rfl

theorem windowAt_last {a : Nd ℚ} {axis w : ℕ} {i : List ℕ} (hw : w ≤ i.getD axis 0 + 1) (hi : i.getD axis 0 < a.shape.getD axis 0) (hw1 : 1 ≤ w) :
    a.windowAt axis w (i.getD axis 0 - (w - 1)) i = lastSamples (lineAt a axis i) w (i.getD axis 0) := by
  refine List.ext_getElem ?_ fun t h1 h2 => ?_
  · simp only [Nd.windowAt, lastSamples, lineAt, List.length_map, List.length_range, List.length_drop, List.length_take]
    omega
  · simp only [Nd.windowAt, lastSamples, lineAt, List.getElem_map, List.getElem_range, List.getElem_drop, List.getElem_take]
    congr 2
    omega

theorem roll_every {β : Type} (f : List ℚ → β) (nan : β) {p : PatchM ℚ} (hm : Regular p.cm) (hsh : p.cm.shape = p.data.shape) {d : String} {k : Kind} {s₀ s : ℚ} {n : ℕ}
    (hd : EvenAlong p.cm d k s₀ s n) (hs : 0 < s) {samples : Bool} {r : WinReq} {w : ℕ} (hr : AsksFor s samples r w) (hw : 1 ≤ w) (hwn : w ≤ n) :
    ∃ q, p.rolling f nan d r none none samples false = .ok q ∧ q.cm = p.cm ∧ q.data.shape = p.data.shape ∧ ∀ i, InRange p.data.shape i →
      q.data.get i = if w ≤ i.getD (p.cm.dims.idxOf d) 0 + 1 then f (lastSamples (lineAt p.data (p.cm.dims.idxOf d) i) w (i.getD (p.cm.dims.idxOf d) 0)) else nan := by
  have hn := even_shape hm hsh hd
  have hlen := data_dims' hsh hd.1
  obtain ⟨hdd, stop, hc⟩ := id hd
  set axis := p.cm.dims.idxOf d with hax
  have haxl : axis < p.data.shape.length := by
    rw [hlen]
    exact List.idxOf_lt_length_of_mem hdd
  obtain ⟨k1, k2⟩ := numNans_spec (w := w) (s := 1) hw (by norm_num)
  have hk : numNans w 1 = w - 1 := by omega
  have hst : startIndex w 1 = 0 := by rw [startIndex_eq hw (by norm_num), hk]; omega
  have hset : ∀ m, m = n → p.data.shape.set axis m = p.data.shape := by
    rintro m rfl
    rw [← hn, List.getD_eq_getElem?_getD, List.getElem?_eq_getElem haxl, Option.getD_some, List.set_getElem_self]
  have hroll : p.rolling f nan d r none none samples false = p.rollApply f nan d w 1 false := by
    unfold PatchM.rolling
    rw [if_neg (not_not.2 hdd), hc]
    simp only [windowStep_plain]
    rw [sampleCount_asks_enforced hs hr, if_neg (by simp only; omega)]
    simp only [Except.map, bind, Except.bind, Option.getD_none]
    rw [if_neg (by omega)]
    rfl
  set raw := p.data.slideReduce f axis w 0 1 with hraw
  have hrs : raw.shape = p.data.shape.set axis (n + 1 - w) := by
    simp only [hraw, Nd.slideReduce, hn]
    congr 1
    omega
  have hrn : raw.shape.getD axis 0 = n + 1 - w := by
    rw [hrs, List.getD_eq_getElem?_getD, List.getElem?_set_self haxl]
    rfl
  rw [hroll]
  have happ : p.rollApply f nan d w 1 false = PatchM.new p.cm (if w - 1 = 0 then raw else raw.padAxis axis (w - 1) (w - 1) nan) := by
    unfold PatchM.rollApply
    simp only [← hax, hn, Int.toNat_natCast, hk, hst, firstWindow, CM.rollCoords, Bool.false_eq_true, if_false]
    rw [if_neg (by omega), if_pos trivial]
    rfl
  rw [happ]
  refine ⟨⟨p.cm, if w - 1 = 0 then raw else raw.padAxis axis (w - 1) (w - 1) nan⟩, ?_, rfl, ?_, fun i hi => ?_⟩
  · unfold PatchM.new
    rw [if_pos]
    rw [hsh]
    split_ifs with h0
    · rw [hrs, hset _ (by omega)]
    · simp only [Nd.padAxis, hrs, List.set_set, List.getD_eq_getElem?_getD, List.getElem?_set_self haxl, Option.getD_some]
      rw [hset _ (by omega)]
  · simp only
    split_ifs with h0
    · rw [hrs, hset _ (by omega)]
    · simp only [Nd.padAxis, hrs, List.set_set, List.getD_eq_getElem?_getD, List.getElem?_set_self haxl, Option.getD_some]
      rw [hset _ (by omega)]
  · have hil : axis < i.length := by rw [← inRange_length hi] at *; exact haxl
    have hin : i.getD axis 0 < p.data.shape.getD axis 0 := inRange_axis hi haxl
    have hval : ∀ t, w - 1 ≤ i.getD axis 0 → t = i.getD axis 0 - (w - 1) →
        raw.get (i.set axis t) = f (lastSamples (lineAt p.data axis i) w (i.getD axis 0)) := by
      rintro t h1 rfl
      simp only [hraw, Nd.slideReduce, getD_set_self hil, Nat.zero_add, Nat.mul_one]
      rw [← windowAt_last (by omega) hin hw]
      simp only [Nd.windowAt, List.set_set]
    simp only
    by_cases h0 : w - 1 = 0
    · rw [if_pos h0, if_pos (by omega)]
      have := hval (i.getD axis 0) (by omega) (by omega)
      rwa [set_self_getD] at this
    · rw [if_neg h0]
      simp only [Nd.padAxis, hrn]
      by_cases h1 : w ≤ i.getD axis 0 + 1
      · rw [if_pos (by omega), if_pos h1, hval _ (by omega) rfl]
      · rw [if_neg (by omega), if_neg h1]

end Verif
