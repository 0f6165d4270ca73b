import Verif.Proof.Rolling
import Verif.Props.PatchOps
/-!
# Dimension arguments (C41), window requests (C42) and rolling (C43)
-/
namespace Verif
open Spec

/-! ## Dimension arguments -/

theorem asked_eq {β} (args : List (ArgVal β)) (kw : Dict (ArgVal β)) : askedFor args kw = asked args kw := by
  unfold askedFor asked argKeys reserved
  have h : (["dim", "coord", "dims", "coords"].filterMap fun k => Dict.get? kw k) =
      (kw.get? "dim").toList ++ (kw.get? "coord").toList ++ (kw.get? "dims").toList ++ (kw.get? "coords").toList := by
    simp only [List.filterMap_cons, List.filterMap_nil]
    cases Dict.get? kw "dim" <;> cases Dict.get? kw "coord" <;> cases Dict.get? kw "dims" <;> cases Dict.get? kw "coords" <;> rfl
  rw [h]
  have h2 : (fun q : String × ArgVal β => !["dim", "coord", "dims", "coords"].contains q.1) =
      fun q => decide (q.1 ∉ ["dim", "coord", "dims", "coords"]) := by
    funext q
    rw [Bool.eq_iff_iff]
    simp
  rw [h2]
  simp only [List.append_assoc]

theorem isName_any {β} (l : List (ArgVal β)) (d : String) : (l.any fun a => a.isName d) = true ↔ ArgVal.name d ∈ l := by
  rw [List.any_eq_true]
  constructor
  · rintro ⟨a, h1, h2⟩
    cases a with
    | name n => simp [ArgVal.isName] at h2; subst h2; exact h1
    | val v => simp [ArgVal.isName] at h2
  · intro h
    exact ⟨_, h, by simp [ArgVal.isName]⟩

theorem isDim_iff {β} (dims : List String) (a : ArgVal β) : a.isDim dims = true ↔ ∃ d ∈ dims, a = .name d := by
  cases a with
  | name n => simp [ArgVal.isDim]
  | val v => simp [ArgVal.isDim]

/-- Is a dimension asked for, and only one unless several are allowed? -/
theorem C41_count {β} (dims : List String) (l : List (ArgVal β)) (multiple : Bool) :
    ((dims.filter fun d => l.any fun a => a.isName d).dedup.isEmpty ||
      (decide (1 < (dims.filter fun d => l.any fun a => a.isName d).dedup.length) && !multiple)) = false ↔
    (∃ d ∈ dims, ArgVal.name d ∈ l) ∧
      (multiple = true ∨ ∀ d ∈ dims, ∀ e ∈ dims, ArgVal.name d ∈ l → ArgVal.name e ∈ l → d = e) := by
  set o := (dims.filter fun d => l.any fun a => a.isName d).dedup with ho
  have hmem : ∀ d, d ∈ o ↔ d ∈ dims ∧ ArgVal.name d ∈ l := by
    intro d
    rw [ho, List.mem_dedup, List.mem_filter, isName_any]
  have hnd : o.Nodup := List.nodup_dedup _
  rw [Bool.or_eq_false_iff, Bool.and_eq_false_iff]
  have h1 : o.isEmpty = false ↔ ∃ d ∈ dims, ArgVal.name d ∈ l := by
    cases h : o with
    | nil =>
      simp only [List.isEmpty_nil, Bool.true_eq_false, false_iff, not_exists, not_and]
      intro d h1 h2
      have := (hmem d).2 ⟨h1, h2⟩
      rw [h] at this; simp at this
    | cons a t =>
      simp only [List.isEmpty_cons, true_iff]
      have := (hmem a).1 (by rw [h]; simp)
      exact ⟨a, this.1, this.2⟩
  have h2 : decide (1 < o.length) = false ↔ ∀ d ∈ dims, ∀ e ∈ dims, ArgVal.name d ∈ l → ArgVal.name e ∈ l → d = e := by
    rw [decide_eq_false_iff_not]
    constructor
    · intro h d hd e he h3 h4
      have m1 := (hmem d).2 ⟨hd, h3⟩
      have m2 := (hmem e).2 ⟨he, h4⟩
      match o, h, m1, m2 with
      | [], _, m1, _ => simp at m1
      | [a], _, m1, m2 => simp at m1 m2; rw [m1, m2]
      | a :: b :: t, h, _, _ => simp at h
    · intro h hl
      match hc : o, hl with
      | [], hl => simp at hl
      | [a], hl => simp at hl
      | a :: b :: t, _ =>
        have m1 := (hmem a).1 (by simp)
        have m2 := (hmem b).1 (by simp)
        have := h a m1.1 b m2.1 m1.2 m2.2
        rw [this] at hnd
        simp at hnd
  rw [h1, h2]
  cases multiple <;> simp

/-- **C41.** `get_dim_axis_value` succeeds exactly when at least one dimension is asked for, only one unless several are
allowed (repetitions of one dimension count once), and nothing else is asked for unless that is allowed. The first two raise
ParameterError, the last PatchCoordinateError. -/
theorem C41_accepts {β} (dims : List String) (args : List (ArgVal β)) (kw : Dict (ArgVal β)) (multiple extra : Bool) :
    let some := ∃ d ∈ dims, ArgVal.name d ∈ asked args kw
    let few := multiple = true ∨ ∀ d ∈ dims, ∀ e ∈ dims, ArgVal.name d ∈ asked args kw → ArgVal.name e ∈ asked args kw → d = e
    let known := extra = true ∨ ∀ a ∈ asked args kw, ∃ d ∈ dims, a = .name d
    ((∃ out, getDimAxisValue dims args kw multiple extra = .ok out) ↔ some ∧ few ∧ known) ∧
      (¬ (some ∧ few) → getDimAxisValue dims args kw multiple extra = .error .parameterError) ∧
      (some → few → ¬ known → getDimAxisValue dims args kw multiple extra = .error .patchCoordinateError) := by
  intro some few known
  unfold getDimAxisValue
  rw [asked_eq]
  have h1 := C41_count dims (asked args kw) multiple
  have h2 : ((asked args kw).any (fun a => !a.isDim dims) && !extra) = false ↔ known := by
    rw [Bool.and_eq_false_iff, List.any_eq_false]
    simp only [Bool.not_eq_true', Bool.not_eq_false, isDim_iff, Bool.not_eq_false']
    exact or_comm
  simp only
  by_cases hc : ((dims.filter fun d => (asked args kw).any fun a => a.isName d).dedup.isEmpty ||
      (decide (1 < (dims.filter fun d => (asked args kw).any fun a => a.isName d).dedup.length) && !multiple)) = true
  · rw [if_pos hc]
    have hno : ¬ (some ∧ few) := by
      intro h; rw [h1.2 h] at hc; cases hc
    refine ⟨⟨?_, fun h => absurd ⟨h.1, h.2.1⟩ hno⟩, fun _ => rfl, fun a b => absurd ⟨a, b⟩ hno⟩
    rintro ⟨_, h⟩; cases h
  · rw [if_neg hc]
    have hyes := h1.1 (Bool.not_eq_true _ ▸ hc)
    by_cases hk : ((asked args kw).any (fun a => !a.isDim dims) && !extra) = true
    · rw [if_pos hk]
      have hno : ¬ known := by intro h; rw [h2.2 h] at hk; cases hk
      refine ⟨⟨?_, fun h => absurd h.2.2 hno⟩, fun h => absurd hyes h, fun _ _ _ => rfl⟩
      rintro ⟨_, h⟩; cases h
    · rw [if_neg hk]
      have hy : known := h2.1 (Bool.not_eq_true _ ▸ hk)
      exact ⟨⟨fun _ => ⟨hyes.1, hyes.2, hy⟩, fun _ => ⟨_, rfl⟩⟩, fun h => absurd hyes h, fun _ _ h => absurd hy h⟩

/-- **C41.** When it succeeds, `get_dim_axis_value` gives, in the order asked for, each dimension asked for with its axis and
the value given for it as a keyword (`None` if there is none). -/
theorem C41_values {β} (dims : List String) (args : List (ArgVal β)) (kw : Dict (ArgVal β)) (multiple extra : Bool)
    (out : List (String × ℕ × Option (ArgVal β))) (h : getDimAxisValue dims args kw multiple extra = .ok out) :
    out.map (fun r => ArgVal.name r.1) = (asked args kw).filter (fun a => a.isDim dims) ∧
    ∀ r ∈ out, dims[r.2.1]? = some r.1 ∧ (∀ d ∈ dims.take r.2.1, d ≠ r.1) ∧ (r.1 ∉ reserved → r.2.2 = kw.get? r.1) := by
  unfold getDimAxisValue at h
  rw [asked_eq] at h
  simp only at h
  split at h
  · cases h
  split at h
  · cases h
  cases h
  constructor
  · generalize asked args kw = l
    induction l with
    | nil => rfl
    | cons a l ih =>
      cases a with
      | val v =>
        rw [List.filterMap_cons_none (by rfl), List.filter_cons_of_neg (by simp [ArgVal.isDim])]
        exact ih
      | name n =>
        by_cases hn : n ∈ dims
        · simpa [ArgVal.resolve, ArgVal.isDim, hn] using ih
        · simpa [ArgVal.resolve, ArgVal.isDim, hn] using ih
  · intro r hr
    obtain ⟨a, _, ha⟩ := List.mem_filterMap.1 hr
    cases a with
    | val v => cases ha
    | name n =>
      simp only [ArgVal.resolve] at ha
      split_ifs at ha with hn
      cases ha
      have hn' : n ∈ dims := by simpa using hn
      refine ⟨?_, ?_, ?_⟩
      · simp [List.getElem?_eq_getElem (List.idxOf_lt_length_of_mem hn')]
      · intro d hd he
        subst he
        obtain ⟨j, hj, he⟩ := List.getElem_of_mem hd
        rw [List.getElem_take] at he
        have hj' : j < dims.idxOf d := by simp at hj; omega
        have := List.not_of_lt_findIdx (p := fun x => x == d) (show j < dims.findIdx (fun x => x == d) from hj')
        simp [he] at this
      · intro hres
        have := Dict.get?_filter kw (fun s => !argKeys.contains s) n
        simp only at this ⊢
        rw [this]
        have h3 : (!argKeys.contains n) = true := by
          simpa [argKeys, reserved] using hres
        rw [if_pos h3]

example : (getDimAxisValue ["time", "distance"] [.name "distance"] [("time", .val (10 : ℕ))] true false).toOption =
      some [("distance", 1, none), ("time", 0, some (.val 10))] ∧
    (getDimAxisValue ["time", "distance"] [] [("dim", .name "time"), ("q", .val (10 : ℕ))] false true).toOption = some [("time", 0, none)] ∧
    (getDimAxisValue ["time", "distance"] [] [("dim", .name "time"), ("q", .val (10 : ℕ))] false false) = .error .patchCoordinateError ∧
    (getDimAxisValue ["time", "distance"] [.name "distance"] [("time", .val (10 : ℕ))] false false) = .error .parameterError := by
  refine ⟨by decide +kernel, by decide +kernel, by decide +kernel, by decide +kernel⟩

/-- **C41 violated** (two corner cases). A dimension called `dim` cannot be asked for by keyword. And naming one
dimension twice passes as "exactly one dimension" although two entries are returned. -/
theorem C41_violated :
    getDimAxisValue ["dim", "time"] [] [("dim", .val (10 : ℕ))] false false = .error .parameterError ∧
    (getDimAxisValue ["time", "distance"] [.name "time"] [("time", .val (10 : ℕ))] false false).toOption =
      some [("time", 0, some (.val 10)), ("time", 0, some (.val 10))] := by
  constructor <;> decide +kernel

/-! ## Window requests -/

theorem fewest_ceil {c : RangeCoord} (hs : 0 < c.step) (v : ℚ) : Fewest c v ⌈v / c.step⌉ := by
  constructor
  · rw [← div_le_iff₀ hs]; exact Int.le_ceil _
  · intro m hm
    exact Int.ceil_le.2 ((div_le_iff₀ hs).2 hm)

theorem rawCount_value {c : RangeCoord} (hs : 0 < c.step) {r : WinReq} (h0 : 0 ≤ r.amount c) :
    c.rawCount false r = .ok ⌈r.amount c / c.step⌉ := by
  unfold RangeCoord.rawCount RangeCoord.relative
  simp only [Bool.false_eq_true, if_false, hs.ne', if_pos h0]
  congr 3
  ring

/-- **C42.** On an increasing evenly sampled coordinate `get_sample_count` of a non-negative amount is the smallest number of
samples that last at least that long; with `enforce_lt_coord` it raises ParameterError if these are more than there are. -/
theorem C42_count_partial (c : RangeCoord) (hs : 0 < c.step) (v : ℚ) (h0 : 0 ≤ v) (enforce : Bool) :
    ∃ n, Fewest c v n ∧ c.sampleCount false enforce (.value v) =
      if enforce = true ∧ (c.len : ℤ) < n then .error .parameterError else .ok n := by
  refine ⟨_, fewest_ceil hs v, ?_⟩
  unfold RangeCoord.sampleCount
  rw [rawCount_value hs (r := .value v) h0]
  simp only [WinReq.amount, bind, Except.bind]
  by_cases hl : (c.len : ℤ) < ⌈v / c.step⌉ <;> cases enforce <;> simp [hl]

/-- **C42.** With `samples=True` integers are taken as they are and everything else raises ParameterError. -/
theorem C42_samples (c : RangeCoord) (enforce : Bool) (r : WinReq) : c.sampleCount true enforce r =
    match r with
    | .count n => if enforce = true ∧ (c.len : ℤ) < n then .error .parameterError else .ok n
    | _ => .error .parameterError := by
  unfold RangeCoord.sampleCount RangeCoord.rawCount
  cases r <;> simp only [if_true, bind, Except.bind]
  cases enforce <;> simp

theorem sampleCount_le {c : RangeCoord} {samples : Bool} {r : WinReq} {n : ℤ} (h : c.sampleCount samples true r = .ok n) : n ≤ c.len := by
  unfold RangeCoord.sampleCount at h
  simp only [bind, Except.bind] at h
  split at h
  · cases h
  · simp only [Bool.true_and, decide_eq_true_iff] at h
    split_ifs at h with h1
    cases h
    omega

theorem sampleCount_raw {c : RangeCoord} {samples enforce : Bool} {r : WinReq} {n : ℤ} (h : c.sampleCount samples enforce r = .ok n) :
    c.rawCount samples r = .ok n := by
  unfold RangeCoord.sampleCount at h
  simp only [bind, Except.bind] at h
  split at h
  · cases h
  · rename_i m hm
    split_ifs at h
    cases h
    exact hm

theorem window_means {c : RangeCoord} (hs : 0 < c.step) {samples : Bool} {r : WinReq} (h0 : samples = false → 0 ≤ r.amount c) {n : ℤ}
    (h : c.rawCount samples r = .ok n) : WindowMeans c samples r n := by
  unfold WindowMeans
  cases samples with
  | true =>
    simp only [RangeCoord.rawCount, if_true] at h
    cases r <;> simp_all
  | false =>
    rw [rawCount_value hs (h0 rfl)] at h
    cases h
    cases r <;> exact fewest_ceil hs _

theorem quantity_means {c : RangeCoord} (hs : 0 < c.step) {samples : Bool} {w : ℤ} {r : WinReq} {r' : Option WinReq × Bool}
    (h1 : percentToSamps w (some r) = .ok r') (h2 : checkNotNegative r'.1 = .ok ()) {o : Option ℤ}
    (h3 : quantityToSamps c (samples || r'.2) r'.1 = .ok o) : ∃ n, o = some n ∧ Means c w samples r n := by
  have hneg : ∀ x, r'.1 = some x → 0 ≤ x.magnitude := by
    intro x hx
    unfold checkNotNegative at h2
    rw [hx] at h2
    simp only [Option.any_some, decide_eq_true_iff] at h2
    split_ifs at h2 with h
    exact not_lt.1 h
  cases r with
  | percent m =>
    simp only [percentToSamps] at h1
    split_ifs at h1 with hm
    cases h1
    simp only [quantityToSamps, Bool.or_true] at h3
    rw [C42_samples] at h3
    simp only at h3
    split_ifs at h3
    · cases h3
    simp only [Except.map, Except.ok.injEq] at h3
    subst h3
    push Not at hm
    exact ⟨_, rfl, hm.1, hm.2, rfl⟩
  | count k =>
    cases h1
    have hk : 0 ≤ (k : ℚ) := hneg _ rfl
    simp only [quantityToSamps, Bool.or_false] at h3
    cases hc : c.sampleCount samples true (.count k) with
    | error e => rw [hc] at h3; cases h3
    | ok n =>
      rw [hc] at h3; cases h3
      refine ⟨n, rfl, ?_⟩
      have := window_means hs (r := .count k) (fun _ => hk) (sampleCount_raw hc)
      unfold WindowMeans at this
      unfold Means
      cases samples with
      | true => simp only [if_true] at this ⊢; cases this; rfl
      | false => simpa using this
  | value v =>
    cases h1
    have hk : 0 ≤ v := hneg _ rfl
    simp only [quantityToSamps, Bool.or_false] at h3
    cases hc : c.sampleCount samples true (.value v) with
    | error e => rw [hc] at h3; cases h3
    | ok n =>
      rw [hc] at h3; cases h3
      refine ⟨n, rfl, ?_⟩
      have := window_means hs (r := .value v) (fun _ => hk) (sampleCount_raw hc)
      unfold WindowMeans at this
      unfold Means
      cases samples with
      | true => simp at this
      | false => exact ⟨rfl, by simpa using this⟩
  | quantity v =>
    cases h1
    have hk : 0 ≤ v := hneg _ rfl
    simp only [quantityToSamps] at h3
    cases hc : c.sampleCount false true (.quantity v) with
    | error e => rw [hc] at h3; cases h3
    | ok n =>
      rw [hc] at h3; cases h3
      refine ⟨n, rfl, ?_⟩
      have := window_means hs (r := .quantity v) (fun _ => hk) (sampleCount_raw hc)
      simpa [WindowMeans, Means] using this

/-- **C42.** If a window request with a step or an overlap is accepted on an increasing coordinate, the window is what was
asked for and no longer than the coordinate, the step is what was asked for or window minus overlap, and positive; without
either there is no step. Asking for both a step and an overlap raises. -/
theorem C42_window_step_partial (c : RangeCoord) (hs : 0 < c.step) (overlap step : Option WinReq) (samples : Bool) (win : WinReq)
    (h0 : samples = false → 0 ≤ win.amount c) (w : ℤ) (s : Option ℤ) (h : windowStep c overlap step samples win = .ok (w, s)) :
    WindowMeans c samples win w ∧ w ≤ c.len ∧ (overlap = none ∨ step = none) ∧
    (∀ r, step = some r → ∃ n, s = some n ∧ 0 < n ∧ Means c w samples r n) ∧
    (∀ r, overlap = some r → ∃ o n, s = some n ∧ 0 < n ∧ n + o = w ∧ Means c w samples r o) ∧
    (step = none → overlap = none → s = none) := by
  unfold windowStep at h
  by_cases hb : (overlap.isSome && step.isSome) = true
  · rw [if_pos hb] at h; cases h
  rw [if_neg hb] at h
  simp only [bind, Except.bind] at h
  split at h
  · cases h
  rename_i w' hw
  split at h
  · cases h
  rename_i st hst
  split at h
  · cases h
  rename_i ov hov
  split at h
  · cases h
  rename_i _ hc1
  split at h
  · cases h
  rename_i _ hc2
  split at h
  · cases h
  rename_i s' hs'
  split at h
  · cases h
  rename_i o' ho'
  unfold checkStep at h
  split_ifs at h with hpos
  cases h
  have hboth : overlap = none ∨ step = none := by
    cases overlap <;> cases step <;> simp_all
  refine ⟨window_means hs h0 (sampleCount_raw hw), sampleCount_le hw, hboth, ?_, ?_, ?_⟩
  · rintro r rfl
    obtain ⟨n, h1, h2⟩ := quantity_means hs hst hc1 hs'
    subst h1
    refine ⟨n, rfl, ?_, h2⟩
    simpa [overlapToStep] using hpos
  · rintro r rfl
    have hno : step = none := by rcases hboth with h | h <;> simp_all
    subst hno
    cases hst
    cases hs'
    obtain ⟨o, h1, h2⟩ := quantity_means hs hov hc2 ho'
    subst h1
    refine ⟨o, w - o, rfl, ?_, by ring, h2⟩
    simpa [overlapToStep] using hpos
  · rintro rfl rfl
    cases hst; cases hov
    cases hs'; cases ho'
    rfl

example : (0 < exUp.step) ∧ windowStep exUp (some (.percent 50)) none false (.value 7) = .ok (3, some 1) ∧
    windowStep exUp none (some (.count 2)) true (.count 3) = .ok (3, some 2) ∧
    windowStep exUp (some (.quantity 3)) none true (.count 3) = .ok (3, some 2) ∧
    windowStep exUp (some (.value 9)) none false (.value 7) = .error .parameterError ∧
    windowStep exUp none none false (.value 20) = .error .parameterError := by
  refine ⟨by norm_num [exUp], by decide +kernel, by decide +kernel, by decide +kernel, by decide +kernel, by decide +kernel⟩

/-- **C42 violated**: a negative window is not rejected; since it counts from the end of the coordinate, a window of -1
units becomes one of three samples. On a decreasing coordinate every window becomes a negative number of samples. -/
theorem C42_negative_violated :
    windowStep exUp none none false (.value (-1)) = .ok (3, none) ∧
    windowStep exDown none none false (.value 6) = .ok (-2, none) ∧
    windowStep exUp none none true (.count (-2)) = .ok (-2, none) := by
  refine ⟨by decide +kernel, by decide +kernel, by decide +kernel⟩

/-! ### Window sizes for several dimensions -/

/-- **C42.** Sizes for several dimensions (`get_patch_window_size`): there is one size per dimension of the patch; a dimension
that was not named has size 1; a dimension that was named has at least the minimum number of samples, an odd number if that
was required, and exactly what was asked for or, for durations with an odd number required, at most one sample more. -/
theorem C42_sizes_partial (m : CM) (kw : Dict WinReq) (hk : (kw.map Prod.fst).Nodup) (samples odd : Bool) (minSamples : ℤ)
    (enforce : Bool) (size : List ℤ) (h : patchWindowSize m kw samples odd minSamples enforce = .ok size) :
    size.length = m.dims.length ∧
    (∀ d ∈ m.dims, d ∉ kw.map Prod.fst → size[m.dims.idxOf d]? = some 1) ∧
    (∀ d r, (d, r) ∈ kw → d ∈ m.dims ∧ ∃ n ds k c n0, size[m.dims.idxOf d]? = some n ∧ m.ents.get? d = some (ds, .one k (.range c)) ∧
      c.sampleCount samples enforce r = .ok n0 ∧ minSamples ≤ n0 ∧
      n = (if odd = true ∧ n0 % 2 ≠ 1 then n0 + 1 else n0) ∧ (odd = true → n % 2 = 1) ∧ (n ≠ n0 → samples = false)) := by
  unfold patchWindowSize at h
  by_cases he : kw.isEmpty = true
  · rw [if_pos he] at h
    cases h
    have : kw = [] := List.isEmpty_iff.1 he
    subst this
    refine ⟨by simp, ?_, by simp⟩
    intro d hd _
    simp [List.idxOf_lt_length_of_mem hd]
  rw [if_neg he] at h
  by_cases hu : (kw.any fun q => !m.dims.contains q.1) = true
  · rw [if_pos hu] at h; split_ifs at h
  rw [if_neg hu] at h
  have hall : ∀ q ∈ kw, q.1 ∈ m.dims := by
    intro q hq
    by_contra hc
    exact hu (List.any_eq_true.2 ⟨q, hq, by simpa using hc⟩)
  -- the loop
  have key : ∀ (l : Dict WinReq) (size0 size : List ℤ), (l.map Prod.fst).Nodup → (∀ q ∈ l, q.1 ∈ m.dims) → size0.length = m.dims.length →
      l.foldlM (windowSizeStep m samples odd enforce minSamples) size0 = .ok size →
      size.length = m.dims.length ∧
      (∀ d ∈ m.dims, d ∉ l.map Prod.fst → size[m.dims.idxOf d]? = size0[m.dims.idxOf d]?) ∧
      (∀ d r, (d, r) ∈ l → ∃ n ds k c n0, size[m.dims.idxOf d]? = some n ∧ m.ents.get? d = some (ds, .one k (.range c)) ∧
        c.sampleCount samples enforce r = .ok n0 ∧ minSamples ≤ n0 ∧
        n = (if odd = true ∧ n0 % 2 ≠ 1 then n0 + 1 else n0) ∧ (odd = true → n % 2 = 1) ∧ (n ≠ n0 → samples = false)) := by
    intro l
    induction l with
    | nil =>
      intro size0 size _ _ hl h
      simp [pure, Except.pure] at h
      subst h
      exact ⟨hl, fun _ _ _ => rfl, by simp⟩
    | cons q l ih =>
      intro size0 size hnd hq hl h
      rw [List.foldlM_cons] at h
      cases h1 : windowSizeStep m samples odd enforce minSamples size0 q with
      | error e => rw [h1] at h; cases h
      | ok size1 =>
        rw [h1] at h
        replace h : l.foldlM (windowSizeStep m samples odd enforce minSamples) size1 = .ok size := h
        simp only [List.map_cons, List.nodup_cons] at hnd
        unfold windowSizeStep at h1
        split at h1
        · rename_i ds k c hc
          simp only [bind, Except.bind, pure, Except.pure] at h1
          split at h1
          · cases h1
          rename_i n0 hn0
          split at h1
          · cases h1
          rename_i n hn1
          cases h1
          obtain ⟨i1, i2, i3⟩ := ih _ _ hnd.2 (fun q' h' => hq q' (List.mem_cons_of_mem _ h')) (by simpa using hl) h
          have hqd := hq q List.mem_cons_self
          refine ⟨i1, ?_, ?_⟩
          · intro d hd hnot
            simp only [List.map_cons, List.mem_cons, not_or] at hnot
            rw [i2 d hd hnot.2, List.getElem?_set, if_neg]
            intro h2
            exact hnot.1 ((List.idxOf_inj hqd).1 h2).symm
          · intro d r hdr
            rcases List.mem_cons.1 hdr with rfl | hdr
            · cases c with
              | range c =>
                refine ⟨n, ds, k, c, n0, ?_, hc, hn0, ?_⟩
                · rw [i2 d hqd hnd.1, List.getElem?_set, if_pos rfl, if_pos (by
                    rw [hl]; exact List.idxOf_lt_length_of_mem hqd)]
                · unfold adjustCount at hn1
                  split_ifs at hn1 with g1 g2 g3
                  · cases hn1
                    simp only [Bool.and_eq_true, decide_eq_true_iff] at g2
                    refine ⟨by omega, by rw [if_pos g2], fun _ => ?_, fun _ => by simpa using g3⟩
                    have := g2.2; omega
                  · cases hn1
                    simp only [Bool.and_eq_true, decide_eq_true_iff, not_and, not_not] at g2
                    refine ⟨by omega, ?_, g2, fun h => absurd rfl h⟩
                    rw [if_neg]
                    rintro ⟨a, b⟩; exact b (g2 a)
              | _ => cases hn0
            · exact i3 d r hdr
        · cases h1
  obtain ⟨h1, h2, h3⟩ := key kw _ _ hk hall (by simp) h
  refine ⟨h1, ?_, fun d r hdr => ⟨hall _ hdr, h3 d r hdr⟩⟩
  intro d hd hnot
  rw [h2 d hd hnot]
  simp [List.idxOf_lt_length_of_mem hd]

/-- **C42.** Which requests are accepted: sizes are returned exactly if every named dimension is one of the patch's, has an
evenly sampled coordinate, and asks for at least the minimum number of samples, and, where an odd number is required and the
request is in samples, for an odd number. -/
theorem C42_sizes_accepted (m : CM) (kw : Dict WinReq) (samples odd : Bool) (minSamples : ℤ) (enforce : Bool) :
    (∃ size, patchWindowSize m kw samples odd minSamples enforce = .ok size) ↔
    ∀ d r, (d, r) ∈ kw → d ∈ m.dims ∧ ∃ ds k c n0, m.ents.get? d = some (ds, .one k (.range c)) ∧
      c.sampleCount samples enforce r = .ok n0 ∧ minSamples ≤ n0 ∧ (odd = true → samples = true → n0 % 2 = 1) := by
  -- one step
  have step : ∀ (q : String × WinReq) (s0 : List ℤ), (∃ s1, windowSizeStep m samples odd enforce minSamples s0 q = .ok s1) ↔
      ∃ ds k c n0, m.ents.get? q.1 = some (ds, .one k (.range c)) ∧
      c.sampleCount samples enforce q.2 = .ok n0 ∧ minSamples ≤ n0 ∧ (odd = true → samples = true → n0 % 2 = 1) := by
    intro q s0
    constructor
    · rintro ⟨s1, h1⟩
      unfold windowSizeStep at h1
      split at h1
      · rename_i ds k c hc
        simp only [bind, Except.bind, pure, Except.pure] at h1
        split at h1
        · cases h1
        rename_i n0 hn0
        split at h1
        · cases h1
        rename_i n hn1
        cases c with
        | range c =>
          refine ⟨ds, k, c, n0, hc, hn0, ?_⟩
          unfold adjustCount at hn1
          split_ifs at hn1 with g1 g2 g3
          · exact ⟨by omega, fun _ h => absurd h g3⟩
          · simp only [Bool.and_eq_true, decide_eq_true_iff, not_and, not_not] at g2
            exact ⟨by omega, fun h _ => g2 h⟩
        | _ => cases hn0
      · cases h1
    · rintro ⟨ds, k, c, n0, hc, hn0, hmin, hodd⟩
      have hadj : ∃ n, adjustCount samples odd minSamples n0 = .ok n := by
        unfold adjustCount
        rw [if_neg (by omega)]
        by_cases g : (odd && decide (n0 % 2 ≠ 1)) = true
        · rw [if_pos g]
          simp only [Bool.and_eq_true, decide_eq_true_iff] at g
          rw [if_neg (fun h => g.2 (hodd g.1 h))]
          exact ⟨_, rfl⟩
        · rw [if_neg g]
          exact ⟨_, rfl⟩
      obtain ⟨n, hn⟩ := hadj
      refine ⟨s0.set (m.dims.idxOf q.1) n, ?_⟩
      unfold windowSizeStep
      rw [hc]
      simp only [bind, Except.bind, pure, Except.pure]
      rw [show (Coord.range c).sampleCount samples enforce q.2 = .ok n0 from hn0]
      simp only [hn]
  -- the loop
  have loop : ∀ (l : Dict WinReq) (s0 : List ℤ), (∃ s, l.foldlM (windowSizeStep m samples odd enforce minSamples) s0 = .ok s) ↔
      ∀ q ∈ l, ∃ ds k c n0, m.ents.get? q.1 = some (ds, .one k (.range c)) ∧
      c.sampleCount samples enforce q.2 = .ok n0 ∧ minSamples ≤ n0 ∧ (odd = true → samples = true → n0 % 2 = 1) := by
    intro l
    induction l with
    | nil => intro s0; simp [pure, Except.pure]
    | cons q l ih =>
      intro s0
      rw [List.foldlM_cons, List.forall_mem_cons]
      constructor
      · rintro ⟨s, h⟩
        cases h1 : windowSizeStep m samples odd enforce minSamples s0 q with
        | error e => rw [h1] at h; cases h
        | ok s1 =>
          rw [h1] at h
          exact ⟨(step q s0).1 ⟨s1, h1⟩, (ih s1).1 ⟨s, h⟩⟩
      · rintro ⟨h1, h2⟩
        obtain ⟨s1, h1⟩ := (step q s0).2 h1
        rw [h1]
        exact (ih s1).2 h2
  unfold patchWindowSize
  by_cases he : kw.isEmpty = true
  · rw [if_pos he]
    have : kw = [] := List.isEmpty_iff.1 he
    subst this
    simp
  rw [if_neg he]
  by_cases hu : (kw.any fun q => !m.dims.contains q.1) = true
  · rw [if_pos hu]
    obtain ⟨q, hq, hnot⟩ := List.any_eq_true.1 hu
    constructor
    · rintro ⟨s, h⟩; split_ifs at h
    · intro h
      have := (h q.1 q.2 hq).1
      simp [this] at hnot
  rw [if_neg hu, loop]
  have hall : ∀ q ∈ kw, q.1 ∈ m.dims := by
    intro q hq
    by_contra hc
    exact hu (List.any_eq_true.2 ⟨q, hq, by simpa using hc⟩)
  exact ⟨fun h d r hdr => ⟨hall _ hdr, h _ hdr⟩, fun h q hq => (h q.1 q.2 hq).2⟩

example : patchWindowSize exCM [("distance", .value 5)] false true 1 false = .ok [1, 3] ∧
    patchWindowSize exCM [("distance", .count 2)] true true 1 false = .error .parameterError ∧
    patchWindowSize exCM [("distance", .value 7)] false false 4 false = .error .parameterError ∧
    patchWindowSize exCM [("time", .value 1)] false false 1 false = .error .coordError := by
  refine ⟨by decide +kernel, by decide +kernel, by decide +kernel, by decide +kernel⟩

/-- **C42 violated**: with `enforce_lt_coord` and an odd size required, a window as long as the coordinate is enlarged
beyond it (five samples along a dimension of four). -/
theorem C42_odd_violated : patchWindowSize exCM [("distance", .value 12)] false true 1 true = .ok [1, 5] ∧ lenDim exCM "distance" = 4 := by
  constructor <;> decide +kernel

/-! ## Rolling -/

/-- The request resolves to `w` samples with step `s`. -/
def Resolves (m : CM) (dim : String) (win : WinReq) (step overlap : Option WinReq) (samples : Bool) (w : ℤ) (s : Option ℤ) : Prop :=
  ∃ ds k c, m.ents.get? dim = some (ds, .one k (.range c)) ∧ windowStep c overlap step samples win = .ok (w, s)

theorem rolling_spec {α β} {f : List α → β} {nan : β} {p : PatchM α} {q : PatchM β} (hm : Regular p.cm) (hd : p.cm.dims ≠ [])
    (hsh : p.cm.shape = p.data.shape) {dim : String} {win : WinReq} {step overlap : Option WinReq} {samples center : Bool}
    (h : p.rolling f nan dim win step overlap samples center = .ok q) :
    dim ∈ p.cm.dims ∧ ∃ w s, Resolves p.cm dim win step overlap samples w s ∧ 1 ≤ w ∧ w ≤ lenDim p.cm dim ∧ 1 ≤ (s.getD 1).toNat ∧
      Thinned (windowed f nan p dim w.toNat (if center then numNans w.toNat (s.getD 1).toNat / 2 * (s.getD 1).toNat else 0)) q dim
        (everyNth (lenDim p.cm dim) (s.getD 1).toNat) ∧
      Regular q.cm ∧ q.cm.shape = q.data.shape := by
  unfold PatchM.rolling at h
  by_cases hdim : dim ∈ p.cm.dims
  · rw [if_neg (not_not.2 hdim)] at h
    refine ⟨hdim, ?_⟩
    split at h
    · rename_i ds k c hc
      simp only [bind, Except.bind] at h
      split at h
      · cases h
      rename_i r hr
      obtain ⟨w, s⟩ := r
      simp only at h
      split_ifs at h with hz
      push Not at hz
      have hsp : 0 < s.getD 1 := by
        cases s with
        | none => simp
        | some x =>
          have : ¬ x ≤ 0 := by
            unfold windowStep at hr
            split_ifs at hr
            simp only [bind, Except.bind] at hr
            repeat' (split at hr; · cases hr)
            unfold checkStep at hr
            split_ifs at hr with hp
            injection hr with hr
            injection hr with _ hr
            rw [hr] at hp
            simpa using hp
          simpa using this
      have hw0 : 0 ≤ w := by
        by_contra hneg
        unfold PatchM.rollApply at h
        simp only at h
        rw [if_pos (Or.inl (by omega))] at h
        cases h
      have hs1 : 0 < (s.getD 1).toNat := by omega
      obtain ⟨h1, h2, h3, h4⟩ := rollApply_spec hm hd hsh hdim (show 1 ≤ w by have := hz.1; omega) hs1 h
      exact ⟨w, s, ⟨ds, k, c, hc, hr⟩, by have := hz.1; omega, h1, hs1, h2, h3, h4⟩
    · cases h
  · rw [if_pos hdim] at h; cases h

/-- **C43.** If rolling (not centred) succeeds, the window being `w` samples and the step `s`: the result has the labels at the
positions `0, s, 2s, …`; its value at each of them is the function of exactly the `w` samples ending there, and null where
there are fewer than `w` samples up to there. -/
theorem C43_rolling_partial {α β} (f : List α → β) (nan : β) (p : PatchM α) (q : PatchM β) (hm : Regular p.cm) (hd : p.cm.dims ≠ [])
    (hsh : p.cm.shape = p.data.shape) (dim : String) (win : WinReq) (step overlap : Option WinReq) (samples : Bool)
    (h : p.rolling f nan dim win step overlap samples false = .ok q) :
    dim ∈ p.cm.dims ∧ ∃ w s, Resolves p.cm dim win step overlap samples w s ∧ 1 ≤ w ∧ w ≤ lenDim p.cm dim ∧ 1 ≤ (s.getD 1).toNat ∧
      Thinned (windowed f nan p dim w.toNat 0) q dim (everyNth (lenDim p.cm dim) (s.getD 1).toNat) ∧
      Regular q.cm ∧ q.cm.shape = q.data.shape := by
  have := rolling_spec hm hd hsh h
  simpa using this

/-- **C43.** If centred rolling succeeds and the step is one or divides half the window, each value is the function of the `w`
samples around it: `(w-1)/2` of them after it (rounded down) and the others before it. Missing for the full property: other
steps, see the violation below. -/
theorem C43_centred_partial {α β} (f : List α → β) (nan : β) (p : PatchM α) (q : PatchM β) (hm : Regular p.cm) (hd : p.cm.dims ≠ [])
    (hsh : p.cm.shape = p.data.shape) (dim : String) (win : WinReq) (step overlap : Option WinReq) (samples : Bool)
    (h : p.rolling f nan dim win step overlap samples true = .ok q) :
    ∃ w s, Resolves p.cm dim win step overlap samples w s ∧ 1 ≤ w ∧ w ≤ lenDim p.cm dim ∧
      ((s.getD 1 = 1 ∨ 2 * s.getD 1 ∣ w - 1) →
        Thinned (windowed f nan p dim w.toNat ((w.toNat - 1) / 2)) q dim (everyNth (lenDim p.cm dim) (s.getD 1).toNat)) := by
  obtain ⟨_, w, s, h1, h2, h3, h4, h5, _⟩ := rolling_spec hm hd hsh h
  refine ⟨w, s, h1, h2, h3, fun hcase => ?_⟩
  have : numNans w.toNat (s.getD 1).toNat / 2 * (s.getD 1).toNat = (w.toNat - 1) / 2 := by
    obtain ⟨n, hn⟩ : ∃ n : ℕ, w = n := Int.eq_ofNat_of_zero_le (by omega)
    obtain ⟨k, hk⟩ : ∃ k : ℕ, s.getD 1 = k := Int.eq_ofNat_of_zero_le (by omega)
    rw [hk] at h4 hcase ⊢
    subst hn
    simp only [Int.toNat_natCast] at h4 ⊢
    obtain ⟨k1, k2⟩ := numNans_spec (w := n) (s := k) (by omega) (by omega)
    rcases hcase with hc | ⟨c, hc⟩
    · have : k = 1 := by omega
      subst this
      omega
    · have hc0 : 0 ≤ c := by
        by_contra hneg
        have : 2 * (k : ℤ) * c < 0 := mul_neg_of_pos_of_neg (by omega) (by omega)
        omega
      obtain ⟨c', rfl⟩ := Int.eq_ofNat_of_zero_le hc0
      have hc' : n = 2 * k * c' + 1 := by zify; linarith
      have e : numNans n k = 2 * c' := by
        have h6 : (2 * c') * k ≤ numNans n k * k := by
          calc (2 * c') * k = 2 * k * c' := by ring
            _ ≤ _ := by omega
        have h7 : numNans n k * k < (2 * c' + 1) * k := by
          calc _ < n + k - 1 := k2
            _ = (2 * c' + 1) * k := by
              have : (2 * c' + 1) * k = 2 * k * c' + k := by ring
              omega
        have h8 := Nat.le_of_mul_le_mul_right h6 (by omega)
        have h9 := Nat.lt_of_mul_lt_mul_right h7
        omega
      rw [e, hc', Nat.mul_div_cancel_left _ (by norm_num), Nat.add_sub_cancel]
      have : 2 * k * c' = 2 * (c' * k) := by ring
      rw [this, Nat.mul_div_cancel_left _ (by norm_num)]
  rw [if_pos rfl, this] at h5
  exact h5

/-- The sum of a window. -/
def sumWindow (l : List ℕ) : Option ℕ := some l.sum

example : Regular exPatch.cm ∧ exPatch.cm.dims ≠ [] ∧ exPatch.cm.shape = exPatch.data.shape ∧
    (exPatch.rolling sumWindow none "distance" (.count 3) (some (.count 2)) none true false).map
      (fun q => (q.data.shape, q.data.get [1, 0], q.data.get [1, 1], label q "distance" [1, 1])) = .ok ([2, 2], none, some 33, some (some 11)) ∧
    (exPatch.rolling sumWindow none "distance" (.value 9) none none false true).map
      (fun q => (q.data.shape, q.data.get [1, 0], q.data.get [1, 1], q.data.get [1, 3])) = .ok ([2, 4], none, some 33, none) :=
  ⟨exCM_regular, by decide, by decide +kernel, by decide +kernel, by decide +kernel⟩

/-- **C43 violated**: with `center=True`, a window of three samples and a step of two, the value at each label is not that of the
window centred there but of the one ending there (the same values as without centring). -/
theorem C43_centre_violated :
    (exPatch.rolling sumWindow none "distance" (.count 3) (some (.count 2)) none true true).map
      (fun q => (q.data.get [1, 0], q.data.get [1, 1], label q "distance" [1, 1])) = .ok (none, some 33, some (some 11)) ∧
    (exPatch.data.get [1, 0] + exPatch.data.get [1, 1] + exPatch.data.get [1, 2], label exPatch "distance" [1, 2]) = (33, some (some 11)) ∧
    exPatch.data.get [1, 1] + exPatch.data.get [1, 2] + exPatch.data.get [1, 3] = 36 := by
  refine ⟨by decide +kernel, by decide +kernel, by decide +kernel⟩

end Verif
