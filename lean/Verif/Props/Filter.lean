import Verif.Spec.Filter
import Mathlib.Tactic.Linarith
import Mathlib.Data.List.Dedup
/-!
# Properties C26, C27: filtering and trimming contents tables
-/
namespace Verif
open Spec

theorem mapM_inv {α β} (f : α → Except Err β) : ∀ (l : List α) (ys : List β), l.mapM f = .ok ys →
    List.Forall₂ (fun x y => f x = .ok y) l ys := by
  intro l
  induction l with
  | nil => intro ys h; simp [List.mapM_nil, pure, Except.pure] at h; subst h; exact .nil
  | cons x xs ih =>
    intro ys h
    rw [List.mapM_cons] at h
    cases hx : f x with
    | error e => rw [hx] at h; simp [bind, Except.bind] at h
    | ok y =>
      rw [hx] at h
      cases hxs : xs.mapM f with
      | error e => rw [hxs] at h; simp [bind, Except.bind] at h
      | ok zs =>
        rw [hxs] at h
        simp [bind, Except.bind, pure, Except.pure] at h
        subst h
        exact .cons hx (ih _ hxs)

theorem mapM_all {α β} {f : α → Except Err β} {l : List α} {ys : List β} (h : l.mapM f = .ok ys) (P : β → Bool) :
    ys.all P = true ↔ ∀ x ∈ l, ∀ y, f x = .ok y → P y = true := by
  have := mapM_inv f l ys h
  clear h
  induction this with
  | nil => simp
  | cons hxy _ ih =>
    simp only [List.all_cons, Bool.and_eq_true, List.mem_cons, forall_eq_or_imp, ih]
    constructor
    · rintro ⟨h1, h2⟩
      exact ⟨fun y hy => by rw [hxy] at hy; injection hy with hy; subst hy; exact h1, h2⟩
    · rintro ⟨h1, h2⟩
      exact ⟨h1 _ hxy, h2⟩

theorem mapM_mem {α β} {f : α → Except Err β} {l : List α} {ys : List β} (h : l.mapM f = .ok ys) :
    ∀ x ∈ l, ∃ y ∈ ys, f x = .ok y := by
  have := mapM_inv f l ys h
  clear h
  induction this with
  | nil => simp
  | cons hxy _ ih =>
    intro z hz
    rcases List.mem_cons.1 hz with rfl | hz
    · exact ⟨_, by simp, hxy⟩
    · obtain ⟨y, hy, e⟩ := ih z hz
      exact ⟨y, by simp [hy], e⟩

theorem cellIn_iff (c : Cell) (x : QElem) : cellIn c x = true ↔ Holds c x := by
  cases c <;> cases x <;> simp [cellIn, Holds]

theorem columnCond_iff {glob : String → String → Bool} {t : Table} {k : Key} {v : QArg} {c : TRow → Bool}
    (hk : k ∈ t.cols) (hv : v ≠ .none ∧ v ≠ .dots) (h : columnCond glob t k v = .ok c) (r : TRow) :
    c r = true ↔ Satisfies glob t.cols k v r := by
  unfold Satisfies
  rw [if_pos hk]
  cases v with
  | none => exact absurd rfl hv.1
  | dots => exact absurd rfl hv.2
  | num q =>
    simp only [columnCond, Except.ok.injEq] at h
    subst h
    simp
  | str s =>
    simp only [columnCond] at h
    split_ifs at h with h1
    simp only [Except.ok.injEq] at h
    subst h
    simp only
    cases r k <;> simp
  | coll l =>
    simp only [columnCond] at h
    split_ifs at h with h1
    simp only [Except.ok.injEq] at h
    subst h
    simp [cellIn_iff]

theorem rangeCond_iff {glob : String → String → Bool} {t : Table} {k : Key} {v : QArg} {c : TRow → Bool}
    (hk : isMinMaxKey t.cols k = true) (h : rangeCond t k v = .ok c) (r : TRow) :
    c r = true ↔ Satisfies glob t.cols k v r := by
  unfold isMinMaxKey at hk
  simp only [Bool.and_eq_true, Bool.or_eq_true, beq_iff_eq, Bool.not_eq_true', List.contains_eq_mem,
    decide_eq_false_iff_not] at hk
  unfold Satisfies
  rw [if_neg hk.2]
  unfold rangeCond at h
  by_cases h1 : (⟨k.base, .plain⟩ : Key) ∈ t.cols
  swap
  · rw [if_neg h1] at h; simp at h
  rw [if_pos h1] at h
  cases v with
  | none =>
    simp [QArg.bound, bind, Except.bind, pure, Except.pure] at h
    subst h
    rcases hk.1 with e | e <;> simp [e]
  | dots =>
    simp [QArg.bound, bind, Except.bind, pure, Except.pure] at h
    subst h
    rcases hk.1 with e | e <;> simp [e]
  | num q =>
    simp [QArg.bound, bind, Except.bind, pure, Except.pure] at h
    subst h
    rcases hk.1 with e | e
    · simp only [e, if_true]
      cases r ⟨k.base, .plain⟩ <;> simp
    · simp only [e, show (Suffix.max = Suffix.min) ↔ False from by decide, if_false]
      cases r ⟨k.base, .plain⟩ <;> simp
  | str s => simp [QArg.bound, bind, Except.bind] at h
  | coll l => simp [QArg.bound, bind, Except.bind] at h

theorem multiCond_iff (b : String) (x y : Option ℚ) (r : TRow) (hr : Ordered r) :
    multiCond b (orderRangeTuple (x, y)) r = true ↔ Overlaps b x y r := by
  unfold multiCond Overlaps
  cases hlo : r ⟨b, .min⟩ with
  | null => simp
  | str s => simp
  | num lo =>
    cases hhi : r ⟨b, .max⟩ with
    | null => simp
    | str s => simp
    | num hi =>
      have ho := hr b lo hi hlo hhi
      simp only [Cell.num.injEq]
      have red : (∃ lo' hi' t, lo = lo' ∧ hi = hi' ∧ lo' ≤ t ∧ t ≤ hi' ∧ Within x y t) ↔
          ∃ t, lo ≤ t ∧ t ≤ hi ∧ Within x y t :=
        ⟨fun ⟨_, _, t, e1, e2, h⟩ => ⟨t, by subst e1; subst e2; exact h⟩, fun ⟨t, h⟩ => ⟨lo, hi, t, rfl, rfl, h⟩⟩
      rw [red]
      cases x with
      | none =>
        cases y with
        | none => simp [orderRangeTuple, Within]; exact ⟨lo, le_rfl, ho⟩
        | some y =>
          simp [orderRangeTuple, Within]
          exact ⟨fun h => ⟨lo, le_rfl, ho, h⟩, fun ⟨t, h1, h2, h3⟩ => by linarith⟩
      | some x =>
        cases y with
        | none =>
          simp [orderRangeTuple, Within]
          exact ⟨fun h => ⟨hi, ho, le_rfl, h⟩, fun ⟨t, h1, h2, h3⟩ => by linarith⟩
        | some y =>
          simp only [orderRangeTuple, Within]
          split_ifs with hyx
          · simp
            constructor
            · rintro ⟨h1, h2⟩
              exact ⟨max lo y, le_max_left _ _, max_le ho h1, Or.inr ⟨le_max_right _ _, max_le h2 hyx.le⟩⟩
            · rintro ⟨t, h1, h2, h3 | h3⟩ <;> constructor <;> linarith [h3.1, h3.2]
          · simp
            have hxy := not_lt.1 hyx
            constructor
            · rintro ⟨h1, h2⟩
              exact ⟨max lo x, le_max_left _ _, max_le ho h1, Or.inl ⟨le_max_right _ _, max_le h2 hxy⟩⟩
            · rintro ⟨t, h1, h2, h3 | h3⟩ <;> constructor <;> linarith [h3.1, h3.2]

theorem bound_limit {x : QElem} {a : Option ℚ} (h : x.bound = .ok a) : a = limit x := by
  cases x <;> simp [QElem.bound, limit] at h ⊢ <;> exact h.symm

theorem unknownCond_iff {glob : String → String → Bool} {cols : List Key} {k : Key} {v : QArg} {u : Unknown}
    (hk : k ∉ cols) (hmm : isMinMaxKey cols k = false) (h : classify cols k v = .ok u) (r : TRow) (hr : Ordered r) :
    unknownCond k.base u r = true ↔ Satisfies glob cols k v r := by
  have hsuf : k.suf = .plain ∨ k.suf = .step := by
    unfold isMinMaxKey at hmm
    cases hs : k.suf <;> simp [hs, hk] at hmm ⊢
  unfold Satisfies
  rw [if_neg hk]
  unfold classify at h
  split_ifs at h with hc
  · obtain ⟨e, h1, h2⟩ := hc
    simp only [e, h1, h2, forall_const]
    cases v with
    | none => simp at h; subst h; simp [unknownCond]
    | dots => simp at h
    | num q => simp at h
    | str s =>
      simp only at h
      split_ifs at h
      simp at h; subst h; simp [unknownCond]
    | coll l =>
      match l with
      | [] => simp at h; subst h; simp [unknownCond]
      | [x] => simp at h; subst h; simp [unknownCond]
      | [x, y] =>
        simp only [bind, Except.bind] at h
        cases hx : x.bound with
        | error e => rw [hx] at h; simp at h
        | ok a =>
          cases hy : y.bound with
          | error e => rw [hx, hy] at h; simp at h
          | ok b =>
            rw [hx, hy] at h
            simp only [pure, Except.pure, Except.ok.injEq] at h
            subst h
            simp only [unknownCond]
            rw [multiCond_iff _ _ _ _ hr, bound_limit hx, bound_limit hy]
      | x :: y :: z :: l => simp at h; subst h; simp [unknownCond]
  · have hu : u = .drop ∨ u = .unsupported := by
      cases v <;> simp at h <;> subst h <;> simp
    have ht : unknownCond k.base u r = true := by rcases hu with rfl | rfl <;> rfl
    simp only [ht, true_iff]
    rcases hsuf with e | e
    · simp only [e]
      split <;> try trivial
      all_goals simp_all
    · simp only [e]

/-- Filtering decides row by row. -/
theorem filterDf_fun {glob : String → String → Bool} {ignoreBad : Bool} {t : Table} {q : Query} {mask : List Bool}
    (h : filterDf glob ignoreBad t q = .ok mask) (hnone : ∀ kv ∈ q, kv.1 ∈ t.cols → kv.2 ≠ .none ∧ kv.2 ≠ .dots) :
    ∃ keep : TRow → Bool, mask = t.rows.map keep ∧
      ∀ r, Ordered r → (keep r = true ↔ ∀ kv ∈ q, Satisfies glob t.cols kv.1 kv.2 r) := by
  unfold filterDf at h
  simp only [bind, Except.bind] at h
  split at h
  · simp at h
  rename_i cls hcls
  split at h
  · simp at h
  rename_i hbad
  split at h
  · simp at h
  rename_i c1 hc1
  split at h
  · simp at h
  rename_i c2 hc2
  simp only [pure, Except.pure, Except.ok.injEq] at h
  refine ⟨_, h.symm, ?_⟩
  intro r hro
  simp only [List.all_append, Bool.and_eq_true, List.all_map]
  rw [mapM_all hc1, mapM_all hc2, mapM_all hcls]
  constructor
  · rintro ⟨⟨h1, h2⟩, h3⟩ kv hkv
    by_cases hmm : isMinMaxKey t.cols kv.1 = true
    · have hmem : kv ∈ q.filter fun kv => isMinMaxKey t.cols kv.1 := List.mem_filter.2 ⟨hkv, hmm⟩
      obtain ⟨c, _, hc⟩ := mapM_mem hc2 kv hmem
      exact (rangeCond_iff hmm hc r).1 (h2 kv hmem c hc)
    · simp only [Bool.not_eq_true] at hmm
      have hrest : kv ∈ q.filter fun kv => !isMinMaxKey t.cols kv.1 := List.mem_filter.2 ⟨hkv, by simp [hmm]⟩
      by_cases hin : kv.1 ∈ t.cols
      · have hmem : kv ∈ (q.filter fun kv => !isMinMaxKey t.cols kv.1).filter fun kv => t.cols.contains kv.1 :=
          List.mem_filter.2 ⟨hrest, by simpa using hin⟩
        obtain ⟨c, _, hc⟩ := mapM_mem hc1 kv hmem
        exact (columnCond_iff hin (hnone kv hkv hin) hc r).1 (h1 kv hmem c hc)
      · have hmem : kv ∈ (q.filter fun kv => !isMinMaxKey t.cols kv.1).filter fun kv => !t.cols.contains kv.1 :=
          List.mem_filter.2 ⟨hrest, by simpa using hin⟩
        obtain ⟨c, _, hc⟩ := mapM_mem hcls kv hmem
        cases hu : classify t.cols kv.1 kv.2 with
        | error e => rw [hu] at hc; simp [Except.map] at hc
        | ok u =>
          have := h3 kv hmem (kv.1, u) (by rw [hu]; rfl)
          exact (unknownCond_iff hin hmm hu r hro).1 this
  · intro hall
    refine ⟨⟨?_, ?_⟩, ?_⟩
    · intro kv hkv c hc
      obtain ⟨h1, h2⟩ := List.mem_filter.1 hkv
      have hq := (List.mem_filter.1 h1).1
      have hin : kv.1 ∈ t.cols := by simpa using h2
      exact (columnCond_iff hin (hnone kv hq hin) hc r).2 (hall kv hq)
    · intro kv hkv c hc
      obtain ⟨h1, h2⟩ := List.mem_filter.1 hkv
      exact (rangeCond_iff h2 hc r).2 (hall kv h1)
    · intro kv hkv c hc
      obtain ⟨h1, h2⟩ := List.mem_filter.1 hkv
      obtain ⟨h3, h4⟩ := List.mem_filter.1 h1
      have hin : kv.1 ∉ t.cols := by simpa using h2
      have hmm : isMinMaxKey t.cols kv.1 = false := by simpa using h4
      cases hu : classify t.cols kv.1 kv.2 with
      | error e => rw [hu] at hc; simp [Except.map] at hc
      | ok u =>
        rw [hu] at hc
        simp only [Except.map, Except.ok.injEq] at hc
        subst hc
        exact (unknownCond_iff hin hmm hu r hro).2 (hall kv h3)

/-- **C26** `filter_df` keeps a row exactly when it meets every condition of the query: equality, unix-style
matching or membership on columns, overlap of its interval with a range (limits in any order, possibly
open), and lower / upper bounds given by `{column}_min` / `{column}_max`. Missing: `None` or `...` given
for a column, where it is false (`C26_none_violated`). -/
theorem C26_filter_partial (glob : String → String → Bool) (ignoreBad : Bool) (t : Table) (q : Query) (mask : List Bool)
    (h : filterDf glob ignoreBad t q = .ok mask) (hord : ∀ r ∈ t.rows, Ordered r)
    (hnone : ∀ kv ∈ q, kv.1 ∈ t.cols → kv.2 ≠ .none ∧ kv.2 ≠ .dots) :
    mask.length = t.rows.length ∧ ∀ (i : ℕ) r, t.rows[i]? = some r →
      (mask[i]? = some true ↔ ∀ kv ∈ q, Satisfies glob t.cols kv.1 kv.2 r) := by
  obtain ⟨keep, rfl, hk⟩ := filterDf_fun h hnone
  refine ⟨by simp, ?_⟩
  intro i r hr
  rw [List.getElem?_map, hr, ← hk r (hord r (List.mem_of_getElem? hr))]
  simp

/-- A small table used in the examples: a station name, a network id, and a time interval with its step. -/
def demoTable : Table where
  cols := [⟨"station", .plain⟩, ⟨"id", .plain⟩, ⟨"time", .min⟩, ⟨"time", .max⟩, ⟨"time", .step⟩]
  rows := ([("a", 1, 0, 10), ("b", 2, 10, 20), ("a", 3, 21, 30)] : List (String × ℚ × ℚ × ℚ)).map fun x k =>
    if k = ⟨"station", .plain⟩ then .str x.1
    else if k = ⟨"id", .plain⟩ then .num x.2.1
    else if k = ⟨"time", .min⟩ then .num x.2.2.1
    else if k = ⟨"time", .max⟩ then .num x.2.2.2
    else if k = ⟨"time", .step⟩ then .num 1
    else .null

theorem demo_ordered : ∀ r ∈ demoTable.rows, Ordered r := by
  intro r hr b lo hi h1 h2
  simp only [demoTable, List.map_cons, List.map_nil, List.mem_cons, List.not_mem_nil, or_false] at hr
  rcases hr with rfl | rfl | rfl <;> by_cases hb : b = "time" <;> simp [hb] at h1 h2 <;> subst h1 <;> subst h2 <;> norm_num

example : filterDf (fun s c => s == c) false demoTable
    [(⟨"station", .plain⟩, .str "a"), (⟨"time", .plain⟩, .coll [.num 25, .num 10])] = .ok [true, false, true] := by
  decide +kernel
example : filterDf (fun s c => s == c) false demoTable [(⟨"id", .min⟩, .num 2), (⟨"id", .max⟩, .dots)] =
    .ok [false, true, true] := by decide +kernel

/-- **C26 violated**: `None` (or `...`) for a range means no condition, but for a column it matches nothing. -/
theorem C26_none_violated :
    filterDf (fun s c => s == c) false demoTable [(⟨"time", .plain⟩, .none)] = .ok [true, true, true] ∧
    filterDf (fun s c => s == c) false demoTable [(⟨"station", .plain⟩, .none)] = .ok [false, false, false] := by
  constructor <;> decide +kernel

/-- **C26 violated**: asking for all times with `time=...` is a TypeError, although `time=(..., ...)` and
`time=None` are accepted. -/
theorem C26_ellipsis_violated :
    filterDf (fun s c => s == c) false demoTable [(⟨"time", .plain⟩, .dots)] = .error .typeError ∧
    filterDf (fun s c => s == c) false demoTable [(⟨"time", .plain⟩, .coll [.dots, .dots])] = .ok [true, true, true] := by
  constructor <;> decide +kernel

/-- **C26** a key which is neither a column nor a dimension, nor a bound on one, is refused, whatever else the
query holds. -/
theorem C26_bad_key (glob : String → String → Bool) (t : Table) (q : Query) (k : Key) (v : QArg) (hq : (k, v) ∈ q)
    (hk : k ∉ t.cols) (hv : v ≠ .none) (hdim : ¬ ((⟨k.base, .min⟩ : Key) ∈ t.cols ∧ (⟨k.base, .max⟩ : Key) ∈ t.cols))
    (hs : k.suf = .plain ∨ k.suf = .step) : ∃ e, filterDf glob false t q = .error e := by
  cases hf : filterDf glob false t q with
  | error e => exact ⟨e, rfl⟩
  | ok mask =>
    exfalso
    unfold filterDf at hf
    simp only [bind, Except.bind] at hf
    split at hf
    · simp at hf
    rename_i cls hcls
    have hmem : (k, v) ∈ (q.filter fun kv => !isMinMaxKey t.cols kv.1).filter fun kv => !t.cols.contains kv.1 := by
      refine List.mem_filter.2 ⟨List.mem_filter.2 ⟨hq, ?_⟩, by simpa using hk⟩
      unfold isMinMaxKey
      rcases hs with e | e <;> simp [e]
    obtain ⟨c, hc, he⟩ := mapM_mem hcls (k, v) hmem
    have hcl : classify t.cols k v = .ok .unsupported := by
      unfold classify
      rw [if_neg (fun h => hdim ⟨h.2.1, h.2.2⟩)]
      cases v <;> simp at hv ⊢
    simp only [hcl, Except.map, Except.ok.injEq] at he
    subst he
    have hany : (cls.any fun c => c.2.bad) = true := List.any_eq_true.2 ⟨_, hc, rfl⟩
    simp [hany] at hf
example : ∃ e, filterDf (fun s c => s == c) false demoTable [(⟨"bob", .plain⟩, .num 1)] = .error e :=
  C26_bad_key _ _ _ ⟨"bob", .plain⟩ (.num 1) (by simp) (by decide) (by simp) (by decide) (Or.inl rfl)

/-- **C26 violated**: with `ignore_bad_kwargs=True` unknown keys are dropped, but one ending in `_min` or `_max`
raises KeyError. -/
theorem C26_ignore_bad_violated :
    filterDf (fun s c => s == c) true demoTable [(⟨"bob", .plain⟩, .num 1)] = .ok [true, true, true] ∧
    filterDf (fun s c => s == c) true demoTable [(⟨"bob", .max⟩, .num 1)] = .error .keyError := by
  constructor <;> decide +kernel

/-- **C26** `_min`/`_max` conditions on interval columns, once converted (as the directory index does), keep
exactly the rows whose interval meets the range between them; given in the wrong order they mean the same. -/
theorem C26_min_max_as_range (glob : String → String → Bool) (t : Table) (b : String) (x y : ℚ)
    (hmin : (⟨b, .min⟩ : Key) ∈ t.cols) (hmax : (⟨b, .max⟩ : Key) ∈ t.cols) (hb : (⟨b, .plain⟩ : Key) ∉ t.cols)
    (hord : ∀ r ∈ t.rows, Ordered r) :
    ∃ mask, filterDf glob false t (convertMinMax t.cols [(⟨b, .min⟩, .num x), (⟨b, .max⟩, .num y)]) = .ok mask ∧
      mask.length = t.rows.length ∧
      ∀ (i : ℕ) r, t.rows[i]? = some r → (mask[i]? = some true ↔ Overlaps b (some x) (some y) r) := by
  have hconv : convertMinMax t.cols [(⟨b, .min⟩, .num x), (⟨b, .max⟩, .num y)] =
      [(⟨b, .plain⟩, .coll [.num x, .num y])] := by
    simp [convertMinMax, hmin, hmax, List.contains_eq_mem, List.dedup_cons_of_mem]
  rw [hconv]
  have hok : ∃ mask, filterDf glob false t [(⟨b, .plain⟩, .coll [.num x, .num y])] = .ok mask := by
    have hcl : classify t.cols ⟨b, .plain⟩ (.coll [.num x, .num y]) = .ok (.range (some x) (some y)) := by
      unfold classify
      rw [if_pos ⟨rfl, hmin, hmax⟩]
      rfl
    unfold filterDf
    simp [isMinMaxKey, hb, hcl, bind, Except.bind, pure, Except.pure, Except.map, Unknown.bad, List.mapM_cons]
  obtain ⟨mask, hok⟩ := hok
  obtain ⟨h1, h2⟩ := C26_filter_partial glob false t _ mask hok hord (by
    intro kv hkv hin
    simp at hkv
    subst hkv
    exact absurd hin hb)
  refine ⟨mask, hok, h1, ?_⟩
  intro i r hr
  rw [h2 i r hr]
  simp [Satisfies, hb, hmin, hmax, limit]
example : convertMinMax demoTable.cols [(⟨"time", .min⟩, .num 25), (⟨"time", .max⟩, .num 10)] =
    [(⟨"time", .plain⟩, .coll [.num 25, .num 10])] := by decide +kernel

/-- **C26 violated** on the directory index: a range for `time` given together with `time_min` is forgotten, so rows
outside it are kept. -/
theorem C26_range_forgotten_violated :
    convertMinMax demoTable.cols [(⟨"time", .plain⟩, .coll [.num 1, .num 2]), (⟨"time", .min⟩, .num 5)] =
      [(⟨"time", .plain⟩, .coll [.num 5, .none])] := by decide +kernel

/-- **C26** an open range given for the `_min` or `_max` column of a dimension, which can only be a mistake, is
refused, whatever else the query holds. -/
theorem C26_misdirected_range (glob : String → String → Bool) (ignoreBad : Bool) (t : Table) (q : Query) (b : String)
    (s : Suffix) (x y : QElem) (hs : s = .min ∨ s = .max) (hq : (⟨b, s⟩, .coll [x, y]) ∈ q)
    (hopen : x = .none ∨ x = .dots ∨ y = .none ∨ y = .dots)
    (hmin : (⟨b, .min⟩ : Key) ∈ t.cols) (hmax : (⟨b, .max⟩ : Key) ∈ t.cols) :
    ∃ e, filterDf glob ignoreBad t q = .error e := by
  cases hf : filterDf glob ignoreBad t q with
  | error e => exact ⟨e, rfl⟩
  | ok mask =>
    exfalso
    have hcol : (⟨b, s⟩ : Key) ∈ t.cols := by rcases hs with rfl | rfl <;> assumption
    unfold filterDf at hf
    simp only [bind, Except.bind] at hf
    split at hf
    · simp at hf
    rename_i cls hcls
    split at hf
    · cases hf
    split at hf
    · simp at hf
    rename_i c1 hc1
    have hmem : ((⟨b, s⟩ : Key), QArg.coll [x, y]) ∈ (q.filter fun kv => !isMinMaxKey t.cols kv.1).filter fun kv => t.cols.contains kv.1 := by
      refine List.mem_filter.2 ⟨List.mem_filter.2 ⟨hq, ?_⟩, by simpa using hcol⟩
      unfold isMinMaxKey
      simp [hcol]
    obtain ⟨c, hc, he⟩ := mapM_mem hc1 _ hmem
    have : misdirected t.cols ⟨b, s⟩ [x, y] = true := by
      unfold misdirected
      simp only [List.contains_eq_mem, hmin, hmax, decide_true, Bool.and_true]
      rcases hs with rfl | rfl <;> rcases hopen with h | h | h | h <;> subst h <;> simp
    simp [columnCond, this] at he
example : ∃ e, filterDf (fun s c => s == c) true demoTable [(⟨"time", .max⟩, .coll [.dots, .num 4])] = .error e :=
  C26_misdirected_range _ _ _ _ "time" .max .dots (.num 4) (Or.inr rfl) (by simp) (by simp) (by decide) (by decide)

/-! ### C27: trimming -/

/-- `k` asks for a range of a dimension of the table. -/
def IsRangeKey (cols : List Key) (k : Key) : Prop :=
  k.suf = .plain ∧ (⟨k.base, .min⟩ : Key) ∈ cols ∧ (⟨k.base, .max⟩ : Key) ∈ cols ∧ k ∉ cols

/-- The limits a range value stands for: `None` and `...` are open. -/
def rangeLimits : QArg → Option ℚ × Option ℚ
  | .coll [x, y] => (limit x, limit y)
  | _ => (none, none)

theorem within_order (x y : Option ℚ) (t : ℚ) :
    Within x y t ↔ (∀ a, (orderRangeTuple (x, y)).1 = some a → a ≤ t) ∧
      (∀ b, (orderRangeTuple (x, y)).2 = some b → t ≤ b) := by
  cases x <;> cases y <;> simp only [orderRangeTuple, Within]
  · simp
  · simp
  · simp
  · split_ifs with h
    · simp only [Option.some.injEq, forall_eq']
      constructor
      · rintro (⟨h1, h2⟩ | h1)
        · constructor <;> linarith
        · exact h1
      · exact fun h1 => Or.inr h1
    · simp only [Option.some.injEq, forall_eq']
      constructor
      · rintro (h1 | ⟨h1, h2⟩)
        · exact h1
        · constructor <;> linarith
      · exact fun h1 => Or.inl h1

/-- One trimming step: the new interval is the part of the old one inside the limits, the other cells are the
same, and the flag tells whether anything changed. -/
theorem trimRow_spec (b : String) (p : Option ℚ × Option ℚ) (r : TRow) :
    (∀ lo hi, r ⟨b, .min⟩ = .num lo → r ⟨b, .max⟩ = .num hi → ∃ lo' hi',
      (trimRow b p r).1 ⟨b, .min⟩ = .num lo' ∧ (trimRow b p r).1 ⟨b, .max⟩ = .num hi' ∧
      ∀ t, (lo' ≤ t ∧ t ≤ hi') ↔ ((lo ≤ t ∧ t ≤ hi) ∧ (∀ a, p.1 = some a → a ≤ t) ∧ ∀ a, p.2 = some a → t ≤ a)) ∧
    (∀ k : Key, k ≠ ⟨b, .min⟩ → k ≠ ⟨b, .max⟩ → (trimRow b p r).1 k = r k) ∧
    ((trimRow b p r).2 = true ↔ ∃ k, (trimRow b p r).1 k ≠ r k) := by
  obtain ⟨x, y⟩ := p
  have hne : (⟨b, .max⟩ : Key) ≠ ⟨b, .min⟩ := by simp
  have hne' : (⟨b, .min⟩ : Key) ≠ ⟨b, .max⟩ := by simp
  refine ⟨?_, ?_, ?_⟩
  · intro lo hi hlo hhi
    have e1 : (trimRow b (x, y) r).1 ⟨b, .min⟩ = .num (match x with | some a => max lo a | none => lo) := by
      cases x with
      | none => simp [trimRow, hlo]
      | some a =>
        by_cases h : lo < a
        · simp [trimRow, hlo, h, max_eq_right h.le]
        · simp [trimRow, hlo, h, max_eq_left (not_lt.1 h)]
    have e2 : (trimRow b (x, y) r).1 ⟨b, .max⟩ = .num (match y with | some a => min hi a | none => hi) := by
      cases y with
      | none => simp [trimRow, hhi, hne]
      | some a =>
        by_cases h : a < hi
        · simp [trimRow, hhi, h, min_eq_right h.le]
        · simp [trimRow, hhi, h, min_eq_left (not_lt.1 h)]
    refine ⟨_, _, e1, e2, ?_⟩
    intro t
    cases x <;> cases y <;> simp <;> tauto
  · intro k h1 h2
    simp [trimRow, h1, h2]
  · constructor
    · intro h
      simp only [trimRow, Bool.or_eq_true] at h
      rcases h with h | h
      · refine ⟨⟨b, .min⟩, ?_⟩
        simp only [trimRow, h, true_and, if_true]
        revert h
        cases hlo : r ⟨b, .min⟩ <;> cases x <;> simp
        intro h; exact ne_of_gt h
      · refine ⟨⟨b, .max⟩, ?_⟩
        have : ¬ ((⟨b, .max⟩ : Key) = ⟨b, .min⟩) := hne
        simp only [trimRow, h, this, false_and, if_false, true_and, if_true]
        revert h
        cases hhi : r ⟨b, .max⟩ <;> cases y <;> simp
        intro h; exact ne_of_lt h
    · rintro ⟨k, hk⟩
      by_contra hf
      simp only [trimRow, Bool.or_eq_true, not_or, Bool.not_eq_true] at hf
      apply hk
      simp [trimRow, hf.1, hf.2]

/-- What trimming does to one row, in the vocabulary of the query. -/
def Trimmed (cols : List Key) (q : Query) (x y : TRow × Bool) : Prop :=
  (∀ k v, (k, v) ∈ q → IsRangeKey cols k → ∀ lo hi, x.1 ⟨k.base, .min⟩ = .num lo → x.1 ⟨k.base, .max⟩ = .num hi →
    ∃ lo' hi', y.1 ⟨k.base, .min⟩ = .num lo' ∧ y.1 ⟨k.base, .max⟩ = .num hi' ∧
      ∀ t, (lo' ≤ t ∧ t ≤ hi') ↔ ((lo ≤ t ∧ t ≤ hi) ∧ Within (rangeLimits v).1 (rangeLimits v).2 t)) ∧
  (∀ k : Key, (∀ k' v, (k', v) ∈ q → IsRangeKey cols k' → k ≠ ⟨k'.base, .min⟩ ∧ k ≠ ⟨k'.base, .max⟩) → y.1 k = x.1 k) ∧
  (y.2 = true ↔ x.2 = true ∨ ∃ k, y.1 k ≠ x.1 k)

theorem sanitize_limits {v : QArg} {p : Option ℚ × Option ℚ} (h : sanitizeRange v = .ok p) : p = rangeLimits v := by
  unfold sanitizeRange at h
  unfold rangeLimits
  split at h
  · simp at h; exact h.symm
  · simp at h; exact h.symm
  · rename_i x y
    simp only [bind, Except.bind] at h
    cases hx : x.bound with
    | error e => rw [hx] at h; simp at h
    | ok a =>
      cases hy : y.bound with
      | error e => rw [hx, hy] at h; simp at h
      | ok b =>
        rw [hx, hy] at h
        simp only [pure, Except.pure, Except.ok.injEq] at h
        rw [← h, bound_limit hx, bound_limit hy]
  · simp at h

theorem trimRows_spec (cols : List Key) : ∀ (q : Query) (rows out : List (TRow × Bool)),
    (q.map Prod.fst).Nodup → trimRows cols q rows = .ok out → List.Forall₂ (Trimmed cols q) rows out := by
  intro q
  induction q with
  | nil =>
    intro rows out _ h
    simp only [trimRows, Except.ok.injEq] at h
    subst h
    rw [List.forall₂_same]
    intro x _
    refine ⟨by simp, by simp, by simp⟩
  | cons kv q ih =>
    obtain ⟨k, v⟩ := kv
    intro rows out hnd h
    simp only [List.map_cons, List.nodup_cons] at hnd
    rw [trimRows] at h
    by_cases hk : IsRangeKey cols k
    · unfold IsRangeKey at hk
      rw [if_pos hk] at h
      cases hp : sanitizeRange v with
      | error e => rw [hp] at h; simp [bind, Except.bind] at h
      | ok p =>
        rw [hp] at h
        simp only [bind, Except.bind] at h
        split_ifs at h with hstep
        have hpl := sanitize_limits hp
        have := ih _ _ hnd.2 h
        rw [List.forall₂_map_left_iff] at this
        refine this.imp ?_
        intro x y hxy
        obtain ⟨t1, t2, t3⟩ := trimRow_spec k.base (orderRangeTuple p) x.1
        obtain ⟨m1, m2, m3⟩ := hxy
        simp only at m1 m2 m3
        -- the keys of the remaining query have other base names
        have hbase : ∀ k' v', (k', v') ∈ q → IsRangeKey cols k' → k'.base ≠ k.base := by
          intro k' v' hm hk' he
          apply hnd.1
          have : k' = k := by
            cases k; cases k'
            simp only at he
            obtain ⟨e1, _⟩ := hk; obtain ⟨e2, _⟩ := hk'
            simp only at e1 e2
            simp [he, e1, e2]
          exact List.mem_map.2 ⟨(k', v'), hm, this⟩
        have hk1 : y.1 ⟨k.base, .min⟩ = (trimRow k.base (orderRangeTuple p) x.1).1 ⟨k.base, .min⟩ := by
          apply m2
          intro k' v' hm hk'
          have := hbase k' v' hm hk'
          simp [Ne.symm this]
        have hk2 : y.1 ⟨k.base, .max⟩ = (trimRow k.base (orderRangeTuple p) x.1).1 ⟨k.base, .max⟩ := by
          apply m2
          intro k' v' hm hk'
          have := hbase k' v' hm hk'
          simp [Ne.symm this]
        refine ⟨?_, ?_, ?_⟩
        · intro k' v' hm hk' lo hi hlo hhi
          rcases List.mem_cons.1 hm with he | hm
          · injection he with e1 e2
            subst e1; subst e2
            obtain ⟨lo', hi', a1, a2, a3⟩ := t1 lo hi hlo hhi
            refine ⟨lo', hi', by rw [hk1, a1], by rw [hk2, a2], ?_⟩
            intro t
            rw [a3 t, hpl, within_order]
          · have hb := hbase k' v' hm hk'
            apply m1 k' v' hm hk'
            · rw [t2 _ (by simp [hb]) (by simp [hb])]; exact hlo
            · rw [t2 _ (by simp [hb]) (by simp [hb])]; exact hhi
        · intro k' hk'
          have hh := hk' k v (by simp) hk
          rw [m2 k' (fun k'' v'' hm hk'' => hk' k'' v'' (by simp [hm]) hk''), t2 k' hh.1 hh.2]
        · rw [m3, Bool.or_eq_true, t3]
          constructor
          · rintro ((h1 | ⟨c, hc⟩) | ⟨c, hc⟩)
            · exact Or.inl h1
            · right
              by_cases c1 : c = ⟨k.base, .min⟩
              · subst c1; exact ⟨_, by rw [hk1]; exact hc⟩
              by_cases c2 : c = ⟨k.base, .max⟩
              · subst c2; exact ⟨_, by rw [hk2]; exact hc⟩
              exact absurd (t2 c c1 c2) hc
            · by_cases c1 : c = ⟨k.base, .min⟩
              · subst c1; exact absurd hk1 hc
              by_cases c2 : c = ⟨k.base, .max⟩
              · subst c2; exact absurd hk2 hc
              right
              exact ⟨c, by rw [← t2 c c1 c2]; exact hc⟩
          · rintro (h1 | ⟨c, hc⟩)
            · exact Or.inl (Or.inl h1)
            · by_cases hcc : y.1 c = (trimRow k.base (orderRangeTuple p) x.1).1 c
              · exact Or.inl (Or.inr ⟨c, by rw [← hcc]; exact hc⟩)
              · exact Or.inr ⟨c, hcc⟩
    · unfold IsRangeKey at hk
      rw [if_neg hk] at h
      refine (ih _ _ hnd.2 h).imp ?_
      rintro x y ⟨m1, m2, m3⟩
      refine ⟨?_, ?_, m3⟩
      · intro k' v' hm hk'
        rcases List.mem_cons.1 hm with he | hm
        · injection he with e1 e2
          subst e1
          exact absurd hk' hk
        · exact m1 k' v' hm hk'
      · intro c hc
        exact m2 c fun k' v' hm hk' => hc k' v' (by simp [hm]) hk'

/-- **C27** `adjust_segments` returns, in order, the rows which meet the query, each with its intervals cut to
their intersection with the requested ranges, all other cells unchanged, and marked as modified exactly
when it was before or something was cut. -/
theorem C27_adjust (glob : String → String → Bool) (ignoreBad : Bool) (t : Table) (mods : List Bool) (q : Query)
    (out : List (TRow × Bool)) (hkeys : (q.map Prod.fst).Nodup) (h : adjustSegments glob ignoreBad t mods q = .ok out) :
    ∃ mask, filterDf glob ignoreBad t q = .ok mask ∧
      List.Forall₂ (Trimmed t.cols q) (maskIdx (t.rows.zip mods) mask) out := by
  unfold adjustSegments at h
  cases hm : filterDf glob ignoreBad t q with
  | error e => rw [hm] at h; simp [bind, Except.bind] at h
  | ok mask =>
    rw [hm] at h
    exact ⟨mask, rfl, trimRows_spec _ _ _ _ hkeys h⟩
example : (adjustSegments (fun s c => s == c) false demoTable [false, false, true]
    [(⟨"time", .plain⟩, .coll [.num 25, .num 10])]).toOption.map (fun out => out.map fun r =>
      (r.1 ⟨"time", .min⟩, r.1 ⟨"time", .max⟩, r.2)) =
    some [(.num 10, .num 10, true), (.num 10, .num 20, false), (.num 21, .num 25, true)] := by decide +kernel

/-- **C27** no row of the result has an empty interval along a trimmed dimension. -/
theorem C27_nonempty (glob : String → String → Bool) (t : Table) (mods : List Bool) (q : Query)
    (out : List (TRow × Bool)) (hkeys : (q.map Prod.fst).Nodup) (hord : ∀ r ∈ t.rows, Ordered r)
    (hnone : ∀ kv ∈ q, kv.1 ∈ t.cols → kv.2 ≠ .none ∧ kv.2 ≠ .dots) (k : Key) (x y : QElem)
    (hk : (k, .coll [x, y]) ∈ q) (hr : IsRangeKey t.cols k)
    (h : adjustSegments glob false t mods q = .ok out) :
    ∀ o ∈ out, ∃ lo hi, o.1 ⟨k.base, .min⟩ = .num lo ∧ o.1 ⟨k.base, .max⟩ = .num hi ∧ lo ≤ hi := by
  obtain ⟨mask, hm, hf⟩ := C27_adjust glob false t mods q out hkeys h
  obtain ⟨hl, hsat⟩ := C26_filter_partial glob false t q mask hm hord hnone
  have hin : ∀ z ∈ maskIdx (t.rows.zip mods) mask, Satisfies glob t.cols k (.coll [x, y]) z.1 := by
    intro z hz
    unfold maskIdx at hz
    obtain ⟨w, hw, hwz⟩ := List.mem_filterMap.1 hz
    obtain ⟨i, hi, hwi⟩ := List.mem_iff_getElem.1 hw
    have hi' : i < t.rows.length ∧ i < mods.length ∧ i < mask.length := by simpa using hi
    have hi'' : i < t.rows.length := hi'.1
    rw [List.getElem_zip] at hwi
    subst hwi
    simp only at hwz
    split_ifs at hwz with hmi
    injection hwz with hwz
    subst hwz
    simp only [List.getElem_zip]
    apply (hsat i _ (List.getElem?_eq_getElem hi'')).1 _ _ hk
    rw [List.getElem?_eq_getElem hi'.2.2, hmi]
  intro o ho
  obtain ⟨z, hz, hzo⟩ : ∃ z ∈ maskIdx (t.rows.zip mods) mask, Trimmed t.cols q z o := by
    clear hin h
    generalize maskIdx (t.rows.zip mods) mask = ys at hf
    induction hf with
    | nil => simp at ho
    | cons hab _ ih =>
      rcases List.mem_cons.1 ho with rfl | ho
      · exact ⟨_, by simp, hab⟩
      · obtain ⟨z, hz, h⟩ := ih ho
        exact ⟨z, by simp [hz], h⟩
  have hs := hin z hz
  unfold Satisfies at hs
  rw [if_neg hr.2.2.2] at hs
  simp only [hr.1] at hs
  obtain ⟨lo, hi, s, h1, h2, h3, h4, h5⟩ := hs hr.2.1 hr.2.2.1
  obtain ⟨lo', hi', a1, a2, a3⟩ := hzo.1 k _ hk hr lo hi h1 h2
  have := (a3 s).2 ⟨⟨h3, h4⟩, h5⟩
  exact ⟨lo', hi', a1, a2, this.1.trans this.2⟩
example : IsRangeKey demoTable.cols ⟨"time", .plain⟩ := by
  refine ⟨rfl, by decide, by decide, by decide⟩

/-- A query made of ranges of dimensions with numeric or open limits. -/
def RangeQuery (cols : List Key) (q : Query) : Prop :=
  ∀ kv ∈ q, IsRangeKey cols kv.1 ∧ ∃ x y, kv.2 = .coll [x, y] ∧ (∀ s, x ≠ .str s) ∧ ∀ s, y ≠ .str s

theorem bound_ok {x : QElem} (h : ∀ s, x ≠ .str s) : x.bound = .ok (limit x) := by
  cases x <;> simp [QElem.bound, limit] at h ⊢

/-- **C26**, **C27**: a query of ranges is always accepted, by both functions (trimming needs the step columns). -/
theorem C27_range_accepted (glob : String → String → Bool) (ignoreBad : Bool) (t : Table) (mods : List Bool) (q : Query)
    (hq : RangeQuery t.cols q) (hstep : ∀ kv ∈ q, (⟨kv.1.base, .step⟩ : Key) ∈ t.cols) :
    (∃ mask, filterDf glob ignoreBad t q = .ok mask) ∧ ∃ out, adjustSegments glob ignoreBad t mods q = .ok out := by
  have h1 : (q.filter fun kv => isMinMaxKey t.cols kv.1) = [] := by
    rw [List.filter_eq_nil_iff]
    intro kv hkv
    simp [isMinMaxKey, (hq kv hkv).1.1]
  have h2 : ((q.filter fun kv => !isMinMaxKey t.cols kv.1).filter fun kv => t.cols.contains kv.1) = [] := by
    rw [List.filter_eq_nil_iff]
    intro kv hkv
    have := (hq kv (List.mem_filter.1 hkv).1).1.2.2.2
    simpa using this
  have hcls : ∀ l : Query, RangeQuery t.cols l → ∃ cls, (l.mapM fun kv => (classify t.cols kv.1 kv.2).map fun c => (kv.1, c)) =
      Except.ok (ε := Err) cls ∧ (cls.any fun c => c.2.bad) = false := by
    intro l
    induction l with
    | nil => intro _; exact ⟨[], rfl, rfl⟩
    | cons kv l ih =>
      intro hl
      obtain ⟨cls, c1, c2⟩ := ih fun z hz => hl z (by simp [hz])
      obtain ⟨hr, x, y, hv, hx, hy⟩ := hl kv (by simp)
      refine ⟨(kv.1, .range (limit x) (limit y)) :: cls, ?_, by simpa [Unknown.bad] using c2⟩
      rw [List.mapM_cons, c1]
      have : classify t.cols kv.1 kv.2 = .ok (.range (limit x) (limit y)) := by
        unfold classify
        rw [if_pos ⟨hr.1, hr.2.1, hr.2.2.1⟩, hv]
        simp only [bound_ok hx, bound_ok hy]
        rfl
      rw [this]
      rfl
  have hf : ∃ mask, filterDf glob ignoreBad t q = .ok mask := by
    obtain ⟨cls, c1, c2⟩ := hcls ((q.filter fun kv => !isMinMaxKey t.cols kv.1).filter fun kv => !t.cols.contains kv.1)
      fun z hz => hq z (List.mem_filter.1 (List.mem_filter.1 hz).1).1
    unfold filterDf
    simp only [h1, h2, c1, c2, bind, Except.bind, List.mapM_nil, Bool.false_and, pure, Except.pure]
    exact ⟨_, rfl⟩
  refine ⟨hf, ?_⟩
  obtain ⟨mask, hm⟩ := hf
  unfold adjustSegments
  rw [hm]
  simp only [bind, Except.bind]
  have htr : ∀ (l : Query) rows, RangeQuery t.cols l → (∀ kv ∈ l, (⟨kv.1.base, .step⟩ : Key) ∈ t.cols) →
      ∃ out, trimRows t.cols l rows = .ok out := by
    intro l
    induction l with
    | nil => intro rows _ _; exact ⟨rows, rfl⟩
    | cons kv l ih =>
      intro rows hl hs
      obtain ⟨hr, x, y, hv, hx, hy⟩ := hl kv (by simp)
      obtain ⟨k, v⟩ := kv
      unfold IsRangeKey at hr
      rw [trimRows, if_pos hr]
      simp only at hv
      subst hv
      have hsan : sanitizeRange (.coll [x, y]) = .ok (limit x, limit y) := by
        simp only [sanitizeRange, bound_ok hx, bound_ok hy]
        rfl
      rw [hsan]
      simp only [bind, Except.bind]
      have hst : (⟨k.base, .step⟩ : Key) ∈ t.cols := hs _ List.mem_cons_self
      rw [if_pos hst]
      exact ih _ (fun z hz => hl z (by simp [hz])) (fun z hz => hs z (by simp [hz]))
  exact htr q _ hq hstep
example : RangeQuery demoTable.cols [(⟨"time", .plain⟩, .coll [.num 25, .dots])] := by
  intro kv hkv
  simp at hkv
  subst hkv
  exact ⟨⟨rfl, by decide, by decide, by decide⟩, _, _, rfl, by simp, by simp⟩

end Verif
