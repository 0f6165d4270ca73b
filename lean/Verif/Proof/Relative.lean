import Verif.Spec.Relative
import Verif.Proof.Merge
import Verif.Proof.Time
import Verif.Proof.Units
import Verif.Proof.UpdateTotal
import Verif.Props.Patch
import Verif.Props.Units
/-! # Limits of selections -/
namespace Verif
open Spec

theorem highest_isMax {k : Kind} {c : Coord} (hc : c.Wf) {a : ℚ} (h : (MCoord.one k c).highest = some a) : IsMax c.vals a := by
  have key : ∀ l : List ℚ, (match l with | [] => none | v :: l => some (l.foldl max v)) = some a → IsMax l a := by
    intro l hl
    cases l with
    | nil => cases hl
    | cons v l =>
      simp only [Option.some.injEq] at hl
      have := foldl_max_isMax (l := v :: l) (by simp)
      rw [← hl]
      simpa using this
  cases c with
  | range r =>
    simp only [MCoord.highest, Option.some.injEq] at h
    subst h
    have hv : r.Valid := hc
    show IsMax r.values _
    have hl1 : (1 : ℚ) ≤ r.len := by exact_mod_cast hv.len_pos
    have hmax : r.cmax = max (r.start + (r.len - 1) * r.step) r.start := by
      unfold RangeCoord.cmax; rw [hv.stop_eq]; congr 1; ring
    rw [hv.values_eq, hmax]
    unfold progression
    constructor
    · rw [List.mem_map]
      rcases le_total (r.start + (r.len - 1) * r.step) r.start with h | h
      · exact ⟨0, List.mem_range.2 hv.len_pos, by rw [max_eq_right h]; simp⟩
      · refine ⟨r.len - 1, List.mem_range.2 (by have := hv.len_pos; omega), ?_⟩
        rw [max_eq_left h, Nat.cast_sub hv.len_pos]; simp
    · intro x hx
      rw [List.mem_map] at hx
      obtain ⟨i, hi, rfl⟩ := hx
      have h1 : ((i : ℕ) : ℚ) ≤ r.len - 1 := by
        have := List.mem_range.1 hi
        have : (i : ℚ) + 1 ≤ r.len := by exact_mod_cast this
        linarith
      have h0 : (0 : ℚ) ≤ i := Nat.cast_nonneg i
      rcases le_total 0 r.step with hs | hs
      · exact le_trans (by nlinarith) (le_max_left _ _)
      · exact le_trans (by nlinarith) (le_max_right _ _)
  | part n => simp only [MCoord.highest, Coord.vals] at h; cases h
  | mono vs => exact key vs h
  | arr vs => exact key vs h

theorem lo_spec {c : UCoord} (hc : c.coord.Wf) {x : ℚ} (h : c.lo = .ok x) : IsMin c.coord.vals x := by
  unfold UCoord.lo at h
  split at h
  · next y hy => cases h; exact lowest_isMin hc hy
  · cases h

theorem hi_spec {c : UCoord} (hc : c.coord.Wf) {x : ℚ} (h : c.hi = .ok x) : IsMax c.coord.vals x := by
  unfold UCoord.hi at h
  split at h
  · next y hy => cases h; exact highest_isMax hc hy
  · cases h

theorem lo_total {c : UCoord} (hn : c.coord.vals ≠ []) : ∃ x, c.lo = .ok x := by
  unfold UCoord.lo
  cases h : c.coord with
  | range r => exact ⟨_, rfl⟩
  | part n => rw [h] at hn; exact absurd rfl hn
  | mono vs =>
    rw [h] at hn
    cases vs with
    | nil => exact absurd rfl hn
    | cons v l => exact ⟨_, rfl⟩
  | arr vs =>
    rw [h] at hn
    cases vs with
    | nil => exact absurd rfl hn
    | cons v l => exact ⟨_, rfl⟩

theorem hi_total {c : UCoord} (hn : c.coord.vals ≠ []) : ∃ x, c.hi = .ok x := by
  unfold UCoord.hi
  cases h : c.coord with
  | range r => exact ⟨_, rfl⟩
  | part n => rw [h] at hn; exact absurd rfl hn
  | mono vs =>
    rw [h] at hn
    cases vs with
    | nil => exact absurd rfl hn
    | cons v l => exact ⟨_, rfl⟩
  | arr vs =>
    rw [h] at hn
    cases vs with
    | nil => exact absurd rfl hn
    | cons v l => exact ⟨_, rfl⟩

/-! ### Numbers of seconds -/

theorem timeOf_close {x t f : ℚ} (hf : |f - x| ≤ |x| / 2 ^ 53) {n : ℤ} (ht : t = n) (h : |t - f * 10 ^ 9| ≤ 1 / 2 + |f| * 10 ^ 9 / 2 ^ 53) : TimeOf x t := by
  refine ⟨⟨n, ht⟩, ?_⟩
  have h1 : |f| ≤ 2 * |x| := by
    have := abs_sub_abs_le_abs_sub f x
    have hx := abs_nonneg x
    have : |x| / 2 ^ 53 ≤ |x| := div_le_self hx (by norm_num)
    linarith
  have h2 := abs_sub_le t (f * 10 ^ 9) (x * 10 ^ 9)
  have h3 : |f * 10 ^ 9 - x * 10 ^ 9| = |f - x| * 10 ^ 9 := by
    rw [← sub_mul, abs_mul]; norm_num
  rw [h3] at h2
  have hx := abs_nonneg x
  have h4 : |f - x| * 10 ^ 9 ≤ |x| / 2 ^ 53 * 10 ^ 9 := mul_le_mul_of_nonneg_right hf (by norm_num)
  have h5 : |f| * 10 ^ 9 / 2 ^ 53 ≤ 2 * |x| * 10 ^ 9 / 2 ^ 53 := by
    apply div_le_div_of_nonneg_right _ (by norm_num)
    exact mul_le_mul_of_nonneg_right h1 (by norm_num)
  have h6 : |x| * 10 ^ 9 / 2 ^ 51 = 2 * |x| * 10 ^ 9 / 2 ^ 53 + |x| / 2 ^ 53 * 10 ^ 9 + |x| * 10 ^ 9 / 2 ^ 53 := by ring
  have h7 : 0 ≤ |x| * 10 ^ 9 / 2 ^ 53 := by positivity
  calc |t - x * 10 ^ 9| ≤ |t - f * 10 ^ 9| + |f - x| * 10 ^ 9 := h2
    _ ≤ (1 / 2 + |f| * 10 ^ 9 / 2 ^ 53) + |x| / 2 ^ 53 * 10 ^ 9 := add_le_add h h4
    _ ≤ (1 / 2 + 2 * |x| * 10 ^ 9 / 2 ^ 53) + |x| / 2 ^ 53 * 10 ^ 9 := by gcongr
    _ ≤ 1 / 2 + (2 * |x| * 10 ^ 9 / 2 ^ 53 + |x| / 2 ^ 53 * 10 ^ 9 + |x| * 10 ^ 9 / 2 ^ 53) := by
      rw [add_assoc]
      exact add_le_add le_rfl (le_add_of_nonneg_right h7)
    _ = 1 / 2 + |x| * 10 ^ 9 / 2 ^ 51 := by rw [h6]

theorem floatToNs_close (f : ℚ) : |(floatToNs f : ℚ) - f * 10 ^ 9| ≤ 1 / 2 + |f| * 10 ^ 9 / 2 ^ 53 := by
  unfold floatToNs
  have h1 := rint_abs (float64 (f * 1000000000))
  have h2 := float64_error (f * 1000000000)
  have h3 := abs_sub_le (rint (float64 (f * 1000000000)) : ℚ) (float64 (f * 1000000000)) (f * 1000000000)
  rw [abs_mul, show |(1000000000 : ℚ)| = 10 ^ 9 by norm_num] at h2
  rw [show (10 : ℚ) ^ 9 = 1000000000 by norm_num] at h2 ⊢
  linarith

theorem timedelta_of {s : Secs} {x : ℚ} (hs : s.value = some x) : ∃ t, toTimedelta64 s = some t ∧ TimeOf x t := by
  cases s with
  | null => cases hs
  | flt y =>
    simp only [Secs.value, Option.some.injEq] at hs
    subst hs
    exact ⟨_, rfl, timeOf_close (f := y) (by simp; positivity) rfl (floatToNs_close y)⟩
  | int n =>
    simp only [Secs.value, Option.some.injEq] at hs
    subst hs
    refine ⟨_, rfl, timeOf_close (f := n) (by simp; positivity) rfl ?_⟩
    have h1 := rint_abs (float64 ((n * 1000000000 : ℤ) : ℚ))
    have h2 := float64_error ((n * 1000000000 : ℤ) : ℚ)
    have h3 := abs_sub_le (rint (float64 ((n * 1000000000 : ℤ) : ℚ)) : ℚ) (float64 ((n * 1000000000 : ℤ) : ℚ)) ((n * 1000000000 : ℤ) : ℚ)
    push_cast at h1 h2 h3 ⊢
    rw [abs_mul, show |(1000000000 : ℚ)| = 10 ^ 9 by norm_num] at h2
    rw [show (10 : ℚ) ^ 9 = 1000000000 by norm_num] at h2 ⊢
    linarith

theorem datetime_of {s : Secs} {x : ℚ} (hs : s.value = some x) : ∃ t, toDatetime64 s = some t ∧ TimeOf x t := by
  cases s with
  | null => cases hs
  | flt y =>
    simp only [Secs.value, Option.some.injEq] at hs
    subst hs
    exact ⟨_, rfl, timeOf_close (f := y) (by simp; positivity) rfl (floatToNs_close y)⟩
  | int n =>
    simp only [Secs.value, Option.some.injEq] at hs
    subst hs
    exact ⟨_, rfl, timeOf_close (float64_error n) rfl (floatToNs_close _)⟩

/-! ### Values -/

/-- A value without units is the amount in labels that it stands for. -/
def BareOf (k : Kind) : Bare → ℚ → Prop
  | .num s, v => ∃ x, s.value = some x ∧ NumberOf k x v
  | .ns t, v => k = .time ∧ v = t

theorem barOffset_spec (c : UCoord) {b : Bare} {v : ℚ} (h : c.offset b = .ok v) : BareOf c.kind b v := by
  cases b with
  | ns t =>
    unfold UCoord.offset at h
    simp only at h
    split_ifs at h with hk
    cases h
    exact ⟨hk, rfl⟩
  | num s =>
    unfold UCoord.offset at h
    simp only at h
    cases hs : s.value with
    | none =>
      cases s with
      | null => split_ifs at h <;> cases h
      | _ => cases hs
    | some x =>
      refine ⟨x, hs, ?_⟩
      unfold NumberOf
      split_ifs at h ⊢ with hk
      · obtain ⟨t, h1, h2⟩ := timedelta_of hs
        rw [h1] at h
        cases h
        exact h2
      · rw [hs] at h
        cases h
        rfl

theorem barAbsolute_spec (c : UCoord) {b : Bare} {v : ℚ} (h : c.absolute b = .ok v) : BareOf c.kind b v := by
  cases b with
  | ns t =>
    unfold UCoord.absolute at h
    simp only at h
    split_ifs at h with hk
    cases h
    exact ⟨hk, rfl⟩
  | num s =>
    unfold UCoord.absolute at h
    simp only at h
    cases hs : s.value with
    | none =>
      cases s with
      | null => split_ifs at h <;> cases h
      | _ => cases hs
    | some x =>
      refine ⟨x, hs, ?_⟩
      unfold NumberOf
      split_ifs at h ⊢ with hk
      · obtain ⟨t, h1, h2⟩ := datetime_of hs
        rw [h1] at h
        cases h
        exact h2
      · rw [hs] at h
        cases h
        rfl

theorem bare_total (c : UCoord) {b : Bare} (hb : ∀ t, b = .ns t → c.kind = .time) (hn : b ≠ .num .null) :
    (∃ v, c.offset b = .ok v) ∧ ∃ v, c.absolute b = .ok v := by
  cases b with
  | ns t =>
    have := hb t rfl
    simp [UCoord.offset, UCoord.absolute, this]
  | num s =>
    have : ∃ x, s.value = some x := by
      cases s with
      | null => exact absurd rfl hn
      | int n => exact ⟨_, rfl⟩
      | flt y => exact ⟨_, rfl⟩
    obtain ⟨x, hs⟩ := this
    obtain ⟨t, h1, _⟩ := timedelta_of hs
    obtain ⟨t', h1', _⟩ := datetime_of hs
    by_cases hk : c.kind = .time <;> simp [UCoord.offset, UCoord.absolute, hk, h1, h1', hs]

theorem trunc_share (q : ℚ) : |(truncZ q : ℚ) - q| < 1 ∧ |(truncZ q : ℚ)| ≤ |q| := by
  unfold truncZ
  split_ifs with h
  · have h1 := Int.floor_le q
    have h2 := Int.lt_floor_add_one q
    have h3 : (0 : ℚ) ≤ ⌊q⌋ := by exact_mod_cast Int.floor_nonneg.2 h
    rw [abs_of_nonneg h3, abs_of_nonneg h, abs_lt]
    exact ⟨⟨by linarith, by linarith⟩, h1⟩
  · push Not at h
    have h1 := Int.le_ceil q
    have h2 := Int.ceil_lt_add_one q
    have h3 : ((⌈q⌉ : ℤ) : ℚ) ≤ 0 := by exact_mod_cast Int.ceil_le.2 (by simpa using h.le)
    rw [abs_of_nonpos h3, abs_of_neg h, abs_lt]
    exact ⟨⟨by linarith, by linarith⟩, by linarith⟩

theorem amount_bare {c : UCoord} (hc : c.coord.Wf) (hu : ∀ u, c.units = some u → Usable u) {relative r : Bool} {a : SValue} {b : Bare}
    (hz : relative = true → SameZero c a) (h : c.bare relative a = .ok (b, r)) :
    (r = true ↔ Counted relative a) ∧ (b = .num .null ↔ a = .num .null) ∧
    ∀ v, BareOf c.kind b v → ∀ lo hi, IsMin c.coord.vals lo → IsMax c.coord.vals hi → (a = .num .null ∨ r = false ∨ AmountOf difference c (hi - lo) a v) := by
  cases a with
  | num s =>
    cases h
    refine ⟨by simp [Counted], by simp, fun v hv lo hi _ _ => .inr (.inr hv)⟩
  | ns t =>
    cases h
    refine ⟨by simp [Counted], by simp, fun v hv lo hi _ _ => .inr (.inr hv)⟩
  | quant q =>
    unfold UCoord.bare at h
    simp only at h
    obtain ⟨x, hx, he⟩ := except_map_ok h
    cases he
    refine ⟨by simp [Counted], by simp, fun v hv lo hi _ _ => .inr ?_⟩
    cases hr : relative with
    | false => exact .inl rfl
    | true =>
    right
    obtain ⟨y, hy, hv⟩ := hv
    cases hy
    cases hcu : c.units with
    | none => rw [hcu] at hx; cases hx
    | some u =>
      rw [hcu] at hx
      have hcmp : Comparable ⟨1, q.unit⟩ u := by
        by_contra hne
        rw [(C66_refused (K := ℚ) ⟨1, q.unit⟩ u hne q.mag).1] at hx
        cases hx
      obtain ⟨y, h1, h2, _⟩ := C66_convert ⟨1, q.unit⟩ u hcmp (hu u hcu) q.mag
      rw [h1] at hx
      cases hx
      refine ⟨u, _, hcu, hcmp, ?_, hv⟩
      have hz := hz hr u hcu
      unfold amount at h2
      unfold difference
      simp only at h2 hz ⊢
      linarith
  | percent x =>
    unfold UCoord.bare at h
    simp only at h
    obtain ⟨b', hb, he⟩ := except_map_ok h
    cases he
    unfold UCoord.share at hb
    obtain ⟨lo', h1, hb⟩ := bind_split hb
    obtain ⟨hi', h2, hb⟩ := bind_split hb
    cases hb
    refine ⟨by simp [Counted], by split_ifs <;> simp, fun v hv lo hi hlo hhi => .inr (.inr ?_)⟩
    have e1 : lo' = lo := isMin_unique (lo_spec hc h1) hlo
    have e2 : hi' = hi := by
      have := hi_spec hc h2
      exact le_antisymm (hhi.2 _ this.1) (this.2 _ hhi.1)
    subst e1 e2
    unfold AmountOf
    simp only
    split_ifs at hv ⊢ with hk
    · obtain ⟨_, rfl⟩ := hv
      exact ⟨⟨_, rfl⟩, trunc_share _⟩
    · obtain ⟨y, hy, hv⟩ := hv
      cases hy
      unfold NumberOf at hv
      rw [if_neg hk] at hv
      exact hv

theorem limit_spec {c : UCoord} (hc : c.coord.Wf) (hu : ∀ u, c.units = some u → Usable u) {relative : Bool} {a : SValue} {o : Option ℚ}
    (hz : relative = true → SameZero c a) (h : c.limit relative a = .ok o) : LimitOf c relative a o := by
  have key : (c.bare relative a >>= fun b => c.compatible b) = .ok o → LimitOf c relative a o := by
    intro h
    obtain ⟨⟨b, r⟩, hb, h⟩ := bind_split h
    obtain ⟨h1, h2, h3⟩ := amount_bare hc hu hz hb
    by_cases hn : b = .num .null
    · subst hn
      simp only [UCoord.compatible, Except.ok.injEq] at h
      exact .inl ⟨h2.1 rfl, h.symm⟩
    · have hna : a ≠ .num .null := fun e => hn (h2.2 e)
      right
      cases r with
      | true =>
        have h' : (do let v ← c.offset b; let x ← c.relativeTo v; return some x) = (.ok o : Except Err (Option ℚ)) := by
          rw [← h]
          cases b with
          | ns t => rfl
          | num s => cases s with
            | null => exact absurd rfl hn
            | _ => rfl
        obtain ⟨v, hv, h'⟩ := bind_split h'
        obtain ⟨x, hx, h'⟩ := bind_split h'
        cases h'
        unfold UCoord.relativeTo at hx
        obtain ⟨lo, hlo, hx⟩ := bind_split hx
        obtain ⟨hi, hhi, hx⟩ := bind_split hx
        cases hx
        refine ⟨_, rfl, .inr ⟨h1.1 rfl, lo, hi, v, lo_spec hc hlo, hi_spec hc hhi, ?_, ?_⟩⟩
        · exact (h3 v (barOffset_spec c hv) lo hi (lo_spec hc hlo) (hi_spec hc hhi)).resolve_left hna |>.resolve_left (by simp)
        · split_ifs with hp
          · exact .inl ⟨hp, rfl⟩
          · exact .inr ⟨lt_of_not_ge hp, rfl⟩
      | false =>
        have h' : (c.absolute b).map some = .ok o := by
          rw [← h]
          cases b with
          | ns t => rfl
          | num s => cases s with
            | null => exact absurd rfl hn
            | _ => rfl
        obtain ⟨v, hv, he⟩ := except_map_ok h'
        cases he
        have hnc : ¬ Counted relative a := fun e => by have := h1.2 e; cases this
        refine ⟨_, rfl, .inl ⟨hnc, ?_⟩⟩
        have hbv := barAbsolute_spec c hv
        cases a with
        | percent x => exact absurd (.inr ⟨x, rfl⟩) hnc
        | num s => cases hb; exact hbv
        | ns t => cases hb; exact hbv
        | quant q =>
          unfold UCoord.bare at hb
          obtain ⟨x, hx, he⟩ := except_map_ok hb
          cases he
          obtain ⟨y, hy, hbv⟩ := hbv
          cases hy
          cases hcu : c.units with
          | none => rw [hcu] at hx; cases hx
          | some u =>
            rw [hcu] at hx
            have hcmp : Comparable ⟨1, q.unit⟩ u := by
              by_contra hne
              rw [(C66_refused (K := ℚ) ⟨1, q.unit⟩ u hne q.mag).1] at hx
              cases hx
            obtain ⟨y, h1, h2, _⟩ := C66_convert ⟨1, q.unit⟩ u hcmp (hu u hcu) q.mag
            rw [h1] at hx
            cases hx
            exact ⟨u, _, hcu, hcmp, h2, hbv⟩
  unfold UCoord.limit at h
  cases hcc : c.coord with
  | part n =>
    rw [hcc] at h
    simp only at h
    split_ifs at h with hv
    cases h
    exact .inl ⟨hv, rfl⟩
  | range r => rw [hcc] at h; exact key h
  | mono vs => rw [hcc] at h; exact key h
  | arr vs => rw [hcc] at h; exact key h

theorem limit_total {c : UCoord} (hl : c.coord.vals ≠ []) (relative : Bool) {a : SValue} (ha : Sensible c a) : ∃ o, c.limit relative a = .ok o := by
  obtain ⟨lo, hlo⟩ := lo_total hl
  obtain ⟨hi, hhi⟩ := hi_total hl
  have hb : ∃ b r, c.bare relative a = .ok (b, r) ∧ ∀ t, b = .ns t → c.kind = .time := by
    cases a with
    | num s => exact ⟨_, _, rfl, fun t h => by cases h⟩
    | ns t => exact ⟨_, _, rfl, fun _ _ => ha⟩
    | quant q =>
      obtain ⟨u, h1, h2, h3⟩ := ha
      obtain ⟨y, h4, _⟩ := C66_convert ⟨1, q.unit⟩ u h2 h3 q.mag
      refine ⟨.num (.flt y), relative, ?_, fun t h => by cases h⟩
      simp only [UCoord.bare]
      rw [h1, h4]
      rfl
    | percent x =>
      by_cases hk : c.kind = .time
      · exact ⟨_, true, by simp only [UCoord.bare, UCoord.share, hlo, hhi, bind, Except.bind]; rfl, fun _ _ => hk⟩
      · refine ⟨.num (.flt (x / 100 * (hi - lo))), true, ?_, fun t h => by cases h⟩
        simp only [UCoord.bare, UCoord.share, hlo, hhi, bind, Except.bind, hk]
        rfl
  obtain ⟨b, r, hb, hbk⟩ := hb
  have key : ∃ o, (c.bare relative a >>= fun b => c.compatible b) = .ok o := by
    rw [hb]
    show ∃ o, c.compatible (b, r) = .ok o
    by_cases hn : b = .num .null
    · subst hn; exact ⟨none, rfl⟩
    · obtain ⟨⟨v, hv⟩, w, hw⟩ := bare_total c hbk hn
      have hx : ∃ x, c.relativeTo v = .ok x := ⟨_, by simp only [UCoord.relativeTo, hlo, hhi, bind, Except.bind]; rfl⟩
      obtain ⟨x, hx⟩ := hx
      cases r with
      | true =>
        refine ⟨some x, ?_⟩
        have : c.compatible (b, true) = (do let v ← c.offset b; let x ← c.relativeTo v; return some x) := by
          cases b with
          | ns t => rfl
          | num s => cases s with
            | null => exact absurd rfl hn
            | _ => rfl
        rw [this, hv]
        show (do let x ← c.relativeTo v; return some x) = _
        rw [hx]
        rfl
      | false =>
        refine ⟨some w, ?_⟩
        have : c.compatible (b, false) = (c.absolute b).map some := by
          cases b with
          | ns t => rfl
          | num s => cases s with
            | null => exact absurd rfl hn
            | _ => rfl
        rw [this, hw]
        rfl
  unfold UCoord.limit
  cases hcc : c.coord with
  | part n => rw [hcc] at hl; exact absurd rfl hl
  | range r => exact key
  | mono vs => exact key
  | arr vs => exact key

theorem asked_spec {c : UCoord} (hc : c.coord.Wf) (hu : ∀ u, c.units = some u → Usable u) {relative : Bool} {a : Ask} {q : CQuery}
    (hz : relative = true → ∀ v ∈ valuesIn a, SameZero c v) (h : a.query c relative = .ok q) : StandsFor c relative a q := by
  cases a with
  | range a b =>
    obtain ⟨x, hx, h⟩ := bind_split h
    obtain ⟨y, hy, h⟩ := bind_split h
    cases h
    exact ⟨x, y, rfl, limit_spec hc hu (fun e => hz e a (by simp [valuesIn])) hx, limit_spec hc hu (fun e => hz e b (by simp [valuesIn])) hy⟩
  | array vs =>
    obtain ⟨xs, hx, he⟩ := except_map_ok h
    refine ⟨xs, he.symm, ?_⟩
    have h2 := mapM_forall₂ hx
    rw [List.forall₂_iff_get] at h2 ⊢
    exact ⟨h2.1, fun i h1 h3 => limit_spec hc hu (fun e => hz e _ (List.get_mem _ _)) (h2.2 i h1 h3)⟩
  | mask m => cases h; rfl

theorem asked_nonneg {c : UCoord} {relative : Bool} {a : Ask} {q : CQuery} (h : a.query c relative = .ok q) : NonNegSamples q := by
  cases a with
  | range a b =>
    obtain ⟨x, hx, h⟩ := bind_split h
    obtain ⟨y, hy, h⟩ := bind_split h
    cases h
    trivial
  | array vs =>
    obtain ⟨xs, hx, he⟩ := except_map_ok h
    subst he
    trivial
  | mask m => cases h; trivial

theorem askOne_spec {m : CM} {units : String → Option (Quant ℚ)} (hu : ∀ n u, units n = some u → Usable u) {relative : Bool}
    (hw : ∀ n ds k c, m.ents.get? n = some (ds, .one k c) → c.Wf)
    {a : String × Ask} {q : String × CQuery}
    (hz : relative = true → ∀ v ∈ valuesIn a.2, ∀ ds k c, m.ents.get? a.1 = some (ds, .one k c) → SameZero ⟨k, c, units a.1⟩ v) (h : m.askOne units relative a = .ok q) :
    (q.1 = a.1 ∧ ∃ ds k c, m.ents.get? a.1 = some (ds, .one k c) ∧ StandsFor ⟨k, c, units a.1⟩ relative a.2 q.2) ∧ NonNegSamples q.2 := by
  unfold CM.askOne at h
  split at h
  · cases h
  · cases h
  · next ds k c hg =>
    obtain ⟨x, hx, he⟩ := except_map_ok h
    subst he
    exact ⟨⟨rfl, ds, k, c, hg, asked_spec (hw _ _ _ _ hg) (hu _) (fun e v hv => hz e v hv _ _ _ hg) hx⟩, asked_nonneg hx⟩

end Verif
