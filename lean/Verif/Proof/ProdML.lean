import Verif.Proof.Labelled
import Verif.Spec.ProdML
/-! # Lemmas: ProdML files -/
namespace Verif
open Spec

theorem ints_spread : ∀ {l : List ℚ}, (∀ x ∈ l, ∃ z : ℤ, x = z) → l.Pairwise (· < ·) → l ≠ [] → l.headD 0 + ((l.length : ℚ) - 1) ≤ l.getLastD 0
  | [], _, _, h => absurd rfl h
  | [a], _, _, _ => by simp
  | a :: b :: r, hz, hp, _ => by
    have ih := ints_spread (l := b :: r) (fun x hx => hz x (by simp [hx])) (List.pairwise_cons.1 hp).2 (by simp)
    obtain ⟨y, hy⟩ := hz a (by simp)
    obtain ⟨z, hz'⟩ := hz b (by simp)
    have hab := (List.pairwise_cons.1 hp).1 b (by simp)
    rw [hy, hz'] at hab
    have : (y : ℚ) + 1 ≤ z := by exact_mod_cast (Int.add_one_le_iff.2 (by exact_mod_cast hab))
    simp only [List.headD_cons, List.length_cons, Nat.cast_add, Nat.cast_one] at ih ⊢
    have e : (a :: b :: r).getLastD 0 = (b :: r).getLastD 0 := by simp [List.getLastD]
    rw [e]
    rw [hy]; rw [hz'] at ih
    rw [hz']
    linarith

/-- The class of coordinates made of strictly monotonic labels. -/
theorem stored_class {k : Kind} {l : List ℚ} (hl : 2 ≤ l.length) (hm : StrictMono' l) (hs : Storable l) {c : Coord} (h : getCoordData k l = .ok c) :
    (∃ r, c = .range r) ∨ ∃ v, c = .mono v := by
  rcases hs with hs | ⟨a, d, n, hd, rfl⟩ | hs | hs
  · omega
  · rw [progression_length] at hl
    rw [getCoordData_progression _ _ _ _ hd hl] at h
    cases h
    exact Or.inl ⟨_, rfl⟩
  · exact absurd hm hs
  · rw [getCoordData_stored hl (Or.inr hs)] at h
    rw [if_pos ((strict_iff l).2 hm)] at h
    cases h
    exact Or.inr ⟨_, rfl⟩

namespace ProdNode
variable {α : Type} {t : ProdNode α} {ds : List String} {count : ℕ}

theorem stamp_instant {c : ClockTime} (h : c.ahead ≤ 0) : c.stamp = instantOf c := by
  unfold ClockTime.stamp instantOf
  rw [if_neg (by linarith)]

theorem stamps_last (h : t.stamps ≠ []) : t.stamps.getLastD 0 * 1000 = (stampTimes t).getLastD 0 := by
  unfold stampTimes
  rw [List.getLastD_eq_getLast?, List.getLastD_eq_getLast?, List.getLast?_map, List.getLast?_eq_some_getLast h]
  rfl

theorem stamps_head (h : t.stamps ≠ []) : t.stamps.headD 0 * 1000 = (stampTimes t).headD 0 := by
  unfold stampTimes
  cases hs : t.stamps with
  | nil => exact absurd hs h
  | cons a r => rfl

/-- What is made of the attributes, with the number of labels too many. -/
theorem range_spec (h : NodeLayout t ds count) : ∃ j : ℕ, ∃ s : ℤ, s = ⌊spacing (stampTimes t)⌋ ∧ 1000 ≤ s ∧ t.step = s ∧
    mkRange t.start.stamp (t.stop.stamp + t.step) t.step =
      .ok ⟨(stampTimes t).headD 0, (stampTimes t).headD 0 + (s : ℚ) * ((t.stamps.length + j : ℕ) : ℚ), s, t.stamps.length + j⟩ ∧
    (j : ℚ) * s - ((stampTimes t).getLastD 0 - ((stampTimes t).headD 0 + ((t.stamps.length : ℚ) - 1) * s)) ≤ s ∧
    - (s / 20) ≤ (j : ℚ) * s - ((stampTimes t).getLastD 0 - ((stampTimes t).headD 0 + ((t.stamps.length : ℚ) - 1) * s)) ∧
    0 ≤ (stampTimes t).getLastD 0 - ((stampTimes t).headD 0 + ((t.stamps.length : ℚ) - 1) * s) ∧
    ((stampTimes t).getLastD 0 = ((stampTimes t).headD 0 + ((t.stamps.length : ℚ) - 1) * s) ↔ (s : ℚ) = spacing (stampTimes t)) ∧
    (t.stamps.length + j = t.stamps.length ↔ (stampTimes t).getLastD 0 - ((stampTimes t).headD 0 + ((t.stamps.length : ℚ) - 1) * s) ≤ s / 20) := by
  have hne : t.stamps ≠ [] := by
    intro hc
    have := h.two
    rw [hc] at this
    simp at this
  have hlen : (stampTimes t).length = t.stamps.length := by simp [stampTimes]
  have hn : (0 : ℚ) < (t.stamps.length : ℚ) - 1 := by
    have : (2 : ℚ) ≤ t.stamps.length := by exact_mod_cast h.two
    linarith
  have hspread := ints_spread h.whole h.ascending hne
  have hl := stamps_last hne
  have hh := stamps_head hne
  set F := (stampTimes t).headD 0
  set E := (stampTimes t).getLastD 0
  set n := t.stamps.length
  have hsp : spacing (stampTimes t) = (E - F) / ((n : ℚ) - 1) := by unfold spacing; rw [hlen]
  have hsp2 : spacing (stampTimes t) * ((n : ℚ) - 1) = E - F := by rw [hsp, div_mul_cancel₀ _ hn.ne']
  have hk : (1000 : ℚ) ≤ spacing (stampTimes t) := by
    rw [hsp, le_div_iff₀ hn]
    linarith
  set s := ⌊spacing (stampTimes t)⌋ with hs
  have hs1 : 1000 ≤ s := by rw [hs, Int.le_floor]; exact_mod_cast hk
  have hs1' : (1000 : ℚ) ≤ s := by exact_mod_cast hs1
  have hs0 : (0 : ℚ) < s := by linarith
  have hfl : (s : ℚ) ≤ spacing (stampTimes t) := Int.floor_le _
  have hstep : t.step = s := by
    unfold step
    rw [stamp_instant h.zones.1, stamp_instant h.zones.2, ← h.starts, ← h.stops]
    have : truncZ (spacing (stampTimes t)) = s := by unfold truncZ; rw [if_pos (by linarith)]
    rw [hsp] at this
    exact_mod_cast this
  have hD : 0 ≤ E - (F + ((n : ℚ) - 1) * s) := by
    have := mul_le_mul_of_nonneg_right hfl hn.le
    rw [hsp2] at this
    linarith
  set D := E - (F + ((n : ℚ) - 1) * s) with hDdef
  have hx : (E + s - F) / s = n + D / s := by
    rw [hDdef]
    field_simp
    ring
  have hDs : 0 ≤ D / s := div_nonneg hD hs0.le
  set m := ⌈roundDec 1 ((E + s - F) / s)⌉ with hm
  have hm1 : (E + s - F) / s ≤ m + 1 / 20 := by
    have := (roundDec_le_int (k := 1) (by norm_num) (q := (E + s - F) / s) (m := m)).1 (Int.le_ceil _)
    norm_num at this ⊢
    exact this
  have hm2 : (m : ℚ) - 1 + 1 / 20 < (E + s - F) / s := by
    by_contra hc
    push Not at hc
    have h3 : roundDec 1 ((E + s - F) / s) ≤ ((m - 1 : ℤ) : ℚ) := by
      rw [roundDec_le_int (k := 1) (by norm_num)]
      push_cast
      norm_num at hc ⊢
      linarith
    have := Int.ceil_le.2 h3
    omega
  rw [hx] at hm1 hm2
  have hmn : (n : ℤ) ≤ m := by
    have : ((n : ℤ) : ℚ) - 1 < m := by push_cast; linarith
    have h4 : (n : ℤ) - 1 < m := by exact_mod_cast this
    omega
  obtain ⟨j, hj⟩ := Int.eq_ofNat_of_zero_le (show 0 ≤ m - n by omega)
  have hmj : m = ((n + j : ℕ) : ℤ) := by push_cast; omega
  have hmj' : (m : ℚ) = n + j := by rw [hmj]; push_cast; rfl
  rw [hmj'] at hm1 hm2
  have hjs : (j : ℚ) * s - D = ((j : ℚ) - D / s) * s := by rw [sub_mul, div_mul_cancel₀ _ hs0.ne']
  refine ⟨j, s, rfl, hs1, hstep, ?_, ?_, ?_, hD, ?_, ?_⟩
  · rw [stamp_instant h.zones.1, stamp_instant h.zones.2, ← h.starts, ← h.stops, hstep, mkRange_eq _ _ _ hs0.ne']
    simp only
    rw [← hm, if_pos (by have := h.two; omega), hmj]
    simp only [Int.toNat_natCast, Int.cast_natCast]
    rfl
  · rw [hjs]
    have : (j : ℚ) - D / s ≤ 1 := by linarith
    nlinarith
  · rw [hjs]
    have : -(1 / 20) ≤ (j : ℚ) - D / s := by linarith
    nlinarith
  · rw [hsp, eq_div_iff hn.ne']
    constructor <;> intro h5 <;> linarith
  · have hD20 : D ≤ s / 20 ↔ D / s ≤ 1 / 20 := by
      rw [div_le_iff₀ hs0]
      constructor <;> intro h5 <;> linarith
    rw [hD20]
    constructor
    · intro h5
      have : (j : ℚ) = 0 := by exact_mod_cast (show j = 0 by omega)
      linarith
    · intro h5
      have : (j : ℚ) < 1 := by linarith
      have : j < 1 := by exact_mod_cast this
      omega

/-- The times, if they can be told. -/
theorem timeCoord_spec (h : NodeLayout t ds count) (hu : ¬ Unlucky (stampTimes t))
    (hst : (⌊spacing (stampTimes t)⌋ : ℚ) ≠ spacing (stampTimes t) → Storable (stampTimes t)) :
    ∃ c, t.timeCoord = .ok (.one .time c) ∧ (MCoord.one .time c).canon = .ok (.one .time c) ∧ c.Wf ∧ c.length = t.stamps.length ∧
      ((∃ r, c = .range r) ∨ ∃ l, c = .mono l) ∧ ∀ i < t.stamps.length, c.labels.getD i none = some (prodTime (stampTimes t) i) := by
  have hne : t.stamps ≠ [] := by
    intro hc
    have := h.two
    rw [hc] at this
    simp at this
  have hlen : (stampTimes t).length = t.stamps.length := by simp [stampTimes]
  obtain ⟨j, s, hs, hs1, hstep, hmk, hup, hlow, hD, hiff, hlast⟩ := range_spec h
  have hs1' : (1000 : ℚ) ≤ s := by exact_mod_cast hs1
  have hl := stamps_last hne
  have h0 : t.stamps.length ≠ 0 := by have := h.two; omega
  have h1 : t.stamps.length ≠ 1 := by have := h.two; omega
  have htc : t.timeCoord = t.corrected ⟨(stampTimes t).headD 0, (stampTimes t).headD 0 + (s : ℚ) * ((t.stamps.length + j : ℕ) : ℚ), s, t.stamps.length + j⟩ := by
    unfold timeCoord
    rw [if_neg h0, if_neg h1, hmk]
    rfl
  set c : RangeCoord := ⟨(stampTimes t).headD 0, (stampTimes t).headD 0 + (s : ℚ) * ((t.stamps.length + j : ℕ) : ℚ), s, t.stamps.length + j⟩ with hc
  have hmax : c.cmax = (stampTimes t).getLastD 0 + ((j : ℚ) * s - ((stampTimes t).getLastD 0 - ((stampTimes t).headD 0 + ((t.stamps.length : ℚ) - 1) * s))) := by
    unfold RangeCoord.cmax
    rw [max_eq_left]
    · simp only [hc]; push_cast; ring
    · simp only [hc]
      have h2 : (2 : ℚ) ≤ t.stamps.length := by exact_mod_cast h.two
      have hj0 : (0 : ℚ) ≤ j := Nat.cast_nonneg j
      push_cast
      nlinarith
  obtain ⟨z, hz⟩ : ∃ z : ℤ, t.stamps.getLastD 0 = z := by
    apply h.whole
    rw [List.getLastD_eq_getLast?, List.getLast?_eq_some_getLast hne]
    exact List.getLast_mem hne
  have hdiff : t.diff c = |micros c.cmax - (stampTimes t).getLastD 0| / s := by
    unfold diff
    rw [hl, hstep]
    have : ∀ x : ℚ, absQ x = |x| := by
      intro x
      unfold absQ
      split_ifs with hx
      · rw [abs_of_neg hx]
      · rw [abs_of_nonneg (by linarith)]
    rw [this, abs_div, abs_of_pos (show (0 : ℚ) < s by linarith)]
  set G := (j : ℚ) * s - ((stampTimes t).getLastD 0 - ((stampTimes t).headD 0 + ((t.stamps.length : ℚ) - 1) * s)) with hG
  have hmic : micros c.cmax = (stampTimes t).getLastD 0 + 1000 * ⌊G / 1000⌋ := by
    unfold micros
    have : c.cmax / 1000 = z + G / 1000 := by
      rw [hmax, ← hl, hz]
      ring
    rw [this, Int.floor_intCast_add, ← hl, hz]
    push_cast
    ring
  have hd2 : t.diff c = |(1000 * ⌊G / 1000⌋ : ℚ)| / s := by rw [hdiff, hmic, add_sub_cancel_left]
  by_cases hw : (⌊spacing (stampTimes t)⌋ : ℚ) = spacing (stampTimes t)
  · have hD0 := hiff.2 (by rw [hs]; exact hw)
    have hj : j = 0 := by
      have := hlast.2 (by rw [hD0, sub_self]; linarith)
      omega
    have hG0 : G = 0 := by rw [hG, hD0, hj]; push_cast; ring
    have hcor : t.corrected c = .ok (.one .time (.range c)) := by
      unfold corrected
      rw [if_neg]
      rw [hd2, hG0]
      norm_num
    have hv : c.Valid := by
      rw [hc]
      exact valid_canonical (by linarith : (s : ℚ) ≠ 0) (by omega)
    refine ⟨.range c, by rw [htc, hcor], rfl, hv, ?_, Or.inl ⟨_, rfl⟩, ?_⟩
    · show c.len = _
      rw [hc, hj]; rfl
    · intro i hi
      show (c.values.map some).getD i none = _
      rw [hv.values_eq]
      unfold progression
      have hcl : c.len = t.stamps.length := by rw [hc, hj]; rfl
      rw [hcl, List.getD_eq_getElem?_getD, List.getElem?_map, List.getElem?_map, List.getElem?_range hi]
      unfold prodTime
      rw [if_pos hw, ← hw, ← hs]
      rfl
  · have hD0 : 0 < (stampTimes t).getLastD 0 - ((stampTimes t).headD 0 + ((t.stamps.length : ℚ) - 1) * s) := by
      rcases hD.lt_or_eq with h3 | h3
      · exact h3
      · exact absurd (by rw [← hs]; exact hiff.1 (by linarith)) hw
    have hfl : ⌊G / 1000⌋ ≠ 0 := by
      intro hc0
      rw [Int.floor_eq_iff] at hc0
      push_cast at hc0
      have hg0 : 0 ≤ G := by linarith [hc0.1]
      have hg1 : G < 1000 := by linarith [hc0.2]
      rcases Nat.eq_zero_or_pos j with hj | hj
      · rw [hG, hj] at hg0
        push_cast at hg0
        linarith
      · apply hu
        refine ⟨j, hj, ?_, ?_⟩ <;> rw [hlen, ← hs] <;> assumption
    have hcor : t.corrected c = (getCoordData .time (stampTimes t)).map (.one .time) := by
      unfold corrected
      rw [if_pos]
      · rfl
      · rw [hd2]
        constructor
        · apply div_pos _ (by linarith)
          rw [abs_pos]
          have : ((⌊G / 1000⌋ : ℤ) : ℚ) ≠ 0 := by exact_mod_cast hfl
          exact mul_ne_zero (by norm_num) this
        · rw [div_lt_iff₀ (by linarith), abs_lt]
          have g1 := Int.floor_le (G / 1000)
          have g2 := Int.lt_floor_add_one (G / 1000)
          constructor <;> linarith
    obtain ⟨d, g1, g2, g3⟩ := C14_represents_partial .time _ (hst hw)
    have hasc : StrictMono' (stampTimes t) := by
      left
      unfold stampTimes
      rw [List.pairwise_map]
      exact h.ascending.imp fun hab => by linarith
    refine ⟨d, by rw [htc, hcor, g1]; rfl, getCoordData_fixed g1, getCoordData_wf g1, by rw [g3, hlen], ?_, ?_⟩
    · exact stored_class (by rw [hlen]; exact h.two) hasc (hst hw) g1
    · intro i hi
      rw [g2, List.getD_eq_getElem?_getD, List.getElem?_map]
      unfold prodTime
      rw [if_neg hw, List.getD_eq_getElem?_getD]
      rw [List.getElem?_eq_getElem (by rw [hlen]; exact hi)]
      rfl

theorem words_dims (h : NodeLayout t ds count) : t.words.map prodDim = ds := by
  have hw := h.words
  clear h
  generalize t.words = l at hw ⊢
  induction hw with
  | nil => rfl
  | cons hw _ ih =>
    rw [List.map_cons, ih]
    congr 1
    rcases hw with ⟨rfl, hw⟩ | ⟨rfl, hw⟩ <;> simp only [List.mem_cons, List.not_mem_nil, or_false] at hw
    · rcases hw with rfl | rfl <;> decide
    · rcases hw with rfl | rfl | rfl | rfl <;> decide

end ProdNode

namespace ProdFile
variable {α : Type} {f : ProdFile α}

theorem distanceCoord_spec (hc : 1 ≤ f.count) (hi : f.interval ≠ 0) :
    f.distanceCoord = .ok ⟨f.first * f.interval, f.first * f.interval + f.interval * f.count, f.interval, f.count⟩ := by
  unfold distanceCoord
  rw [mul_comm (f.count : ℚ), mkRange_canonical hi hc]

/-- The distances of a part of the acquisition. -/
theorem partOf_spec (hc : 1 ≤ f.count) (hi : f.interval ≠ 0) {b : Option (ℤ × ℕ)} {off : ℤ} {cnt : ℕ} (h : 0 ≤ off ∧ 1 ≤ cnt ∧ off + cnt ≤ f.count)
    (hb : b = none ∧ off = 0 ∧ cnt = f.count ∨ b = some (off, cnt)) :
    ∃ r, partOf ⟨f.first * f.interval, f.first * f.interval + f.interval * f.count, f.interval, f.count⟩ b = .ok (.range r) ∧ r.Valid ∧ r.len = cnt ∧
      ∀ i < cnt, r.values.getD i 0 = ((f.first + off + i : ℤ) : ℚ) * f.interval := by
  have hv := valid_canonical (a := f.first * f.interval) hi hc
  have hvals := canonical_values (a := f.first * f.interval) hi hc
  rcases hb with ⟨rfl, rfl, rfl⟩ | rfl
  · refine ⟨_, rfl, hv, rfl, ?_⟩
    intro i hi'
    rw [hvals, List.getD_eq_getElem?_getD, List.getElem?_map, List.getElem?_range hi']
    simp only [Option.map_some, Option.getD_some]
    push_cast
    ring
  · obtain ⟨o, rfl⟩ := Int.eq_ofNat_of_zero_le h.1
    have hbound : o + cnt ≤ f.count := by exact_mod_cast h.2.2
    set c : RangeCoord := ⟨f.first * f.interval, f.first * f.interval + f.interval * f.count, f.interval, f.count⟩ with hcdef
    obtain ⟨d, l, h1, h2, h3⟩ := (C02_slice c (BuiltRange.of_valid hv) ⟨some (o : ℤ), some ((o : ℤ) + cnt), none⟩).1 (by simp)
    have hcl : c.values.length = f.count := hv.length_values
    have h4 := pySlice_unit c.values o (o + cnt) (some (o : ℤ)) (some ((o : ℤ) + cnt))
      (by rw [hcl]; simp only [Option.map_some, Option.getD_some, clipBound]; split_ifs <;> omega)
      (by rw [hcl]; simp only [Option.map_some, Option.getD_some, clipBound]; push_cast; split_ifs <;> omega)
    rw [h2] at h4
    injection h4 with h4
    have hll : l.length = cnt := by rw [h4, List.length_take, List.length_drop, hcl]; omega
    rcases getSlice_class h1 with ⟨r, rfl⟩ | ⟨n, rfl⟩
    · have hr := getSlice_valid hv h1 rfl
      have hrv : r.values = l := (List.map_injective_iff.2 (Option.some_injective _)) h3
      refine ⟨r, h1, hr, by rw [← hr.length_values, hrv, hll], ?_⟩
      intro i hi'
      rw [hrv, h4, List.getD_eq_getElem?_getD, List.getElem?_take_of_lt (by omega), List.getElem?_drop, hvals, List.getElem?_map, List.getElem?_range (by omega)]
      simp only [Option.map_some, Option.getD_some]
      push_cast
      ring
    · exfalso
      have : (List.replicate n none : List (Option ℚ)) = l.map some := h3
      cases l with
      | nil => simp at hll; omega
      | cons a l =>
        cases n with
        | zero => simp at this
        | succ n => simp [List.replicate_succ] at this

theorem part_labels {x : RangeCoord} {t : ProdNode α} {ds : List String} {cnt : ℕ} (h : NodeLayout t ds cnt) {c : Coord}
    (hc : (MCoord.one .time c).canon = .ok (.one .time c)) (hw : c.Wf) (hl : c.length = t.stamps.length) (hx : x.Valid) (hxl : x.len = cnt) :
    Labels [("time", .one .time c), ("distance", .one .float (.range x))] ds fun d => if d = "time" then t.stamps.length else cnt where
  nodup := by rcases h.dims with rfl | rfl <;> decide
  names := by show ["time", "distance"].Nodup; decide
  keys := by
    intro n
    show n ∈ ["time", "distance"] ↔ _
    rcases h.dims with rfl | rfl
    · rfl
    · simp only [List.mem_cons, List.not_mem_nil, or_false]
      exact or_comm
  plain := by rcases h.dims with rfl | rfl <;> decide
  some_dim := by rcases h.dims with rfl | rfl <;> simp
  good := by
    intro d hd
    have : d = "time" ∨ d = "distance" := by
      rcases h.dims with rfl | rfl <;> simp only [List.mem_cons, List.not_mem_nil, or_false] at hd
      · exact hd
      · exact hd.symm
    rcases this with rfl | rfl
    · exact ⟨.time, c, rfl, hc, hw, hl⟩
    · exact ⟨.float, .range x, rfl, rfl, hx, hxl⟩

/-- Everything known about one recording. -/
theorem part_spec (hc : 1 ≤ f.count) (hi : f.interval ≠ 0) {b : Option (ℤ × ℕ)} {p : ℤ × ℕ × ProdNode α} (hp : PartLayout f p)
    (hb : b = none ∧ p.1 = 0 ∧ p.2.1 = f.count ∨ b = some (p.1, p.2.1)) :
    ∃ ds c x, NodeLayout p.2.2 ds p.2.1 ∧ p.2.2.words.map prodDim = ds ∧ p.2.2.timeCoord = .ok (.one .time c) ∧
      partOf ⟨f.first * f.interval, f.first * f.interval + f.interval * f.count, f.interval, f.count⟩ b = .ok (.range x) ∧
      Labels [("time", .one .time c), ("distance", .one .float (.range x))] ds (fun d => if d = "time" then p.2.2.stamps.length else p.2.1) ∧
      ((∃ r, c = .range r) ∨ ∃ l, c = .mono l) ∧
      Gives [("time", .one .time c), ("distance", .one .float (.range x))] ds (fun d => if d = "time" then p.2.2.stamps.length else p.2.1)
        (fun d k => if d = "time" then prodTime (stampTimes p.2.2) k else ((f.first + p.1 + k : ℤ) : ℚ) * f.interval) := by
  obtain ⟨ds, hn⟩ := hp.node
  obtain ⟨c, h1, h2, h3, h4, h5, h6⟩ := ProdNode.timeCoord_spec hn hp.lucky hp.storable
  obtain ⟨x, g1, g2, g3, g4⟩ := partOf_spec hc hi hp.loci hb
  refine ⟨ds, c, x, hn, ProdNode.words_dims hn, h1, g1, part_labels hn h2 h3 h4 g2 g3, h5, ?_⟩
  intro d hd k c' hc' i hi'
  have : d = "time" ∨ d = "distance" := by
    rcases hn.dims with rfl | rfl <;> simp only [List.mem_cons, List.not_mem_nil, or_false] at hd
    · exact hd
    · exact hd.symm
  rcases this with rfl | rfl
  · have : some (MCoord.one Kind.time c) = some (MCoord.one k c') := hc'
    cases this
    exact h6 i hi'
  · have : some (MCoord.one Kind.float (.range x)) = some (MCoord.one k c') := hc'
    cases this
    have hi2 : i < p.2.1 := hi'
    have := g4 i hi2
    show (x.values.map some).getD i none = _
    have hlen : i < x.values.length := by rw [g2.length_values, g3]; exact hi2
    rw [List.getD_eq_getElem?_getD, List.getElem?_eq_getElem hlen] at this
    rw [List.getD_eq_getElem?_getD, List.getElem?_map, List.getElem?_eq_getElem hlen]
    simp only [Option.map_some, Option.getD_some] at this ⊢
    rw [this]
    rfl

theorem readNode_eq {argsort : List ℚ → List ℕ} {d : RangeCoord} {time distance : Option (Option ℚ × Option ℚ)} {b : Option (ℤ × ℕ)} {t : ProdNode α} {c : Coord}
    {x : RangeCoord} {ds : List String} (h1 : t.timeCoord = .ok (.one .time c)) (h2 : partOf d b = .ok (.range x)) (h3 : t.words.map prodDim = ds) :
    readNode argsort d time distance (b, t) =
      readLabelled argsort [("time", .one .time c), ("distance", .one .float (.range x))] ds t.data (bothOf time distance) := by
  unfold readNode
  simp only [h1, h2, h3]
  rfl

/-- Reading a recording. -/
theorem readNode_whole (argsort : List ℚ → List ℕ) (hc : 1 ≤ f.count) (hi : f.interval ≠ 0) {b : Option (ℤ × ℕ)} {p : ℤ × ℕ × ProdNode α} (hp : PartLayout f p)
    (hb : b = none ∧ p.1 = 0 ∧ p.2.1 = f.count ∨ b = some (p.1, p.2.1)) :
    ∃ q, readNode argsort ⟨f.first * f.interval, f.first * f.interval + f.interval * f.count, f.interval, f.count⟩ none none (b, p.2.2) = .ok (some q) ∧ HoldsPart f p q := by
  obtain ⟨ds, c, x, h1, h2, h3, h4, h5, h6, h7⟩ := part_spec hc hi hp hb
  obtain ⟨q, hq, hh⟩ := readLabelled_whole argsort h5 h1.shape (by
    intro d _
    have := h1.two
    have := hp.loci.2.1
    show 0 < if d = "time" then p.2.2.stamps.length else p.2.1
    split_ifs <;> omega) h7
  exact ⟨q, by rw [readNode_eq h3 h4 h2]; exact hq, ds, h1, hh⟩

theorem readNode_part {argsort : List ℚ → List ℕ} (ha : IsArgsort argsort) (hc : 1 ≤ f.count) (hi : f.interval ≠ 0) {b : Option (ℤ × ℕ)} {p : ℤ × ℕ × ProdNode α}
    (hp : PartLayout f p) (hb : b = none ∧ p.1 = 0 ∧ p.2.1 = f.count ∨ b = some (p.1, p.2.1)) {time distance : Option (Option ℚ × Option ℚ)}
    (hl : time.isSome ∨ distance.isSome) :
    ∃ o, readNode argsort ⟨f.first * f.interval, f.first * f.interval + f.interval * f.count, f.interval, f.count⟩ time distance (b, p.2.2) = .ok o ∧
      PartWithin f (time.getD (none, none)) (distance.getD (none, none)) p o := by
  obtain ⟨ds, c, x, h1, h2, h3, h4, h5, h6, h7⟩ := part_spec hc hi hp hb
  have hlim : bothOf time distance = some (bothLimits (time.getD (none, none)) (distance.getD (none, none))) := by
    unfold bothOf
    rw [if_pos (by rw [Bool.or_eq_true]; exact hl)]
    rfl
  obtain ⟨o, ho⟩ := readLabelled_succeeds (data := p.2.2.data) ha h5 h1.shape (kw := bothLimits (time.getD (none, none)) (distance.getD (none, none))) (by
    intro d hd k c' hc'
    have : d = "time" ∨ d = "distance" := by
      rcases h1.dims with rfl | rfl <;> simp only [List.mem_cons, List.not_mem_nil, or_false] at hd
      · exact hd
      · exact hd.symm
    rcases this with rfl | rfl
    · have : some (MCoord.one Kind.time c) = some (MCoord.one k c') := hc'
      cases this
      exact h6.imp id fun ⟨l, hl⟩ => ⟨l, hl, by decide⟩
    · have : some (MCoord.one Kind.float (.range x)) = some (MCoord.one k c') := hc'
      cases this
      exact Or.inl ⟨_, rfl⟩) (by show ["time", "distance"].Nodup; decide) (by
    intro r hr
    simp only [bothLimits, List.mem_cons, List.not_mem_nil, or_false] at hr
    rcases hr with rfl | rfl <;> trivial)
  obtain ⟨w, gs, q, g1, g2, g3, g4⟩ := readLabelled_part ha h5 h1.shape h7 (by
    intro r hr
    simp only [bothLimits, List.mem_cons, List.not_mem_nil, or_false] at hr
    rcases hr with rfl | rfl <;> trivial) ho
  refine ⟨o, by rw [readNode_eq h3 h4 h2, hlim]; exact ho, w, gs, q, ⟨ds, h1, g1⟩, ?_, g3, g4⟩
  refine g2.trans (List.Perm.of_eq ?_)
  rw [List.filter_eq_self]
  intro r hr
  simp only [bothLimits, List.mem_cons, List.not_mem_nil, or_false] at hr
  rcases h1.dims with rfl | rfl <;> rcases hr with rfl | rfl <;> rfl

/-- The recordings are read one by one. -/
theorem nodes_parts : List.Forall₂ (fun (n : Option (ℤ × ℕ) × ProdNode α) (p : ℤ × ℕ × ProdNode α) =>
    n.2 = p.2.2 ∧ (n.1 = none ∧ p.1 = 0 ∧ p.2.1 = f.count ∨ n.1 = some (p.1, p.2.1))) f.nodes (prodParts f) := by
  unfold nodes prodParts
  refine List.rel_append ?_ ?_
  · induction f.bands with
    | nil => exact List.Forall₂.nil
    | cons b l ih => exact List.Forall₂.cons ⟨rfl, Or.inr rfl⟩ ih
  · generalize f.raws = l
    induction l with
    | nil => exact List.Forall₂.nil
    | cons r l ih =>
      cases r with
      | none => exact ih
      | some n => exact List.Forall₂.cons ⟨rfl, Or.inl ⟨rfl, rfl, rfl⟩⟩ ih

end ProdFile
end Verif
