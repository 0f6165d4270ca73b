import Verif.Proof.Align
import Verif.Props.Align
import Verif.Spec.Taper
/-!
# Tapers (C46)
-/
namespace Verif
open Spec

theorem selectFrom_slice {c : RangeCoord} {S T : Option ℤ} {d : Coord} {sl : PySlice} (h : c.selectFrom S T = .ok (d, sl))
    (hd : sliceDegenerate c.len (if S = some 0 then none else S) (T.map (· + 1)) = false) :
    sl = ⟨if S = some 0 then none else S, T.map (· + 1), none⟩ := by
  unfold RangeCoord.selectFrom at h
  simp only [hd, Bool.false_eq_true, if_false, bind, Except.bind, pure, Except.pure] at h
  split at h
  · cases h
  split at h
  · cases h
  split at h
  · cases h
  injection h with h
  injection h with h1 h2
  exact h2.symm

theorem within_zero {c : RangeCoord} (hs : 0 < c.step) {v : ℚ} (hv : 0 ≤ v) : WithinAmt c 0 v := by
  unfold WithinAmt
  have : (0 : ℚ) < c.step * (1 / (2 * 10 ^ 10)) := by positivity
  push_cast
  linarith

theorem within_mono {c : RangeCoord} (hs : 0 < c.step) {v : ℚ} {k l : ℤ} (h : k ≤ l) (hw : WithinAmt c l v) : WithinAmt c k v := by
  unfold WithinAmt at *
  have : (k : ℚ) ≤ l := by exact_mod_cast h
  nlinarith

theorem range_min {c : RangeCoord} (hc : c.Valid) (hs : 0 < c.step) : c.cmin = c.start := by
  have hlen : (1 : ℚ) ≤ c.len := by exact_mod_cast hc.len_pos
  rw [hc.cmin_eq, min_eq_left]; nlinarith

theorem range_max {c : RangeCoord} (hc : c.Valid) (hs : 0 < c.step) : c.cmax = c.start + (c.len - 1) * c.step := by
  have hlen : (1 : ℚ) ≤ c.len := by exact_mod_cast hc.len_pos
  rw [hc.cmax_eq, max_eq_right]; nlinarith

theorem getD_take {l : List ℚ} {a x : ℕ} (h : x < a) : (l.take a).getD x 0 = l.getD x 0 := by
  rw [List.getD_eq_getElem?_getD, List.getD_eq_getElem?_getD, List.getElem?_take, if_pos h]

theorem getD_drop {l : List ℚ} {a x : ℕ} : (l.drop a).getD x 0 = l.getD (a + x) 0 := by
  rw [List.getD_eq_getElem?_getD, List.getD_eq_getElem?_getD, List.getElem?_drop]

/-- The slice of the taper at the start. -/
theorem start_slice {c : RangeCoord} (hc : c.Valid) (hs : 0 < c.step) (t : TaperAmt) (ht : 0 ≤ t.value c) :
    ∃ d sl, c.select (none, some (c.relative (t.value c))) = .ok (d, sl) ∧
      ((sl = ⟨none, none, none⟩ ∧ WithinAmt c c.len (t.value c)) ∨
        ∃ a : ℕ, sl = ⟨none, some (a : ℤ), none⟩ ∧ a ≤ c.len ∧ 0 < a ∧ ¬ WithinAmt c c.len (t.value c) ∧
          ∀ x : ℤ, x < a ↔ WithinAmt c x (t.value c)) := by
  obtain ⟨d, sl, h, _⟩ := RangeCoord.select_spec hc none (some (c.relative (t.value c)))
  refine ⟨d, sl, h, ?_⟩
  set v := t.value c with hv
  have hrel : c.relative v = c.start + v := by unfold RangeCoord.relative; rw [if_pos ht, range_min hc hs]
  unfold RangeCoord.select at h
  rw [if_neg hs.ne'] at h
  have hrs : c.reverseSorted = false := by unfold RangeCoord.reverseSorted; simpa using hs.le
  simp only [orderPair, hrs, Bool.false_eq_true, if_false, hrel] at h
  have key : ∀ x : ℤ, x ≤ ⌊roundDec 10 ((c.start + v - c.start) / c.step)⌋ ↔ WithinAmt c x v := by
    intro x
    rw [le_floor_roundDec (by norm_num), le_div_iff₀ hs]
    unfold WithinAmt
    rw [show c.start + v - c.start = v by ring]
  have hnone : c.getIndex none c.sorted = none := rfl
  rw [hnone] at h
  cases hg : c.getIndex (some (c.start + v)) false with
  | none =>
    rw [hg] at h
    left
    have := selectFrom_slice h (by rfl)
    refine ⟨by simpa using this, ?_⟩
    unfold RangeCoord.getIndex at hg
    simp only [Bool.false_and, Bool.not_false, Bool.true_and, Bool.false_or, Bool.false_eq_true, if_false, decide_eq_true_eq] at hg
    split_ifs at hg with hle
    exact (key _).1 hle
  | some f =>
    rw [hg] at h
    right
    unfold RangeCoord.getIndex at hg
    simp only [Bool.false_and, Bool.not_false, Bool.true_and, Bool.false_or, Bool.false_eq_true, if_false, decide_eq_true_eq] at hg
    split_ifs at hg with hle
    cases hg
    generalize hf : ⌊roundDec 10 ((c.start + v - c.start) / c.step)⌋ = f at *
    have h0 : 0 ≤ f := (key 0).2 (within_zero hs ht)
    obtain ⟨a, ha⟩ : ∃ a : ℕ, f + 1 = a := Int.eq_ofNat_of_zero_le (by omega)
    have := selectFrom_slice h (by
      unfold sliceDegenerate
      simp; omega)
    refine ⟨a, by simpa [ha] using this, by omega, by omega, fun hw => hle ((key _).2 hw), fun x => ?_⟩
    rw [← key x]; omega

/-- The slice of the taper at the end. -/
theorem end_slice {c : RangeCoord} (hc : c.Valid) (hs : 0 < c.step) (t : TaperAmt) (ht : 0 < t.value c) :
    ∃ d sl, c.select (some (c.relative (-(t.value c))), none) = .ok (d, sl) ∧
      ((sl = ⟨none, none, none⟩ ∧ WithinAmt c (c.len - 1) (t.value c)) ∨
        ∃ b : ℕ, sl = ⟨some (b : ℤ), none, none⟩ ∧ b < c.len ∧ 0 < b ∧
          ∀ x : ℤ, (b : ℤ) ≤ x ↔ WithinAmt c (c.len - 1 - x) (t.value c)) := by
  obtain ⟨d, sl, h, _⟩ := RangeCoord.select_spec hc (some (c.relative (-(t.value c)))) none
  refine ⟨d, sl, h, ?_⟩
  set v := t.value c with hv
  have hrel : c.relative (-v) = c.start + (c.len - 1) * c.step - v := by
    unfold RangeCoord.relative; rw [if_neg (by linarith), range_max hc hs]; ring
  unfold RangeCoord.select at h
  rw [if_neg hs.ne'] at h
  have hrs : c.reverseSorted = false := by unfold RangeCoord.reverseSorted; simpa using hs.le
  have hso : c.sorted = true := by unfold RangeCoord.sorted; simpa using hs.le
  simp only [orderPair, hrs, hso, Bool.false_eq_true, if_false, hrel] at h
  have key : ∀ x : ℤ, ⌈roundDec 10 ((c.start + (c.len - 1) * c.step - v - c.start) / c.step)⌉ ≤ x ↔ WithinAmt c (c.len - 1 - x) v := by
    intro x
    rw [ceil_roundDec_le (by norm_num), div_le_iff₀ hs]
    unfold WithinAmt
    push_cast
    constructor <;> intro h <;> linarith
  have hnone : c.getIndex none false = none := rfl
  rw [hnone] at h
  cases hg : c.getIndex (some (c.start + (c.len - 1) * c.step - v)) true with
  | none =>
    rw [hg] at h
    left
    have := selectFrom_slice h (by rfl)
    refine ⟨by simpa using this, ?_⟩
    unfold RangeCoord.getIndex at hg
    simp only [Bool.not_true, Bool.true_and, Bool.or_false, Bool.false_and, if_true, decide_eq_true_eq] at hg
    split_ifs at hg with hle
    have := (key 0).1 (by omega)
    simpa using this
  | some f =>
    rw [hg] at h
    unfold RangeCoord.getIndex at hg
    simp only [Bool.not_true, Bool.true_and, Bool.or_false, Bool.false_and, if_true, decide_eq_true_eq] at hg
    split_ifs at hg with hle
    cases hg
    generalize hf : ⌈roundDec 10 ((c.start + (c.len - 1) * c.step - v - c.start) / c.step)⌉ = f at *
    have h1 : f ≤ c.len - 1 := (key _).2 (by rw [sub_self]; exact within_zero hs ht.le)
    by_cases h0 : f = 0
    · left
      subst h0
      have := selectFrom_slice h (by rfl)
      refine ⟨by simpa using this, ?_⟩
      have := (key 0).1 le_rfl
      simpa using this
    · right
      obtain ⟨b, hb⟩ : ∃ b : ℕ, f = b := Int.eq_ofNat_of_zero_le (by omega)
      have hne : ¬ (some f : Option ℤ) = some 0 := by simpa using h0
      have := selectFrom_slice h (by
        rw [if_neg hne]
        unfold sliceDegenerate
        simp; omega)
      rw [if_neg hne] at this
      refine ⟨b, by simpa [hb] using this, by omega, by omega, fun x => ?_⟩
      rw [← key x]; omega

theorem mulWindow_spec {α} {mul : α → ℚ → α} {a : Nd α} {axis n : ℕ} (hn : a.shape.getD axis 0 = n) {s : PySlice} {ws : List ℚ} {lo hi : ℕ}
    (hs : Indexer.positions (.slice s) n = .ok (List.range' lo (hi - lo))) (hw : ws.length = hi - lo) :
    ∃ r, a.mulWindow mul axis s ws = .ok r ∧ r.shape = a.shape ∧ ∀ i, r.get i =
      if lo ≤ i.getD axis 0 ∧ i.getD axis 0 < hi then mul (a.get i) (ws.getD (i.getD axis 0 - lo) 0) else a.get i := by
  unfold Nd.mulWindow
  rw [hn, hs]
  simp only [bind, Except.bind, List.length_range']
  rw [if_neg (by omega)]
  refine ⟨_, rfl, rfl, fun i => ?_⟩
  simp only [List.mem_range'_1]
  generalize i.getD axis 0 = x
  have hiff : (lo ≤ x ∧ x < lo + (hi - lo)) ↔ (lo ≤ x ∧ x < hi) := by omega
  by_cases hx : lo ≤ x ∧ x < hi
  · have hx' := hiff.2 hx
    rw [if_pos hx', if_pos hx, idxOf_range' hx'.1 hx'.2]
    congr 2
    split_ifs <;> omega
  · rw [if_neg (fun h => hx (hiff.1 h)), if_neg hx]

/-- The taper at the start leaves the first `a` samples multiplied. -/
theorem taperStart_spec {α} {mul : α → ℚ → α} {w : ℕ → List ℚ} (hw : ∀ n, (w n).length = n) {d : Nd α} {axis n a : ℕ}
    (hn : d.shape.getD axis 0 = n) (ha : a ≤ n) :
    ∃ r, taperStart mul w d axis ⟨none, some (a : ℤ), none⟩ = .ok r ∧ r.shape = d.shape ∧ ∀ i, r.get i =
      if i.getD axis 0 < a then mul (d.get i) ((w (2 * a)).getD (i.getD axis 0) 0) else d.get i := by
  unfold taperStart
  simp only [Int.toNat_natCast]
  obtain ⟨r, h1, h2, h3⟩ := mulWindow_spec (mul := mul) hn (s := ⟨none, some (a : ℤ), none⟩) (ws := (w (2 * a)).take a) (lo := 0) (hi := a) (by
    show pySlice (List.range n) _ = _
    rw [pySlice_unit _ 0 a _ _ rfl (by simp [clipBound, ha])]
    rw [drop_take_range n 0 a ha]) (by rw [List.length_take, hw]; omega)
  refine ⟨r, h1, h2, fun i => ?_⟩
  rw [h3 i]
  by_cases h : i.getD axis 0 < a
  · rw [if_pos ⟨by omega, h⟩, if_pos h, Nat.sub_zero, getD_take h]
  · rw [if_neg (fun h' => h h'.2), if_neg h]

theorem taperEnd_spec {α} {mul : α → ℚ → α} {w : ℕ → List ℚ} (hw : ∀ n, (w n).length = n) {d : Nd α} {axis n b : ℕ}
    (hn : d.shape.getD axis 0 = n) (hb : b ≤ n) :
    ∃ r, taperEnd mul w d axis ⟨some (b : ℤ), none, none⟩ = .ok r ∧ r.shape = d.shape ∧ ∀ i, i.getD axis 0 < n → r.get i =
      if b ≤ i.getD axis 0 then mul (d.get i) ((w (2 * (n - b))).getD ((n - b) + (i.getD axis 0 - b)) 0) else d.get i := by
  unfold taperEnd
  have hk : ((d.shape.getD axis 0 : ℤ) - b).toNat = n - b := by rw [hn]; omega
  simp only [hk]
  obtain ⟨r, h1, h2, h3⟩ := mulWindow_spec (mul := mul) hn (s := ⟨some (b : ℤ), none, none⟩) (ws := (w (2 * (n - b))).drop (n - b)) (lo := b) (hi := n) (by
    show pySlice (List.range n) _ = _
    rw [pySlice_unit _ b n _ _ (by simp [clipBound, hb]) (by simp)]
    rw [drop_take_range n b n le_rfl]) (by rw [List.length_drop, hw]; omega)
  refine ⟨r, h1, h2, fun i hi => ?_⟩
  rw [h3 i]
  by_cases h : b ≤ i.getD axis 0
  · rw [if_pos ⟨h, hi⟩, if_pos h, getD_drop]
  · rw [if_neg (fun h' => h h'.1), if_neg h]

theorem value_asked {c : RangeCoord} (hc : c.Valid) (hs : 0 < c.step) (t : TaperAmt) : t.value c = askedTaper c t := by
  cases t with
  | amount v => rfl
  | frac f =>
    have hlen : (1 : ℚ) ≤ c.len := by exact_mod_cast hc.len_pos
    have h0 : c.start ≤ c.start + (c.len - 1) * c.step := by nlinarith
    simp only [TaperAmt.value, askedTaper]
    rw [hc.cmin_eq, hc.cmax_eq, min_eq_left h0, max_eq_right h0]
    ring

/-- C46. A taper succeeds exactly if the taper at the start does not reach beyond the coordinate, the taper at the end does not
reach the first sample, and no sample is reached by both. Then only the samples reached are touched. For an increasing coordinate
and amounts which are positive (or zero at the start); missing: other amounts, see the violations. -/
theorem C46_taper_partial {α} {mul : α → ℚ → α} {w : ℕ → List ℚ} (hw : ∀ n, (w n).length = n) {p : PatchM α} (hm : Regular p.cm)
    (hd : p.cm.dims ≠ []) (hsh : p.cm.shape = p.data.shape) {dim : String} (hdim : dim ∈ p.cm.dims) {k : Kind} {c : RangeCoord}
    (hc : p.cm.ents.get? dim = some ([dim], .one k (.range c))) (hs : 0 < c.step) {start stop : Option TaperAmt}
    (h1 : ∀ t, start = some t → 0 ≤ askedTaper c t) (h2 : ∀ t, stop = some t → 0 < askedTaper c t) :
    ((∃ q, p.taper mul w dim start stop = .ok q) ↔
      ¬ StartReaches c start c.len ∧ ¬ EndReaches c stop 0 ∧ ∀ x : ℕ, x < c.len → ¬ (StartReaches c start x ∧ EndReaches c stop x)) ∧
    ∀ q, p.taper mul w dim start stop = .ok q → ∃ a b, Tapered mul w p q dim c start stop a b := by
  have hv : c.Valid := hm.classes _ _ _ _ (Dict.mem_of_get? hc)
  have hva : ∀ t : TaperAmt, t.value c = askedTaper c t := value_asked hv hs
  have hl : c.len = lenDim p.cm dim := (dim_one hm hdim hc).2
  have hshape : p.data.shape = p.cm.dims.map p.cm.ents.lenOf := by
    rw [← hsh]; unfold CM.shape; rw [if_neg hd]
  have hn : p.data.shape.getD (p.cm.dims.idxOf dim) 0 = c.len := by
    rw [List.getD_eq_getElem?_getD, hshape, List.getElem?_map, List.getElem?_eq_getElem (List.idxOf_lt_length_of_mem hdim)]
    simp [hl, lenDim]
  have hpos : ∀ i, InRange p.data.shape i → i.getD (p.cm.dims.idxOf dim) 0 < c.len := by
    intro i hi
    rw [hshape] at hi
    rw [hl]
    exact inRange_getD hi hdim
  -- the first slice
  obtain ⟨d1, s1, e1, g1⟩ : ∃ d sl, c.select (none, start.map fun a => c.relative (a.value c)) = .ok (d, sl) ∧
      ((start.isSome = true ∧ sl = ⟨none, none, none⟩ ∧ StartReaches c start c.len) ∨
        ∃ a : ℕ, a ≤ c.len ∧ ¬ StartReaches c start c.len ∧ (∀ x : ℕ, x < a ↔ StartReaches c start x) ∧
          ((start = none ∧ a = 0 ∧ sl.stop = none) ∨ (start.isSome = true ∧ sl = ⟨none, some (a : ℤ), none⟩))) := by
    cases start with
    | none =>
      obtain ⟨d, sl, h, _⟩ := RangeCoord.select_spec hv none none
      refine ⟨d, sl, h, Or.inr ⟨0, by omega, by simp [StartReaches], by simp [StartReaches], Or.inl ⟨rfl, rfl, ?_⟩⟩⟩
      unfold RangeCoord.select at h
      rw [if_neg hs.ne'] at h
      simp only [orderPair, RangeCoord.getIndex] at h
      have : c.selectFrom none none = .ok (d, sl) := by split_ifs at h <;> exact h
      have := selectFrom_slice this (by rfl)
      rw [this]; rfl
    | some t =>
      obtain ⟨d, sl, h, g⟩ := start_slice hv hs t (by rw [hva]; exact h1 t rfl)
      rw [hva] at g
      refine ⟨d, sl, h, ?_⟩
      rcases g with ⟨g1, g2⟩ | ⟨a, g1, g2, g3, g4, g5⟩
      · exact Or.inl ⟨rfl, g1, t, rfl, g2⟩
      · refine Or.inr ⟨a, g2, ?_, fun x => ?_, Or.inr ⟨rfl, g1⟩⟩
        · rintro ⟨_, ht, hw'⟩; cases ht; exact g4 hw'
        · constructor
          · intro hx; exact ⟨t, rfl, (g5 x).1 (by omega)⟩
          · rintro ⟨_, ht, hw'⟩; cases ht
            have := (g5 x).2 hw'; omega
  obtain ⟨d2, s2, e2, g2⟩ : ∃ d sl, c.select (stop.map fun a => c.relative (-(a.value c)), none) = .ok (d, sl) ∧
      ((stop.isSome = true ∧ sl = ⟨none, none, none⟩ ∧ EndReaches c stop 0) ∨
        ∃ b : ℕ, b ≤ c.len ∧ ¬ EndReaches c stop 0 ∧ (∀ x : ℕ, x < c.len → (b ≤ x ↔ EndReaches c stop x)) ∧
          ((stop = none ∧ b = c.len ∧ sl.start = none) ∨ (stop.isSome = true ∧ b < c.len ∧ sl = ⟨some (b : ℤ), none, none⟩))) := by
    cases stop with
    | none =>
      obtain ⟨d, sl, h, _⟩ := RangeCoord.select_spec hv none none
      refine ⟨d, sl, h, Or.inr ⟨c.len, le_rfl, by simp [EndReaches], by simp [EndReaches], Or.inl ⟨rfl, rfl, ?_⟩⟩⟩
      unfold RangeCoord.select at h
      rw [if_neg hs.ne'] at h
      simp only [orderPair, RangeCoord.getIndex] at h
      have : c.selectFrom none none = .ok (d, sl) := by split_ifs at h <;> exact h
      have := selectFrom_slice this (by rfl)
      rw [this]; rfl
    | some t =>
      obtain ⟨d, sl, h, g⟩ := end_slice hv hs t (by rw [hva]; exact h2 t rfl)
      rw [hva] at g
      refine ⟨d, sl, h, ?_⟩
      rcases g with ⟨g1, g2⟩ | ⟨b, g1, g2, g3, g4⟩
      · exact Or.inl ⟨rfl, g1, t, rfl, by simpa using g2⟩
      · refine Or.inr ⟨b, g2.le, ?_, fun x _ => ?_, Or.inr ⟨rfl, g2, g1⟩⟩
        · rintro ⟨_, ht, hw'⟩; cases ht
          have := (g4 0).2 hw'; omega
        · constructor
          · intro hx; exact ⟨t, rfl, (g4 x).1 (by omega)⟩
          · rintro ⟨_, ht, hw'⟩; cases ht
            have := (g4 x).2 hw'; omega
  have hsl : taperSlices c start stop = .ok (s1, s2) := by
    unfold taperSlices
    rw [e1]
    simp only [bind, Except.bind]
    rw [e2]; rfl
  have hrun : p.taper mul w dim start stop =
      if !taperValid start.isSome stop.isSome s1 s2 c.len then .error .parameterError
      else (if start.isSome then taperStart mul w p.data (p.cm.dims.idxOf dim) s1 else .ok p.data).bind fun a =>
        (if stop.isSome then taperEnd mul w a (p.cm.dims.idxOf dim) s2 else .ok a).bind fun b => PatchM.new p.cm b := by
    unfold PatchM.taper
    rw [if_neg (not_not.2 hdim), hc]
    simp only [bind, Except.bind, hsl, hn]
    cases start <;> cases stop <;> rfl
  rcases g1 with ⟨is1, rfl, r1⟩ | ⟨a, ha, nr1, ra, g1⟩
  · -- beyond the coordinate
    have hbad : taperValid start.isSome stop.isSome ⟨none, none, none⟩ s2 c.len = false := by
      unfold taperValid; simp [is1]
    rw [hrun, hbad]
    refine ⟨⟨fun ⟨q, h⟩ => (by cases h), fun h => absurd r1 h.1⟩, fun q h => (by cases h)⟩
  rcases g2 with ⟨is2, rfl, r2⟩ | ⟨b, hb, nr2, rb, g2⟩
  · have hbad : taperValid start.isSome stop.isSome s1 ⟨none, none, none⟩ c.len = false := by
      unfold taperValid; simp [is2]
    rw [hrun, hbad]
    refine ⟨⟨fun ⟨q, h⟩ => (by cases h), fun h => absurd r2 h.2.1⟩, fun q h => (by cases h)⟩
  have hvalid : taperValid start.isSome stop.isSome s1 s2 c.len = decide (a ≤ b) := by
    unfold taperValid
    rcases g1 with ⟨rfl, rfl, q1⟩ | ⟨q0, rfl⟩
    · rcases g2 with ⟨rfl, rfl, q2⟩ | ⟨q2, q3, rfl⟩
      · simp [q1, q2]
      · simp [q1, hb]
    · rcases g2 with ⟨rfl, rfl, q2⟩ | ⟨q2, q3, rfl⟩
      · simp [q2, ha]
      · rw [Bool.eq_iff_iff]; simp [hb]
  -- the data
  obtain ⟨x1, x2, x3, x4⟩ : ∃ r, (if start.isSome then taperStart mul w p.data (p.cm.dims.idxOf dim) s1 else .ok p.data) = .ok r ∧
      r.shape = p.data.shape ∧ ∀ i, r.get i = if i.getD (p.cm.dims.idxOf dim) 0 < a then
        mul (p.data.get i) ((w (2 * a)).getD (i.getD (p.cm.dims.idxOf dim) 0) 0) else p.data.get i := by
    rcases g1 with ⟨rfl, rfl, q1⟩ | ⟨q0, rfl⟩
    · exact ⟨p.data, rfl, rfl, fun i => by simp⟩
    · rw [if_pos q0]
      exact taperStart_spec hw hn ha
  obtain ⟨y1, y2, y3, y4⟩ : ∃ r, (if stop.isSome then taperEnd mul w x1 (p.cm.dims.idxOf dim) s2 else .ok x1) = .ok r ∧
      r.shape = x1.shape ∧ ∀ i, i.getD (p.cm.dims.idxOf dim) 0 < c.len → r.get i = if b ≤ i.getD (p.cm.dims.idxOf dim) 0 then
        mul (x1.get i) ((w (2 * (c.len - b))).getD ((c.len - b) + (i.getD (p.cm.dims.idxOf dim) 0 - b)) 0) else x1.get i := by
    rcases g2 with ⟨rfl, rfl, q1⟩ | ⟨q0, q1, rfl⟩
    · exact ⟨x1, rfl, rfl, fun i hi => by rw [if_neg (by omega)]⟩
    · rw [if_pos q0]
      exact taperEnd_spec hw (by rw [x3]; exact hn) hb
  have hnew : PatchM.new p.cm y1 = .ok ⟨p.cm, y1⟩ := by
    unfold PatchM.new; rw [if_pos (by rw [y3, x3]; exact hsh)]
  have hrun2 : p.taper mul w dim start stop = if a ≤ b then .ok ⟨p.cm, y1⟩ else .error .parameterError := by
    rw [hrun, hvalid, x2]
    simp only [Except.bind, y2, hnew]
    by_cases h : a ≤ b <;> simp [h]
  have hno : a ≤ b ↔ ∀ x : ℕ, x < c.len → ¬ (StartReaches c start x ∧ EndReaches c stop x) := by
    constructor
    · rintro hab x hx ⟨r1, r2⟩
      have := (ra x).2 r1
      have := (rb x hx).2 r2
      omega
    · intro h
      by_contra hab
      exact h b (by omega) ⟨(ra b).1 (by omega), (rb b (by omega)).1 le_rfl⟩
  constructor
  · rw [hrun2]
    constructor
    · rintro ⟨q, h⟩
      refine ⟨nr1, nr2, hno.1 ?_⟩
      by_contra hab
      rw [if_neg hab] at h; cases h
    · rintro ⟨_, _, h⟩
      exact ⟨_, if_pos (hno.2 h)⟩
  · intro q h
    rw [hrun2] at h
    by_cases hab : a ≤ b
    swap
    · rw [if_neg hab] at h; cases h
    rw [if_pos hab] at h
    cases h
    refine ⟨a, b, rfl, by rw [y3, x3], ⟨hab, hb⟩, fun x _ => ra x, rb, fun i hi => ?_⟩
    show y1.get i = _
    rw [y4 i (hpos i hi), x4 i]
    unfold posAlong
    by_cases ha' : i.getD (p.cm.dims.idxOf dim) 0 < a
    · rw [if_neg (by omega), if_pos ha', if_pos ha']
    · rw [if_neg ha', if_neg ha']

/-! ## Ranges -/

theorem nextIndexOf_spec {c : RangeCoord} (hc : c.Valid) {v : ℚ} {relative : Bool} {i : ℤ} (h : nextIndexOf c relative false v = .ok i) :
    0 < c.step ∧ ∃ n : ℕ, i = n ∧ NextIndex c (if relative then c.relative v else v) n := by
  unfold nextIndexOf at h
  simp only [Bool.false_eq_true, if_false, bind, Except.bind, pure, Except.pure] at h
  generalize (if relative then c.relative v else v) = u at *
  unfold Coord.getNextIndex at h
  split at h
  · cases h
  rename_i r hr
  split at hr
  · cases hr
  rename_i hsort
  have hs : 0 < c.step := by
    have : c.sorted = true := by simpa [Coord.isSorted] using hsort
    unfold RangeCoord.sorted at this
    exact lt_of_le_of_ne (by simpa using this) hc.step_ne.symm
  refine ⟨hs, ?_⟩
  simp only [Bool.not_false, Bool.true_and] at hr
  split at hr
  · cases hr
  rename_i hoob
  cases hr
  cases h
  simp only [List.map_cons, List.map_nil, List.headD_cons]
  simp only [List.any_cons, List.any_nil, Bool.or_false, Bool.or_eq_true, decide_eq_true_eq, not_or, not_lt] at hoob
  rw [range_max hc hs, range_min hc hs] at hoob
  have key : ∀ x : ℤ, ⌈roundDec 10 ((u - c.start) / c.step)⌉ ≤ x ↔ u - c.step * (1 / (2 * 10 ^ 10)) ≤ c.start + x * c.step := by
    intro x
    rw [ceil_roundDec_le (by norm_num), div_le_iff₀ hs]
    constructor <;> intro h <;> linarith
  have ht : (0 : ℚ) < c.step * (1 / (2 * 10 ^ 10)) := by positivity
  have ht2 : c.step * (1 / (2 * 10 ^ 10)) < c.step := by
    have : (1 : ℚ) / (2 * 10 ^ 10) < 1 := by norm_num
    nlinarith
  have h0 : 0 ≤ ⌈roundDec 10 ((u - c.start) / c.step)⌉ := by
    by_contra hneg
    have := (key (-1)).1 (by omega)
    push_cast at this
    linarith
  have h1 : ⌈roundDec 10 ((u - c.start) / c.step)⌉ ≤ c.len - 1 := by
    rw [key]; push_cast; linarith
  obtain ⟨n, hn⟩ := Int.eq_ofNat_of_zero_le h0
  refine ⟨n, hn, by omega, fun x => ?_⟩
  rw [hn] at key
  rw [← Nat.cast_le (α := ℤ), key x]; push_cast; rfl

theorem nextIndex_mono {c : RangeCoord} {u v : ℚ} {i j : ℕ} (hu : NextIndex c u i) (hv : NextIndex c v j) (h : u ≤ v) : i ≤ j := by
  rw [hu.2 j]
  have := (hv.2 j).1 le_rfl
  linarith

theorem taperCurve_ok {w : ℕ → List ℚ} {i j : ℕ} (h : i ≤ j) : taperCurve w i j = .ok ((w (2 * (j - i) + 1)).take (j - i)) := by
  unfold taperCurve
  simp only
  rw [if_neg (by omega)]
  congr 3 <;> omega

/-- One range adds its envelope. -/
theorem addRange_ok {w : ℕ → List ℚ} (hw : ∀ n, (w n).length = n) (env : ℕ → ℚ) {i1 i2 i3 i4 : ℕ} (h1 : i1 ≤ i2) (h2 : i2 ≤ i3) (h3 : i3 ≤ i4) :
    addRange w env ((i1 : ℤ), (i2 : ℤ), (i3 : ℤ), (i4 : ℤ)) = .ok fun x => env x + rangeEnv w i1 i2 i3 i4 x := by
  unfold addRange
  simp only [taperCurve_ok h1, taperCurve_ok h3, bind, Except.bind, pure, Except.pure, Except.ok.injEq]
  funext x
  rw [add_assoc, add_assoc]
  congr 1
  unfold rangeEnv
  by_cases a1 : x < i1
  · rw [if_neg (by omega), if_neg (by omega), if_neg (by omega), if_pos a1]; ring
  rw [if_neg a1]
  by_cases a2 : x < i2
  · rw [if_pos (by omega), if_neg (by omega), if_neg (by omega), if_pos a2]
    rw [show ((x : ℤ) - i1).toNat = x - i1 by omega, getD_take (by omega)]; ring
  rw [if_neg a2, if_neg (by omega)]
  by_cases a3 : x < i3
  · rw [if_pos a3, if_neg (by omega), if_pos (by omega)]; ring
  rw [if_neg a3]
  by_cases a4 : x < i4
  · rw [if_pos a4, if_pos (by omega), if_neg (by omega)]
    rw [show ((x : ℤ) - i3).toNat = x - i3 by omega]
    have hl : ((w (2 * (i4 - i3) + 1)).take (i4 - i3)).length = i4 - i3 := by rw [List.length_take, hw]; omega
    rw [List.getD_eq_getElem?_getD, List.getElem?_reverse (by omega), hl, List.getElem?_take, if_pos (by omega), List.getD_eq_getElem?_getD,
      show i4 - i3 - 1 - (x - i3) = i4 - 1 - x by omega]
    ring
  · rw [if_neg a4, if_neg (by omega), if_neg (by omega)]; ring

theorem taperRange_eq {α} {mul : α → ℚ → α} {w : ℕ → List ℚ} {p q : PatchM α} {dim : String} {k : Kind} {c : RangeCoord}
    (hc : p.cm.ents.get? dim = some ([dim], .one k (.range c))) {vss : List (List (Option ℚ))} {invert relative samples : Bool}
    (h : p.taperRange mul w dim vss invert relative samples = .ok q) :
    ∃ ts env, vss.mapM (taperInds c relative samples) = .ok ts ∧ rangeEnvelope w c.len invert ts = .ok env ∧
      q = ⟨p.cm, p.data.shape, fun i => mul (p.data.get i) (env (i.getD (p.cm.dims.idxOf dim) 0))⟩ := by
  unfold PatchM.taperRange at h
  split at h
  · cases h
  split at h
  · cases h
  rw [hc] at h
  simp only [bind, Except.bind] at h
  split at h
  · cases h
  rename_i ts hts
  split at h
  · cases h
  rename_i env henv
  unfold PatchM.new at h
  split at h
  swap
  · cases h
  cases h
  exact ⟨ts, env, hts, henv, rfl⟩

/-- The index which a value of a request stands for. -/
def IndexFor (c : RangeCoord) (relative : Bool) (v : ℚ) (i : ℕ) : Prop := NextIndex c (if relative then c.relative v else v) i

theorem taper4 {α} {mul : α → ℚ → α} {w : ℕ → List ℚ} (hw : ∀ n, (w n).length = n) {p q : PatchM α}
    {dim : String} {k : Kind} {c : RangeCoord} (hc : p.cm.ents.get? dim = some ([dim], .one k (.range c))) (hv : c.Valid) {v1 v2 v3 v4 : ℚ} {relative : Bool}
    (h12 : (if relative then c.relative v1 else v1) ≤ (if relative then c.relative v2 else v2))
    (h23 : (if relative then c.relative v2 else v2) ≤ (if relative then c.relative v3 else v3))
    (h34 : (if relative then c.relative v3 else v3) ≤ (if relative then c.relative v4 else v4))
    (h : p.taperRange mul w dim [[some v1, some v2, some v3, some v4]] false relative false = .ok q) :
    ∃ i1 i2 i3 i4, IndexFor c relative v1 i1 ∧ IndexFor c relative v2 i2 ∧ IndexFor c relative v3 i3 ∧ IndexFor c relative v4 i4 ∧
      q.cm = p.cm ∧ q.data.shape = p.data.shape ∧
      ∀ i, q.data.get i = mul (p.data.get i) (rangeEnv w i1 i2 i3 i4 (posAlong p dim i)) := by
  obtain ⟨ts, env, h1, h2, rfl⟩ := taperRange_eq hc h
  rw [List.mapM_cons] at h1
  simp only [bind, Except.bind, List.mapM_nil, pure, Except.pure, taperInds, taperIndex] at h1
  split at h1
  · cases h1
  rename_i t ht
  cases h1
  split at ht
  · cases ht
  rename_i n1 e1
  split at ht
  · cases ht
  rename_i n2 e2
  split at ht
  · cases ht
  rename_i n3 e3
  split at ht
  · cases ht
  rename_i n4 e4
  cases ht
  obtain ⟨_, i1, rfl, g1⟩ := nextIndexOf_spec hv e1
  obtain ⟨_, i2, rfl, g2⟩ := nextIndexOf_spec hv e2
  obtain ⟨_, i3, rfl, g3⟩ := nextIndexOf_spec hv e3
  obtain ⟨_, i4, rfl, g4⟩ := nextIndexOf_spec hv e4
  refine ⟨i1, i2, i3, i4, g1, g2, g3, g4, rfl, rfl, fun i => ?_⟩
  unfold rangeEnvelope at h2
  simp only [List.foldlM_cons, List.foldlM_nil, addRange_ok hw _ (nextIndex_mono g1 g2 h12) (nextIndex_mono g2 g3 h23) (nextIndex_mono g3 g4 h34),
    bind, Except.bind, pure, Except.pure, Bool.false_eq_true, if_false, Except.ok.injEq] at h2
  subst h2
  show mul _ (0 + _) = _
  rw [zero_add]; rfl

/-- C46. `taper_range` with four increasing labels: data are multiplied with the envelope which is zero before the first
sample from the first label on, rises up to the second, is one up to the third and falls to zero at the fourth. Missing: requests
which do not increase, see the violations. -/
theorem C46_range4_partial {α} {mul : α → ℚ → α} {w : ℕ → List ℚ} (hw : ∀ n, (w n).length = n) {p q : PatchM α} (hm : Regular p.cm)
    {dim : String} {k : Kind} {c : RangeCoord} (hc : p.cm.ents.get? dim = some ([dim], .one k (.range c))) {v1 v2 v3 v4 : ℚ} {relative : Bool}
    (h12 : (if relative then c.relative v1 else v1) ≤ (if relative then c.relative v2 else v2))
    (h23 : (if relative then c.relative v2 else v2) ≤ (if relative then c.relative v3 else v3))
    (h34 : (if relative then c.relative v3 else v3) ≤ (if relative then c.relative v4 else v4))
    (h : p.taperRange mul w dim [[some v1, some v2, some v3, some v4]] false relative false = .ok q) :
    ∃ i1 i2 i3 i4, IndexFor c relative v1 i1 ∧ IndexFor c relative v2 i2 ∧ IndexFor c relative v3 i3 ∧ IndexFor c relative v4 i4 ∧
      q.cm = p.cm ∧ q.data.shape = p.data.shape ∧
      ∀ i, q.data.get i = mul (p.data.get i) (rangeEnv w i1 i2 i3 i4 (posAlong p dim i)) :=
  taper4 hw hc (hm.classes _ _ _ _ (Dict.mem_of_get? hc)) h12 h23 h34 h

theorem taper2 {α} {mul : α → ℚ → α} {w : ℕ → List ℚ} (hw : ∀ n, (w n).length = n) {p q : PatchM α}
    {dim : String} {k : Kind} {c : RangeCoord} (hc : p.cm.ents.get? dim = some ([dim], .one k (.range c))) (hv : c.Valid) {v1 v2 : ℚ} {relative : Bool}
    (h12 : (if relative then c.relative v1 else v1) ≤ (if relative then c.relative v2 else v2))
    (h : p.taperRange mul w dim [[some v1, some v2]] false relative false = .ok q) :
    ∃ i1 i2, IndexFor c relative v1 i1 ∧ IndexFor c relative v2 i2 ∧ q.cm = p.cm ∧ q.data.shape = p.data.shape ∧
      ∀ i, q.data.get i = mul (p.data.get i) (rangeEnv w 0 i1 i2 c.len (posAlong p dim i)) := by
  obtain ⟨ts, env, h1, h2, rfl⟩ := taperRange_eq hc h
  rw [List.mapM_cons] at h1
  simp only [bind, Except.bind, List.mapM_nil, pure, Except.pure, taperInds, taperIndex] at h1
  split at h1
  · cases h1
  rename_i t ht
  cases h1
  split at ht
  · cases ht
  rename_i n1 e1
  split at ht
  · cases ht
  rename_i n2 e2
  cases ht
  obtain ⟨_, i1, rfl, g1⟩ := nextIndexOf_spec hv e1
  obtain ⟨_, i2, rfl, g2⟩ := nextIndexOf_spec hv e2
  refine ⟨i1, i2, g1, g2, rfl, rfl, fun i => ?_⟩
  unfold rangeEnvelope at h2
  have ha := addRange_ok hw (fun _ => 0) (Nat.zero_le i1) (nextIndex_mono g1 g2 h12) g2.1.le
  rw [Nat.cast_zero] at ha
  simp only [List.foldlM_cons, List.foldlM_nil, ha, bind, Except.bind, pure, Except.pure, Bool.false_eq_true, if_false, Except.ok.injEq] at h2
  subst h2
  show mul _ (0 + _) = _
  rw [zero_add]; rfl

/-- C46. With two labels the taper rises from the first sample to the first label and falls from the second label to the end. -/
theorem C46_range2_partial {α} {mul : α → ℚ → α} {w : ℕ → List ℚ} (hw : ∀ n, (w n).length = n) {p q : PatchM α} (hm : Regular p.cm)
    {dim : String} {k : Kind} {c : RangeCoord} (hc : p.cm.ents.get? dim = some ([dim], .one k (.range c))) {v1 v2 : ℚ} {relative : Bool}
    (h12 : (if relative then c.relative v1 else v1) ≤ (if relative then c.relative v2 else v2))
    (h : p.taperRange mul w dim [[some v1, some v2]] false relative false = .ok q) :
    ∃ i1 i2, IndexFor c relative v1 i1 ∧ IndexFor c relative v2 i2 ∧ q.cm = p.cm ∧ q.data.shape = p.data.shape ∧
      ∀ i, q.data.get i = mul (p.data.get i) (rangeEnv w 0 i1 i2 c.len (posAlong p dim i)) :=
  taper2 hw hc (hm.classes _ _ _ _ (Dict.mem_of_get? hc)) h12 h

theorem envelope_sum {w : ℕ → List ℚ} (hw : ∀ n, (w n).length = n) : ∀ (ts : List (ℕ × ℕ × ℕ × ℕ)) (env : ℕ → ℚ),
    (∀ t ∈ ts, t.1 ≤ t.2.1 ∧ t.2.1 ≤ t.2.2.1 ∧ t.2.2.1 ≤ t.2.2.2) →
    (ts.map fun t => ((t.1 : ℤ), (t.2.1 : ℤ), (t.2.2.1 : ℤ), (t.2.2.2 : ℤ))).foldlM (addRange w) env =
      .ok fun x => env x + (ts.map fun t => rangeEnv w t.1 t.2.1 t.2.2.1 t.2.2.2 x).sum := by
  intro ts
  induction ts with
  | nil => intro env _; simp [pure, Except.pure]
  | cons t ts ih =>
    intro env h
    obtain ⟨h1, h2, h3⟩ := h t List.mem_cons_self
    rw [List.map_cons, List.foldlM_cons, addRange_ok hw env h1 h2 h3]
    simp only [bind, Except.bind]
    rw [ih _ fun t' ht => h t' (List.mem_cons_of_mem _ ht)]
    congr 1
    funext x
    simp only [List.map_cons, List.sum_cons]
    ring

/-- C46. Several ranges, in samples: the data are multiplied with the sum of their envelopes; so a sample which is in none of them
becomes zero, and one in the flat part of exactly one is unchanged. -/
theorem C46_ranges {w : ℕ → List ℚ} (hw : ∀ n, (w n).length = n) (n : ℕ) (ts : List (ℕ × ℕ × ℕ × ℕ))
    (h : ∀ t ∈ ts, t.1 ≤ t.2.1 ∧ t.2.1 ≤ t.2.2.1 ∧ t.2.2.1 ≤ t.2.2.2) :
    rangeEnvelope w n false (ts.map fun t => ((t.1 : ℤ), (t.2.1 : ℤ), (t.2.2.1 : ℤ), (t.2.2.2 : ℤ))) =
      .ok fun x => (ts.map fun t => rangeEnv w t.1 t.2.1 t.2.2.1 t.2.2.2 x).sum := by
  unfold rangeEnvelope
  rw [envelope_sum hw ts _ h]
  simp [bind, Except.bind, pure, Except.pure]

theorem foldl_max_eq {l : List ℚ} {a b : ℚ} (ha : a ≤ b) (h : ∀ x ∈ l, x ≤ b) (hb : b ∈ l) : l.foldl max a = b := by
  apply le_antisymm
  · clear hb
    induction l generalizing a with
    | nil => simpa using ha
    | cons x l ih => exact ih (max_le ha (h x List.mem_cons_self)) fun y hy => h y (List.mem_cons_of_mem _ hy)
  · have key : ∀ (l : List ℚ) (a : ℚ), a ≤ l.foldl max a ∧ ∀ x ∈ l, x ≤ l.foldl max a := by
      intro l
      induction l with
      | nil => intro a; simp
      | cons y l ih =>
        intro a
        obtain ⟨h1, h2⟩ := ih (max a y)
        refine ⟨(le_max_left _ _).trans h1, fun x hx => ?_⟩
        rcases List.mem_cons.1 hx with rfl | hx
        · exact (le_max_right _ _).trans h1
        · exact h2 x hx
    exact (key l a).2 b hb

theorem rangeEnv_le {w : ℕ → List ℚ} (hw1 : ∀ n, ∀ x ∈ w n, 0 ≤ x ∧ x ≤ 1) (i1 i2 i3 i4 x : ℕ) :
    0 ≤ rangeEnv w i1 i2 i3 i4 x ∧ rangeEnv w i1 i2 i3 i4 x ≤ 1 := by
  have key : ∀ n k, 0 ≤ (w n).getD k 0 ∧ (w n).getD k 0 ≤ 1 := by
    intro n k
    rw [List.getD_eq_getElem?_getD]
    cases h : (w n)[k]? with
    | none => simp
    | some y => exact hw1 n y (List.mem_of_getElem? h)
  unfold rangeEnv
  split_ifs <;> first | exact key _ _ | norm_num

/-- C46. Inverted, a range with at least one sample in its flat part becomes one minus its envelope. Missing: ranges without
such a sample, see the violations. -/
theorem C46_invert_partial {w : ℕ → List ℚ} (hw : ∀ n, (w n).length = n) (hw1 : ∀ n, ∀ x ∈ w n, 0 ≤ x ∧ x ≤ 1) {n i1 i2 i3 i4 : ℕ}
    (h12 : i1 ≤ i2) (h23 : i2 < i3) (h34 : i3 ≤ i4) (hn : i3 ≤ n) :
    ∃ env, rangeEnvelope w n true [((i1 : ℤ), (i2 : ℤ), (i3 : ℤ), (i4 : ℤ))] = .ok env ∧ ∀ x, env x = 1 - rangeEnv w i1 i2 i3 i4 x := by
  unfold rangeEnvelope
  simp only [List.foldlM_cons, List.foldlM_nil, addRange_ok hw _ h12 h23.le h34, bind, Except.bind, pure, Except.pure, if_true]
  refine ⟨_, rfl, fun x => ?_⟩
  unfold invertEnv
  simp only
  have h1 : rangeEnv w i1 i2 i3 i4 i2 = 1 := by
    unfold rangeEnv; rw [if_neg (by omega), if_neg (by omega), if_pos (by omega)]
  rw [foldl_max_eq (b := 1)]
  · rw [zero_add, absQ_eq, abs_of_nonpos (by linarith [(rangeEnv_le hw1 i1 i2 i3 i4 x).2])]; ring
  · rw [zero_add]; exact (rangeEnv_le hw1 _ _ _ _ _).2
  · intro y hy
    obtain ⟨z, _, rfl⟩ := List.mem_map.1 hy
    rw [zero_add]; exact (rangeEnv_le hw1 _ _ _ _ _).2
  · exact List.mem_map.2 ⟨i2, List.mem_range.2 (by omega), by rw [zero_add, h1]⟩

/-! ### Witnesses -/

/-- A triangular window. -/
def triWindow (n : ℕ) : List ℚ := (List.range n).map fun i : ℕ => ((min i (n - 1 - i) : ℕ) : ℚ) / n

/-- Samples of value 1 along a range. -/
def onesAlong (c : RangeCoord) : PatchM ℚ :=
  ⟨⟨["distance"], [("distance", ["distance"], .one .int (.range c))]⟩, [c.len], fun _ => 1⟩

theorem triWindow_ok : (∀ n, (triWindow n).length = n) ∧ ∀ n, ∀ x ∈ triWindow n, 0 ≤ x ∧ x ≤ 1 := by
  refine ⟨fun n => by simp [triWindow], fun n x hx => ?_⟩
  obtain ⟨i, hi, rfl⟩ := List.mem_map.1 hx
  rw [List.mem_range] at hi
  have hn : (0 : ℚ) < n := by exact_mod_cast (by omega : 0 < n)
  refine ⟨by positivity, ?_⟩
  rw [div_le_one hn]
  exact_mod_cast (by omega : min i (n - 1 - i) ≤ n)

def exLong : RangeCoord := ⟨0, 10, 1, 10⟩

theorem ones_regular : Regular (onesAlong exLong).cm := by
  refine ⟨CM.mk?_wf (m := (onesAlong exLong).cm) (if_pos (by decide +kernel)) (by decide +kernel), by unfold DistinctDims; decide +kernel, ?_, ?_, ?_⟩
  · intro name ds c h
    simp only [onesAlong, List.mem_cons, Prod.mk.injEq, List.not_mem_nil, or_false] at h
    obtain ⟨_, rfl, _⟩ := h
    decide
  · intro name ds k c h
    simp only [onesAlong, List.mem_cons, Prod.mk.injEq, List.not_mem_nil, or_false] at h
    obtain ⟨_, _, h⟩ := h
    cases h
    exact ⟨by decide +kernel, by decide, by decide +kernel⟩
  · intro n hn
    simp only [onesAlong, Dict.keys, List.map_cons, List.map_nil, List.mem_singleton] at hn
    subst hn
    decide +kernel

/-- All values of a result along its only dimension. -/
def row {α} (p : PatchM α) : List α := (List.range (p.data.shape.getD 0 0)).map fun x => p.data.get [x]

/-- The hypotheses are met. -/
example : Regular (onesAlong exLong).cm ∧ (onesAlong exLong).cm.shape = (onesAlong exLong).data.shape ∧
    ((onesAlong exLong).taper (· * ·) triWindow "distance" (some (.frac (1 / 3))) (some (.amount 2))).map row =
      .ok [0, 1 / 8, 2 / 8, 3 / 8, 1, 1, 1, 2 / 6, 1 / 6, 0] ∧
    ((onesAlong exLong).taper (· * ·) triWindow "distance" (some (.frac (1 / 2))) (some (.amount 6))).map row = .error .parameterError ∧
    ((onesAlong exLong).taperRange (· * ·) triWindow "distance" [[some 1, some 3, some 6, some 8]] false false false).map row =
      .ok [0, 0, 1 / 5, 1, 1, 1, 1 / 5, 0, 0, 0] ∧
    ((onesAlong exLong).taperRange (· * ·) triWindow "distance" [[some 2, some (-2)]] false true false).map row =
      .ok [0, 1 / 5, 1, 1, 1, 1, 1, 2 / 7, 1 / 7, 0] ∧
    ((onesAlong exLong).taperRange (· * ·) triWindow "distance" [[some 1, some 3, some 6, some 8]] true false true).map row =
      .ok [1, 1, 4 / 5, 0, 0, 0, 4 / 5, 1, 1, 1] :=
  ⟨ones_regular, by decide +kernel, by decide +kernel, by decide +kernel, by decide +kernel, by decide +kernel, by decide +kernel⟩

/-- C46. A taper of length zero at the end raises, one at the start touches the first sample. A taper over all of the
coordinate is possible at the start but not at the end. -/
theorem C46_ends_violated :
    ((onesAlong exLong).taper (· * ·) triWindow "distance" (some (.frac 0)) none).map row = .ok [0, 1, 1, 1, 1, 1, 1, 1, 1, 1] ∧
    ((onesAlong exLong).taper (· * ·) triWindow "distance" none (some (.frac 0))).map row = .error .parameterError ∧
    (((onesAlong exLong).taper (· * ·) triWindow "distance" (some (.frac 1)) none).map row).isOk = true ∧
    ((onesAlong exLong).taper (· * ·) triWindow "distance" none (some (.frac 1))).map row = .error .parameterError := by
  refine ⟨?_, ?_, ?_, ?_⟩ <;> decide +kernel

/-- C46. A negative length is not rejected: a tenth of the coordinate, negative, tapers all but a tenth. -/
theorem C46_negative_violated :
    ((onesAlong exLong).taper (· * ·) triWindow "distance" (some (.amount (-1))) none).map (fun q => (row q).getD 8 0) = .ok (8 / 18) := by
  decide +kernel

/-- C46. Decreasing coordinates cannot be tapered. -/
theorem C46_decreasing_violated :
    ((onesAlong exDown).taper (· * ·) triWindow "distance" (some (.frac (1 / 2))) none).map row = .error .parameterError ∧
    ((onesAlong exDown).taperRange (· * ·) triWindow "distance" [[some 5, some 8]] false false false).map row = .error .coordError := by
  refine ⟨?_, ?_⟩ <;> decide +kernel

/-- C46. `None` at the end of four values should leave everything up to the end alone, but the last sample becomes zero. -/
theorem C46_open_end_violated :
    ((onesAlong exLong).taperRange (· * ·) triWindow "distance" [[some 0, some 2, none, none]] false false false).map row =
      .ok [0, 1 / 5, 1, 1, 1, 1, 1, 1, 1, 0] := by
  decide +kernel

/-- C46. Windows which overlap are accepted, within one range (the rising one may end after the falling one began) and for
different ranges; then samples are multiplied with more than one. -/
theorem C46_overlap_violated :
    ((onesAlong exLong).taperRange (· * ·) triWindow "distance" [[some 1, some 6, some 3, some 8]] false false false).map row =
      .ok [0, 0, 1 / 11, 6 / 11, 6 / 11, 6 / 11, 1 / 11, 0, 0, 0] ∧
    ((onesAlong exLong).taperRange (· * ·) triWindow "distance" [[some 1, some 1, some 6, some 6], [some 3, some 3, some 8, some 8]] false false false).map row =
      .ok [0, 1, 1, 2, 2, 2, 1, 1, 0, 0] := by
  refine ⟨?_, ?_⟩ <;> decide +kernel

/-- C46. Inverting a range which is empty sets everything to zero, where nothing should be. -/
theorem C46_invert_violated :
    ((onesAlong exLong).taperRange (· * ·) triWindow "distance" [[some 3, some 3, some 3, some 3]] true false false).map row =
      .ok [0, 0, 0, 0, 0, 0, 0, 0, 0, 0] := by
  decide +kernel

end Verif
