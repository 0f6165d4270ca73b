import Verif.Proof.MutePatch
/-! # Lemmas: mutes along one dimension, and between slopes -/
namespace Verif
open Spec

theorem between_number (k : Kind) (tol : ℚ) (a b : Option ℚ) (x : ℚ) :
    Between tol a b x ↔ Between (stepNumber k tol) (a.map (stepNumber k)) (b.map (stepNumber k)) (stepNumber k x) := by
  have hle : ∀ u v : ℚ, u ≤ v ↔ stepNumber k u ≤ stepNumber k v := by
    intro u v
    unfold stepNumber
    cases k
    · rfl
    · rfl
    · simp only
      constructor
      · intro h; gcongr
      · intro h
        have := (div_le_div_iff_of_pos_right (show (0 : ℚ) < 10 ^ 9 by norm_num)).1 h
        exact this
  cases a <;> cases b <;> simp only [Between, Option.map]
  · rw [hle, stepNumber_add]
  · rw [hle, stepNumber_sub]
  · rw [hle, hle x, stepNumber_sub, stepNumber_add, stepNumber_min, stepNumber_max]

theorem compatible_number {r : RangeCoord} (hv : r.Valid) (k : Kind) (relative : Bool) (v : ℚ) :
    stepNumber k (Coord.compatible k (.range r) relative v) = whereIs k r relative v := by
  have := offset_spec hv k relative v
  unfold Coord.offset at this
  rw [stepFloat_number, stepNumber_sub, lo_lowest hv] at this
  linarith

theorem range_spec {p : PatchM ℚ} (hm : Regular p.cm) (hsh : p.cm.shape = p.data.shape) {argsort : List ℚ → List ℕ} (ha : IsArgsort argsort)
    {d : String} {k : Kind} {c : RangeCoord} (hd : Even p.cm d k c) (relative invert : Bool) {a b : Bound} (h1 : OneLimit a) (h2 : OneLimit b) :
    ∃ q, p.lineMute argsort [(d, (a, b))] invert relative = .ok q ∧
      Muted p q invert fun i => Between (|stepNumber k c.step| / (2 * 10 ^ 10)) (limitAt k c relative a) (limitAt k c relative b) (place p d i) := by
  have hw : Coord.Wf (.range c) := hm.classes _ _ _ _ (Dict.mem_of_get? hd.2)
  have v : c.Valid := hw
  obtain ⟨x, y, hlim, hx, hy⟩ : ∃ x y, limitsOf (a, b) = .ok (x, y) ∧
      (x.map (Coord.compatible k (.range c) relative)).map (stepNumber k) = limitAt k c relative a ∧
      (y.map (Coord.compatible k (.range c) relative)).map (stepNumber k) = limitAt k c relative b := by
    cases a with
    | pair => exact absurd h1 (by simp [OneLimit])
    | hole =>
      cases b with
      | pair => exact absurd h2 (by simp [OneLimit])
      | hole => exact ⟨none, none, rfl, rfl, rfl⟩
      | value w => exact ⟨none, some w, rfl, rfl, by simp [limitAt, compatible_number v]⟩
    | value w =>
      cases b with
      | pair => exact absurd h2 (by simp [OneLimit])
      | hole => exact ⟨some w, none, rfl, by simp [limitAt, compatible_number v], rfl⟩
      | value z => exact ⟨some w, some z, rfl, by simp [limitAt, compatible_number v], by simp [limitAt, compatible_number v]⟩
  set A := x.map (Coord.compatible k (.range c) relative) with hA
  set B := y.map (Coord.compatible k (.range c) relative) with hB
  obtain ⟨d', sl, hsel, -, -⟩ := C03_select_exact c (BuiltRange.of_valid v) A B
  have hq : Coord.query argsort k (.range c) (.between A B) = .ok (d', .slice sl) := by
    unfold Coord.query
    simp only [hsel]
    rfl
  obtain ⟨ps, hps, hsurv, -⟩ := query_spec argsort ha k (.range c) hw (.between A B) trivial _ _ hq
  have hmr : p.cm.muteRange argsort d (a, b) relative = .ok ps := by
    unfold CM.muteRange
    rw [hlim]
    simp only [bind, Except.bind, hd.2]
    rw [← hA, ← hB, hq]
    exact hps
  obtain ⟨q, hrun, hmut⟩ := applyMute_spec hsh invert (fun i => decide (i.getD (p.cm.dims.idxOf d) 0 ∈ ps))
    (fun i => Between (|stepNumber k c.step| / (2 * 10 ^ 10)) (limitAt k c relative a) (limitAt k c relative b) (place p d i)) (fun i hi => by
      have hlt := posAlong_lt hsh hd.1 hi
      obtain ⟨hpl, hlen⟩ := place_even hm hd hlt
      rw [decide_eq_true_eq, hpl, ← hx, ← hy, ← stepNumber_abs, show stepNumber k |c.step| / (2 * 10 ^ 10) = stepNumber k (tolOf (.range c)) by
        unfold tolOf
        rw [div_eq_inv_mul, ← stepNumber_mul, ← div_eq_inv_mul], ← between_number]
      change posAlong p d i ∈ ps ↔ _
      unfold Survivors at hsurv
      simp only at hsurv
      rw [hsurv, List.mem_filter, List.mem_range]
      simp only [decide_eq_true_eq]
      have hl : Coord.length (.range c) = c.len := by
        rw [← labels_length hw, labels_vals (by simp), List.length_map]; exact v.length_values
      rw [hl]
      have hlab : (Coord.labels (.range c))[posAlong p d i]? = some (some (c.values.getD (posAlong p d i) 0)) := by
        have : posAlong p d i < c.values.length := by rw [v.length_values]; exact hlen
        rw [labels_vals (by simp), List.getElem?_map]
        show Option.map some c.values[posAlong p d i]? = _
        rw [List.getD_eq_getElem?_getD, List.getElem?_eq_getElem this]; rfl
      unfold LabelAt
      rw [hlab]
      simp only [Option.some.injEq, forall_eq', hlen, true_and])
  refine ⟨q, ?_, hmut⟩
  unfold PatchM.lineMute
  rw [if_neg (by simp [Dict.keys, hd.1])]
  simp only [hmr, bind, Except.bind]
  exact hrun

theorem slopeEnds_spec {s : Option ℚ} (hs : SlopeOk s) (x y range : ℚ) :
    slopeEnds x y range s = (.pair x (x + (slopeDir range s).1), .pair y (y + (slopeDir range s).2)) := by
  cases s with
  | none => simp [slopeEnds, slopeDir]
  | some s =>
    unfold slopeEnds slopeDir
    simp only
    rcases hs s rfl with rfl | h
    · rw [if_pos (by decide +kernel), if_pos rfl]
      simp
    · have h0 : 0 < s := lt_trans (by norm_num) h
      rw [if_neg (by
        rw [isClose_iff, sub_zero, abs_of_pos h0]
        push Not
        norm_num at h ⊢
        exact h), if_neg h0.ne']

theorem endsOf_spec {m : CM} {d : String} {k : Kind} {r : RangeCoord} (hd : Even m d k r) (hv : r.Valid) :
    m.endsOf d = .ok (stepNumber k r.start, stepNumber k r.start + (r.len - 1) * stepNumber k r.step) := by
  unfold CM.endsOf
  rw [hd.2]
  simp only [stepFloat_number]
  have hl := hv.len_pos
  have e0 : r.values.getD 0 0 = r.start := by
    rw [List.getD_eq_getElem?_getD, hv.getElem?_values, if_pos (by omega)]; simp
  have e1 : r.values.getD (r.len - 1) 0 = r.start + (r.len - 1) * r.step := by
    rw [List.getD_eq_getElem?_getD, hv.getElem?_values, if_pos (by omega)]; simp [Nat.cast_sub hl]
  rw [e0, e1, stepNumber_add, stepNumber_mul]

theorem stepNumber_pos (k : Kind) {a : ℚ} (h : 0 < a) : 0 < stepNumber k a := by
  unfold stepNumber; cases k <;> simp <;> linarith

theorem lowest_up {r : RangeCoord} (hv : r.Valid) (k : Kind) (h : 0 < r.step) : lowest k r = stepNumber k r.start := by
  unfold lowest
  have : (0 : ℚ) ≤ (r.len - 1) * r.step := mul_nonneg (by have : (1 : ℚ) ≤ r.len := by exact_mod_cast hv.len_pos
                                                          linarith) h.le
  rw [← stepNumber_min, min_eq_left (by linarith)]

theorem slopeDir_long {e f n range step : ℚ} (he : e ≤ 10 ^ 9) (hf : f ≤ 10 ^ 9) (hn : 2 ≤ n) (hstep : 0 < step) (hes : e = n * step) (hfp : 0 < f)
    (hr : range = (n - 1) * step) (s : Option ℚ) : (1 / 10 ^ 9) ^ 2 ≤ inner e f (slopeDir range s) (slopeDir range s) := by
  have hep : 0 < e := by rw [hes]; exact mul_pos (by linarith) hstep
  have key : ∀ g : ℚ, 0 < g → g ≤ 10 ^ 9 → (1 / 10 ^ 9) ^ 2 ≤ 1 / g * (1 / g) := by
    intro g h0 h1
    have : 1 / 10 ^ 9 ≤ 1 / g := one_div_le_one_div_of_le h0 h1
    have := mul_le_mul this this (by norm_num) (by positivity)
    rw [pow_two]; exact this
  cases s with
  | none =>
    unfold inner slopeDir
    simp only [zero_div, mul_zero, add_zero]
    exact key e hep he
  | some s =>
    unfold inner slopeDir
    simp only
    by_cases hz : s = 0
    · rw [if_pos hz]
      simp only [zero_div, mul_zero, zero_add]
      exact key f hfp hf
    · rw [if_neg hz]
      simp only
      have h1 : 1 / 2 ≤ range / e := by
        rw [hr, hes, mul_div_mul_right _ _ hstep.ne', div_le_div_iff₀ (by norm_num) (by linarith)]
        linarith
      have h2 := mul_le_mul h1 h1 (by norm_num) (by linarith)
      have h3 := mul_self_nonneg (range / s / f)
      have h4 : (1 / 10 ^ 9 : ℚ) ^ 2 ≤ 1 / 2 * (1 / 2) := by norm_num
      linarith

theorem slopes_spec {p : PatchM ℚ} (hm : Regular p.cm) (hsh : p.cm.shape = p.data.shape) (argsort : List ℚ → List ℕ) {d1 d2 : String}
    {rest : List String} (hdims : p.cm.dims = d1 :: d2 :: rest) {k1 k2 : Kind} {c1 c2 : RangeCoord} (hd1 : Even p.cm d1 k1 c1)
    (hd2 : Even p.cm d2 k2 c2) (u1 : 0 < c1.step) (u2 : 0 < c2.step) (hlen : 2 ≤ c1.len) (he : extent k1 c1 ≤ 10 ^ 9) (hf : extent k2 c2 ≤ 10 ^ 9)
    {s1 s2 : Option ℚ} (h1 : SlopeOk s1) (h2 : SlopeOk s2)
    (hsk : s1 = s2 ∨ 1 / 10 ^ 8 < |(slopeDir ((c1.len - 1) * stepNumber k1 c1.step) s1).1 * (slopeDir ((c1.len - 1) * stepNumber k1 c1.step) s2).2 -
      (slopeDir ((c1.len - 1) * stepNumber k1 c1.step) s1).2 * (slopeDir ((c1.len - 1) * stepNumber k1 c1.step) s2).1|) (invert : Bool) :
    ∃ q, p.slopeMute argsort [s1, s2] d1 d2 invert = .ok q ∧
      Muted p q invert fun i => BetweenSlopes s1 s2 (place p d1 i - stepNumber k1 c1.start) (place p d2 i - stepNumber k2 c2.start) := by
  have v1 : c1.Valid := hm.classes _ _ _ _ (Dict.mem_of_get? hd1.2)
  have v2 : c2.Valid := hm.classes _ _ _ _ (Dict.mem_of_get? hd2.2)
  have nn : ∀ s : Option ℚ, SlopeOk s → ∀ x ∈ s, 0 ≤ x := by
    intro s hs x hx
    rcases hs x hx with rfl | h
    · exact le_refl _
    · exact le_trans (by norm_num) h.le
  have hne : d1 ≠ d2 := by
    have := hm.distinct
    unfold DistinctDims at this
    rw [hdims] at this
    intro h
    simp [h] at this
  have hn : (2 : ℚ) ≤ c1.len := by exact_mod_cast hlen
  set range := (c1.len - 1) * stepNumber k1 c1.step with hrange
  have hs0 := stepNumber_pos k1 u1
  have hr : 0 < range := mul_pos (by linarith) hs0
  have hlong : ∀ s, (1 / 10 ^ 9) ^ 2 ≤ inner (extent k1 c1) (extent k2 c2) (slopeDir range s) (slopeDir range s) :=
    fun s => slopeDir_long he hf hn hs0 (by unfold extent; rw [abs_of_pos hs0]) (extent_pos v2 k2) hrange s
  obtain ⟨off1, off2, ho1, ho2, a1, a2⟩ := offsets_spec hd1 hd2 v1 v2 false
    (r1 := (.pair (stepNumber k1 c1.start) (stepNumber k1 c1.start + (slopeDir range s1).1), .pair (stepNumber k1 c1.start) (stepNumber k1 c1.start + (slopeDir range s2).1)))
    (r2 := (.pair (stepNumber k2 c2.start) (stepNumber k2 c2.start + (slopeDir range s1).2), .pair (stepNumber k2 c2.start) (stepNumber k2 c2.start + (slopeDir range s2).2)))
    (.inl ⟨rest, hdims⟩)
  simp only [lowest_up v1 k1 u1, lowest_up v2 k2 u2] at a1 a2
  obtain ⟨b1, b2⟩ := a1 _ (.inl rfl)
  obtain ⟨-, b3⟩ := a1 _ (.inr rfl)
  obtain ⟨b4, b5⟩ := a2 _ (.inl rfl)
  obtain ⟨-, b6⟩ := a2 _ (.inr rfl)
  simp only [whereIs, Bool.false_eq_true, if_false, sub_self, add_sub_cancel_left] at b1 b2 b3 b4 b5 b6
  obtain ⟨g, hrun, hins⟩ := slopes_inside (extent_pos v1 k1) (extent_pos v2 k2) hr (nn _ h1) (nn _ h2) ⟨hlong s1, hlong s2⟩ hsk none
  have hg : p.cm.muteGeo d1 d2
      (.pair (stepNumber k1 c1.start) (stepNumber k1 c1.start + (slopeDir range s1).1), .pair (stepNumber k1 c1.start) (stepNumber k1 c1.start + (slopeDir range s2).1))
      (.pair (stepNumber k2 c2.start) (stepNumber k2 c2.start + (slopeDir range s1).2), .pair (stepNumber k2 c2.start) (stepNumber k2 c2.start + (slopeDir range s2).2))
      false = .ok g := by
    unfold CM.muteGeo
    simp only [rangeNumber_spec hd1 v1, rangeNumber_spec hd2 v2, ho1, ho2, bind, Except.bind]
    unfold fillLines
    simp only [Slots.fillFst, Slots.fillSnd, Slots.line, b1, b2, b3, b4, b5, b6, bind, Except.bind, pure, Except.pure, fillIndex]
    exact hrun
  obtain ⟨q, hq, hmut⟩ := lineMute_two hsh argsort hd1.1 hd2.1 invert hg
    (fun i => BetweenSlopes s1 s2 (place p d1 i - stepNumber k1 c1.start) (place p d2 i - stepNumber k2 c2.start)) (fun i hi => by
      have l1 := posAlong_lt hsh hd1.1 hi
      have l2 := posAlong_lt hsh hd2.1 hi
      have up : ∀ (d : String) (k : Kind) (c : RangeCoord) (_ : Even p.cm d k c) (v : c.Valid) (_ : 0 < c.step) (_ : posAlong p d i < lenDim p.cm d),
          0 ≤ place p d i - stepNumber k c.start := by
        intro d k c hd v u l
        obtain ⟨e, hlt⟩ := place_even hm hd l
        rw [e, List.getD_eq_getElem?_getD, v.getElem?_values, if_pos hlt]
        simp only [Option.getD_some]
        rw [stepNumber_add, stepNumber_mul, add_sub_cancel_left]
        exact mul_nonneg (Nat.cast_nonneg _) (stepNumber_pos k u).le
      rw [distances_spec hm hd1 l1, distances_spec hm hd2 l2, lowest_up v1 k1 u1, lowest_up v2 k2 u2]
      exact hins _ _ (up d1 k1 c1 hd1 v1 u1 l1) (up d2 k2 c2 hd2 v2 u2 l2))
  refine ⟨q, ?_, hmut⟩
  unfold PatchM.slopeMute
  have hneg : ∀ s : Option ℚ, SlopeOk s → (s.any fun s => decide (s < 0)) = false := by
    intro s hs
    cases s with
    | none => rfl
    | some s => simpa using nn _ hs s rfl
  simp only [hneg s1 h1, hneg s2 h2, Bool.or_false, Bool.false_eq_true, if_false, endsOf_spec hd1 v1, endsOf_spec hd2 v2, bind, Except.bind,
    add_sub_cancel_left, ← hrange, slopeEnds_spec h1, slopeEnds_spec h2]
  rw [show ∀ (a b : Bound × Bound), Dict.update [(d1, a)] [(d2, b)] = [(d1, a), (d2, b)] by
    intro a b
    simp [Dict.update, Dict.set, hne]]
  exact hq

end Verif
