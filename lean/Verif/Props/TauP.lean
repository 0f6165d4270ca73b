import Verif.Proof.TauP
import Verif.Proof.Order
import Verif.Props.CoordArray
/-!
# Property C75: the tau-p transform is a slant stack
-/
namespace Verif
open Spec

theorem twoSided_eq (vs : List ℚ) : twoSided (vs.map fun v => 1 / v) = slownesses vs := by
  unfold twoSided slownesses
  rw [← List.map_reverse, List.map_map]
  rfl

theorem slownesses_length (vs : List ℚ) : (slownesses vs).length = 2 * vs.length := by
  simp [slownesses]; omega

theorem slownesses_high {vs : List ℚ} {i : ℕ} {s : ℚ} (hi : vs.length ≤ i) (h : (slownesses vs)[i]? = some s) :
    (vs.map fun v => 1 / v).getD (i - vs.length) 0 = s := by
  unfold slownesses at h
  rw [List.getElem?_append_right (by simpa using hi)] at h
  simp only [List.length_map, List.length_reverse] at h
  rw [List.getD_eq_getElem?_getD, h]; rfl

theorem slownesses_low {vs : List ℚ} {i : ℕ} {s : ℚ} (hi : i < vs.length) (h : (slownesses vs)[i]? = some s) :
    -(vs.map fun v => 1 / v).getD (vs.length - 1 - i) 0 = s := by
  unfold slownesses at h
  rw [List.getElem?_append_left (by simpa using hi), List.getElem?_map, List.getElem?_reverse hi] at h
  obtain ⟨v, hv, rfl⟩ := Option.map_eq_some_iff.1 h
  rw [List.getD_eq_getElem?_getD, List.getElem?_map, hv]; rfl

theorem velocities_pos {vs : List ℚ} (h : velocitiesOk vs = true) : ∀ v ∈ vs, 0 < v := by
  unfold velocitiesOk at h
  rw [Bool.and_eq_true, List.all_eq_true] at h
  intro v hv
  simpa using h.1 v hv

theorem velocities_iff (vs : List ℚ) : velocitiesOk vs = true ↔ (∀ v ∈ vs, 0 < v) ∧ vs.Pairwise (· < ·) := by
  unfold velocitiesOk
  rw [Bool.and_eq_true, List.all_eq_true]
  refine and_congr (by simp) ?_
  induction vs with
  | nil => simp
  | cons v vs ih =>
    cases vs with
    | nil => simp
    | cons w vs =>
      simp only [List.tail_cons, List.zip_cons_cons, List.all_cons, Bool.and_eq_true, decide_eq_true_eq] at ih ⊢
      rw [ih, List.pairwise_cons (a := v)]
      refine and_congr_left fun hp => ⟨fun h x hx => ?_, fun h => h w (by simp)⟩
      rcases List.mem_cons.1 hx with rfl | hx
      · exact h
      · exact h.trans ((List.pairwise_cons.1 hp).1 x hx)

/-- The slownesses are stored as they are. -/
theorem slownesses_storable {vs : List ℚ} (h : velocitiesOk vs = true) : Storable (slownesses vs) := by
  match vs, h with
  | [], _ => exact Or.inl (by simp [slownesses])
  | [v], h =>
    have hv := velocities_pos h v (by simp)
    refine Or.inr (Or.inl ⟨-(1 / v), 2 * (1 / v), 2, ?_, ?_⟩)
    · have : 0 < 1 / v := by positivity
      linarith
    · simp only [slownesses, progression, List.reverse_cons, List.reverse_nil, List.nil_append, List.map_cons, List.map_nil, List.cons_append,
        List.range_succ, List.range_zero, Nat.cast_zero, Nat.cast_one]
      congr 1
      · ring
      · congr 1; ring
  | v :: w :: vs, h =>
    refine Or.inr (Or.inr (Or.inl ?_))
    have hv := velocities_pos h v (by simp)
    have hw := velocities_pos h w (by simp)
    have hvw : v < w := by
      unfold velocitiesOk at h
      rw [Bool.and_eq_true] at h
      have := List.all_eq_true.1 h.2 (v, w) (by simp)
      simpa using this
    have h1 : 0 < 1 / v := by positivity
    have h2 : 1 / w < 1 / v := one_div_lt_one_div_of_lt hv hvw
    intro hm
    unfold slownesses at hm
    rcases hm with hm | hm
    · have := (List.pairwise_append.1 hm).2.1
      simp only [List.map_cons, List.pairwise_cons] at this
      have := this.1 (1 / w) (by simp)
      linarith
    · have := (List.pairwise_append.1 hm).2.2 (-(1 / v)) (by simp) (1 / v) (by simp)
      linarith

/-- What is common to all cases: the transform succeeds; the labels of its result. -/
theorem tauP_frame {p : PatchM ℚ} {nx : ℕ} {k : Kind} {r : RangeCoord} (h : Section p nx k r) {kd : Kind} {c : Coord}
    (hc : p.cm.ents.get? "distance" = some (["distance"], .one kd c)) {vs : List ℚ} (hv : velocitiesOk vs = true) :
    ∃ q, p.tauP vs = .ok q ∧ q.cm.dims = ["slowness", "time"] ∧ q.data.shape = [2 * vs.length, r.len] ∧
      (∀ i j, i < 2 * vs.length → label q "slowness" [i, j] = some (slownesses vs)[i]?) ∧
      (∀ i j, label q "time" [i, j] = label p "time" [i, j]) ∧
      q.data = taupData p.data nx r.len c (stepFloat k r.step) (vs.map fun v => 1 / v) := by
  obtain ⟨sl, h1, h2, h3⟩ := C14_represents_partial .float (slownesses vs) (slownesses_storable hv)
  rw [slownesses_length] at h3
  have hshape : (taupData p.data nx r.len c (stepFloat k r.step) (vs.map fun v => 1 / v)).shape = [2 * vs.length, r.len] := by
    unfold taupData
    split <;> simp [taupUniform, taupGeneral]
  let ents : Ents := [("slowness", (["slowness"], .one .float sl)), ("time", (["time"], .one k (.range r)))]
  refine ⟨⟨⟨["slowness", "time"], ents⟩, taupData p.data nx r.len c (stepFloat k r.step) (vs.map fun v => 1 / v)⟩, ?_, rfl, hshape, ?_, ?_, rfl⟩
  · unfold PatchM.tauP
    rw [if_neg (by rw [h.dims]; decide), hc, h.time]
    simp only [hv, Bool.not_true, Bool.false_eq_true, if_false, h.shape, bind, Except.bind]
    rw [twoSided_eq, h1]
    have hmk : CM.mk? ["slowness", "time"] ents = .ok ⟨["slowness", "time"], ents⟩ := by
      unfold CM.mk?
      rw [if_pos]
      simp [ents, dimOk, entryOk, Dict.get?, Ents.lenOf, one_shape, MCoord.len]
    simp only [ents] at hmk
    simp only [hmk]
    unfold PatchM.new
    rw [if_pos]
    rw [hshape]
    simp [CM.shape, Dict.get?, Ents.lenOf, MCoord.len, one_shape, h3]
    rfl
  · intro i j hi
    rw [label_dim (c := sl) (k := .float) rfl]
    congr 1
    change sl.labels.getD i none = _
    rw [h2, List.getD_eq_getElem?_getD, List.getElem?_map]
    have : i < (slownesses vs).length := by rw [slownesses_length]; exact hi
    rw [List.getElem?_eq_getElem this]
    rfl
  · intro i j
    rw [label_dim h.time, label_dim (c := .range r) (k := k) rfl]
    unfold posAlong
    rw [h.dims]
    rfl

/-- **C75**: for evenly spaced distances, `tau_p` gives for each slowness and time the sum of the traces along the line of that slowness, and zero outside of the record. It accepts all
positive increasing velocities. -/
theorem C75_even_partial (p : PatchM ℚ) (hm : Regular p.cm) (hsh : p.cm.shape = p.data.shape) (hd : p.cm.dims = ["distance", "time"])
    (k kd : Kind) (t0 dt x0 dx : ℚ) (nt nx : ℕ) (ht : EvenAlong p.cm "time" k t0 dt nt) (hx : EvenAlong p.cm "distance" kd x0 dx nx)
    (hdt : 0 < dt) (hdx : 0 < dx) (vs : List ℚ) (hpos : ∀ v ∈ vs, 0 < v) (hinc : vs.Pairwise (· < ·)) :
    ∃ q, p.tauP vs = .ok q ∧ q.cm.dims = ["slowness", "time"] ∧ q.data.shape = [2 * vs.length, nt] ∧
      (∀ i j, i < 2 * vs.length → label q "slowness" [i, j] = some (slownesses vs)[i]?) ∧
      (∀ i j, label q "time" [i, j] = label p "time" [i, j]) ∧
      ∀ i j s tau, InRange q.data.shape [i, j] → label q "slowness" [i, j] = some (some s) → label q "time" [i, j] = some (some tau) →
        SlantSum p (secondOf k) s tau (q.data.get [i, j]) := by
  have hv := (velocities_iff vs).2 ⟨hpos, hinc⟩
  obtain ⟨_, stop, ht⟩ := ht
  obtain ⟨_, stopx, hx⟩ := hx
  have vt : (RangeCoord.mk t0 stop dt nt).Valid := hm.classes _ _ _ _ (Dict.mem_of_get? ht)
  have vx : (RangeCoord.mk x0 stopx dx nx).Valid := hm.classes _ _ _ _ (Dict.mem_of_get? hx)
  have hs : Section p nx k ⟨t0, stop, dt, nt⟩ := by
    refine ⟨hd, ?_, ht, vt, hdt⟩
    rw [← hsh]
    unfold CM.shape
    rw [hd]
    simp only [List.map_cons, List.map_nil, Ents.lenOf, ht, hx, MCoord.len, one_shape, Coord.length]
    rfl
  obtain ⟨q, h1, h2, h3, h4, h5, h6⟩ := tauP_frame hs hx hv
  refine ⟨q, h1, h2, h3, h4, h5, ?_⟩
  intro i j s tau hr hsl htau
  rw [h3, inRange_two] at hr
  rw [h4 i j hr.1] at hsl
  have hsl : (slownesses vs)[i]? = some s := by simpa using hsl
  rw [h5, section_time hs, if_pos hr.2] at htau
  have htau : t0 + j * dt = tau := by simpa using htau
  rw [← htau]
  have hlab : ∀ i < nx, (Coord.range ⟨x0, stopx, dx, nx⟩).labels[i]? = some (some (x0 + i * dx)) := by
    intro i hi
    change ((RangeCoord.mk x0 stopx dx nx).values.map some)[i]? = _
    rw [List.getElem?_map, vx.getElem?_values, if_pos hi]
    rfl
  have hnx : 1 ≤ nx := vx.len_pos
  by_cases hi : vs.length ≤ i
  · have hp := slownesses_high hi hsl
    have hs0 : 0 < s := by
      rw [← hp, List.getD_eq_getElem?_getD, List.getElem?_map, List.getElem?_eq_getElem (by omega)]
      exact one_div_pos.2 (hpos _ (List.getElem_mem _))
    refine slant_sum hs hx (fun i => x0 + i * dx) hlab (e := 0) (by omega) ?_ ?_
    · intro i _
      have : (0 : ℚ) ≤ i * dx := by positivity
      simp only [Nat.cast_zero, zero_mul, add_zero, add_sub_cancel_left]
      positivity
    · rw [h6]
      unfold taupData taupUniform
      simp only [List.getD_cons_zero, List.getD_cons_succ, List.length_map, if_pos hi, hp, sum_list_range]
      refine Finset.sum_congr rfl fun ix _ => ?_
      have : s * dx * ix = s * (x0 + ix * dx - (x0 + (0 : ℕ) * dx)) := by push_cast; ring
      rw [this]
  · have hi : i < vs.length := by omega
    have hp := slownesses_low hi hsl
    have hs0 : s < 0 := by
      rw [← hp, List.getD_eq_getElem?_getD, List.getElem?_map, List.getElem?_eq_getElem (by omega)]
      exact neg_neg_iff_pos.2 (one_div_pos.2 (hpos _ (List.getElem_mem _)))
    refine slant_sum hs hx (fun i => x0 + i * dx) hlab (e := nx - 1) (by omega) ?_ ?_
    · intro i hi
      have h1 : (i : ℚ) ≤ (nx - 1 : ℕ) := by exact_mod_cast (by omega : i ≤ nx - 1)
      have h2 : (i : ℚ) * dx ≤ (nx - 1 : ℕ) * dx := mul_le_mul_of_nonneg_right h1 hdx.le
      exact mul_nonneg_of_nonpos_of_nonpos hs0.le (by linarith)
    · rw [h6]
      unfold taupData taupUniform
      simp only [List.getD_cons_zero, List.getD_cons_succ, List.length_map, if_neg (not_le.2 hi), sum_list_range]
      rw [← Finset.sum_range_reflect]
      refine Finset.sum_congr rfl fun ix hix => ?_
      have hix : ix < nx := Finset.mem_range.1 hix
      have hps : (vs.map fun v => 1 / v).getD (vs.length - 1 - i) 0 = -s := by rw [← hp, neg_neg]
      rw [hps]
      have e1 : nx - 1 - (nx - 1 - ix) = ix := by omega
      have e2 : -s * dx * (nx - 1 - ix : ℕ) = s * (x0 + ix * dx - (x0 + (nx - 1 : ℕ) * dx)) := by
        rw [Nat.cast_sub (by omega : ix ≤ nx - 1)]; ring
      rw [e1, e2]

/-- **C75**: for distances that ascend unevenly, the same holds for the positive slownesses. Missing: the negative ones, for which it is false (`C75_uneven_violated`). -/
theorem C75_uneven_partial (p : PatchM ℚ) (hsh : p.cm.shape = p.data.shape) (hm : Regular p.cm) (hd : p.cm.dims = ["distance", "time"])
    (k kd : Kind) (t0 dt : ℚ) (nt : ℕ) (xs : List ℚ) (ht : EvenAlong p.cm "time" k t0 dt nt)
    (hx : p.cm.ents.get? "distance" = some (["distance"], .one kd (.mono xs)))
    (hdt : 0 < dt) (hup : xs.Pairwise (· < ·)) (vs : List ℚ) (hpos : ∀ v ∈ vs, 0 < v) (hinc : vs.Pairwise (· < ·)) :
    ∃ q, p.tauP vs = .ok q ∧ q.cm.dims = ["slowness", "time"] ∧ q.data.shape = [2 * vs.length, nt] ∧
      (∀ i j, i < 2 * vs.length → label q "slowness" [i, j] = some (slownesses vs)[i]?) ∧
      (∀ i j, label q "time" [i, j] = label p "time" [i, j]) ∧
      ∀ i j s tau, InRange q.data.shape [i, j] → label q "slowness" [i, j] = some (some s) → label q "time" [i, j] = some (some tau) →
        0 < s → SlantSum p (secondOf k) s tau (q.data.get [i, j]) := by
  have hv := (velocities_iff vs).2 ⟨hpos, hinc⟩
  obtain ⟨_, stop, ht⟩ := ht
  have vt : (RangeCoord.mk t0 stop dt nt).Valid := hm.classes _ _ _ _ (Dict.mem_of_get? ht)
  have vx : (Coord.mono xs).Wf := hm.classes _ _ _ _ (Dict.mem_of_get? hx)
  have hs : Section p xs.length k ⟨t0, stop, dt, nt⟩ := by
    refine ⟨hd, ?_, ht, vt, hdt⟩
    rw [← hsh]
    unfold CM.shape
    rw [hd]
    simp only [List.map_cons, List.map_nil, Ents.lenOf, ht, hx, MCoord.len, one_shape, Coord.length]
    rfl
  obtain ⟨q, h1, h2, h3, h4, h5, h6⟩ := tauP_frame hs hx hv
  refine ⟨q, h1, h2, h3, h4, h5, ?_⟩
  intro i j s tau hr hsl htau hs0
  rw [h3, inRange_two] at hr
  rw [h4 i j hr.1] at hsl
  have hsl : (slownesses vs)[i]? = some s := by simpa using hsl
  rw [h5, section_time hs, if_pos hr.2] at htau
  have htau : t0 + j * dt = tau := by simpa using htau
  rw [← htau]
  have hlab : ∀ i < xs.length, (Coord.mono xs).labels[i]? = some (some (xs.getD i 0)) := by
    intro i hi
    change (xs.map some)[i]? = _
    rw [List.getElem?_map, List.getD_eq_getElem?_getD, List.getElem?_eq_getElem hi]
    rfl
  have hnx : 0 < xs.length := List.length_pos_iff.2 vx.2
  have hi : vs.length ≤ i := by
    by_contra hi
    have hi : i < vs.length := by omega
    have hp := slownesses_low hi hsl
    rw [← hp, List.getD_eq_getElem?_getD, List.getElem?_map, List.getElem?_eq_getElem (by omega)] at hs0
    have := one_div_pos.2 (hpos _ (List.getElem_mem (by omega : vs.length - 1 - i < vs.length)))
    simp only [Option.map_some, Option.getD_some] at hs0
    linarith
  have hp := slownesses_high hi hsl
  refine slant_sum hs hx (fun i => xs.getD i 0) hlab (e := 0) hnx ?_ ?_
  · intro i hi
    have : xs.getD 0 0 ≤ xs.getD i 0 := by
      rw [List.getD_eq_getElem?_getD, List.getD_eq_getElem?_getD, List.getElem?_eq_getElem hi, List.getElem?_eq_getElem hnx]
      rcases Nat.eq_zero_or_pos i with rfl | h0
      · exact le_refl _
      · exact (List.pairwise_iff_getElem.1 hup 0 i hnx hi h0).le
    have : 0 ≤ xs.getD i 0 - xs.getD 0 0 := by linarith
    positivity
  · rw [h6]
    unfold taupData taupGeneral
    simp only [List.getD_cons_zero, List.getD_cons_succ, List.length_map, if_pos hi, hp, sum_list_range]
    rfl

/-- **C75**: velocities that are not positive or do not increase are refused. -/
theorem C75_refused (p : PatchM ℚ) (hd : "time" ∈ p.cm.dims ∧ "distance" ∈ p.cm.dims) (k kd : Kind) (t0 dt : ℚ) (nt : ℕ) (c : Coord)
    (ht : EvenAlong p.cm "time" k t0 dt nt) (hx : p.cm.ents.get? "distance" = some (["distance"], .one kd c))
    (vs : List ℚ) (hbad : ¬ ((∀ v ∈ vs, 0 < v) ∧ vs.Pairwise (· < ·))) : p.tauP vs = .error .parameterError := by
  obtain ⟨_, stop, ht⟩ := ht
  rw [← velocities_iff] at hbad
  unfold PatchM.tauP
  rw [if_neg (by rintro (h | h); exacts [h hd.1, h hd.2]), ht, hx]
  simp only [hbad, Bool.not_false, if_true]

/-! ## The hypotheses are met -/

/-- Three traces of five samples, with the given distances. -/
def exTraces (c : Coord) : PatchM ℚ where
  cm := ⟨["distance", "time"], [("distance", (["distance"], .one .float c)),
    ("time", (["time"], .one .time (.range ⟨0, 5000000000, 1000000000, 5⟩)))]⟩
  data := ⟨[3, 5], fun i => ((i.getD 0 0 + 1 : ℕ) : ℚ) * 10 ^ i.getD 1 0⟩

theorem exTraces_regular (c : Coord) (hc : c.Wf) (hl : c.length = 3) : Regular (exTraces c).cm where
  wf := by
    refine CM.mk?_wf (m := (exTraces c).cm) (if_pos ?_) ?_
    · simp [dimOk, entryOk, Dict.get?, Ents.lenOf, one_shape, MCoord.len]
    · exact (by decide +kernel : ["distance", "time"].Nodup)
  distinct := (by decide +kernel : ["distance", "time"].Nodup)
  coordDims := by
    intro name ds c h
    simp only [exTraces, List.mem_cons, Prod.mk.injEq, List.not_mem_nil, or_false] at h
    rcases h with ⟨_, rfl, _⟩ | ⟨_, rfl, _⟩ <;> decide
  classes := by
    intro name ds k c' h
    simp only [exTraces, List.mem_cons, Prod.mk.injEq, MCoord.one.injEq, List.not_mem_nil, or_false] at h
    rcases h with ⟨_, _, _, rfl⟩ | ⟨_, _, _, rfl⟩
    · exact hc
    · exact ⟨by norm_num, by norm_num, by norm_num⟩
  plain := (by decide +kernel : ∀ name ∈ ["distance", "time"], matchesPrefixSuffix ["distance", "time"] name = false)

example := C75_even_partial (exTraces (.range ⟨0, 30, 10, 3⟩)) (exTraces_regular _ ⟨by norm_num, by norm_num, by norm_num⟩ rfl) (by decide +kernel) rfl
  .time .float 0 1000000000 0 10 5 3 ⟨by simp [exTraces], _, rfl⟩ ⟨by simp [exTraces], _, rfl⟩ (by norm_num) (by norm_num) [5, 10]
  (by simp) (by norm_num [List.pairwise_cons])

example := C75_uneven_partial (exTraces (.mono [0, 10, 30])) (by decide +kernel)
  (exTraces_regular _ ⟨Or.inl (by norm_num [List.pairwise_cons]), by simp⟩ rfl) rfl
  .time .float 0 1000000000 5 [0, 10, 30] ⟨by simp [exTraces], _, rfl⟩ rfl (by norm_num) (by norm_num [List.pairwise_cons]) [5, 10]
  (by simp) (by norm_num [List.pairwise_cons])

/-- All samples of a patch in order. -/
def exGrid (p : PatchM ℚ) : List ℚ := (Nd.indices p.data.shape).map p.data.get


/-- The same traces in the opposite order, with other distances. -/
def exFlipped (c : Coord) : PatchM ℚ where
  cm := (exTraces c).cm
  data := ⟨[3, 5], fun i => (exTraces c).data.get [2 - i.getD 0 0, i.getD 1 0]⟩

/-- The same samples with the dimensions in the other order. -/
def exTurned (n m : ℕ) (f : ℕ → ℕ → ℚ) : PatchM ℚ where
  cm := ⟨["time", "distance"], [("distance", (["distance"], .one .float (.range ⟨0, n, 1, n⟩))), ("time", (["time"], .one .float (.range ⟨0, m, 1, m⟩)))]⟩
  data := ⟨[m, n], fun i => f (i.getD 1 0) (i.getD 0 0)⟩

def exUnturned (n m : ℕ) (f : ℕ → ℕ → ℚ) : PatchM ℚ where
  cm := ⟨["distance", "time"], [("distance", (["distance"], .one .float (.range ⟨0, n, 1, n⟩))), ("time", (["time"], .one .float (.range ⟨0, m, 1, m⟩)))]⟩
  data := ⟨[n, m], fun i => f (i.getD 0 0) (i.getD 1 0)⟩

example : ((exTraces (.range ⟨0, 30, 10, 3⟩)).tauP [5, 10]).map exGrid = .ok
    [123, 1230, 2300, 3000, 0, 203, 2030, 300, 3000, 0, 201, 2010, 100, 1000, 0, 321, 3210, 2100, 1000, 0] := by decide +kernel

/-- **C75**, violated: with uneven distances the negative slownesses are wrong. Seen from the other end, a patch with distances 0, 10, 30 is one with
distances 0, 20, 30, and its row of slowness -1/20 must be the row of slowness 1/20 there. -/
theorem C75_uneven_violated :
    ((exTraces (.mono [0, 10, 30])).tauP [20]).map exGrid = .ok [78, 780, 7800, 23000, 0, 177, 1770, 17700, 12000, 0] ∧
    ((exFlipped (.mono [0, 20, 30])).tauP [20]).map exGrid = .ok [96, 960, 9600, 1000, 0, 78, 780, 7800, 3000, 0] := by
  constructor <;> decide +kernel

/-- **C75**, violated: the order of the traces matters. With descending distances, samples from the end of the record are added at its start. -/
theorem C75_descending_violated :
    ((exTraces (.range ⟨0, 30, 10, 3⟩)).tauP [10]).map exGrid = .ok [123, 1230, 2300, 3000, 0, 321, 3210, 2100, 1000, 0] ∧
    ((exFlipped (.range ⟨20, -10, -10, 3⟩)).tauP [10]).map exGrid = .ok [23001, 30012, 123, 1230, 2300, 21003, 10032, 321, 3210, 2100] := by
  constructor <;> decide +kernel

/-- **C75**, violated: a patch with dimensions time and distance is not transposed. It is refused, or, if it has as many traces as samples,
its times are taken to be distances. -/
theorem C75_order_violated :
    ((exUnturned 3 5 fun i j => (i + 1) * 10 ^ j).tauP [1]).map exGrid = .ok [123, 1230, 2300, 3000, 0, 321, 3210, 2100, 1000, 0] ∧
    ((exTurned 3 5 fun i j => (i + 1) * 10 ^ j).tauP [1]).map exGrid = .error .coordError ∧
    ((exUnturned 3 3 fun i j => (i + 1) * 10 ^ j).tauP [1]).map exGrid = .ok [23, 30, 0, 21, 10, 0] ∧
    ((exTurned 3 3 fun i j => (i + 1) * 10 ^ j).tauP [1]).map exGrid = .ok [120, 200, 0, 21, 2, 0] := by
  refine ⟨?_, ?_, ?_, ?_⟩ <;> decide +kernel

/-- **C75**, violated at the end of the record: the transform of a single trace is the trace, without its last sample. -/
theorem C75_last_violated :
    ((⟨⟨["distance", "time"], [("distance", (["distance"], .one .float (.mono [7]))), ("time", (["time"], .one .float (.range ⟨0, 3, 1, 3⟩)))]⟩,
      ⟨[1, 3], fun _ => 1⟩⟩ : PatchM ℚ).tauP [1]).map exGrid = .ok [1, 1, 0, 1, 1, 0] := by decide +kernel

end Verif
