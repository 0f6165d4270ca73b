import Verif.Proof.Strain
import Verif.Props.Aggregate
/-!
# C61 and C62: derivatives and integrals
-/
namespace Verif
open Spec

/-- A field sampled at four places and three unevenly spaced times; along time it is `t²`. -/
def exField : PatchM ℚ := ⟨⟨["distance", "time"],
  [("distance", ["distance"], .one .float (.range exUp)), ("time", ["time"], .one .time (.mono [0, 1000000000, 3000000000])),
   ("depth", ["distance"], .one .float (.mono [9, 4, 3, 1]))]⟩,
  [4, 3], fun i => 10 * (i.getD 0 0 : ℚ) + ([0, 1, 9] : List ℚ).getD (i.getD 1 0) 0⟩

theorem exField_regular : Regular exField.cm := by
  refine ⟨CM.mk?_wf (m := exField.cm) (if_pos (by decide +kernel)) (by decide +kernel), by unfold DistinctDims; decide +kernel, ?_, ?_, ?_⟩
  · intro name ds c h
    simp only [exField, List.mem_cons, Prod.mk.injEq, List.not_mem_nil, or_false] at h
    rcases h with ⟨_, rfl, _⟩ | ⟨_, rfl, _⟩ | ⟨_, rfl, _⟩ <;> decide
  · intro name ds k c h
    simp only [exField, List.mem_cons, Prod.mk.injEq, List.not_mem_nil, or_false] at h
    rcases h with ⟨_, _, h⟩ | ⟨_, _, h⟩ | ⟨_, _, h⟩ <;> cases h
    · exact exUp_built.valid
    · exact ⟨Or.inl (by decide +kernel), by simp⟩
    · exact ⟨Or.inr (by decide +kernel), by simp⟩
  · have : exField.cm.ents.keys.all (fun n => matchesPrefixSuffix exField.cm.dims n == false) = true := by decide +kernel
    rw [List.all_eq_true] at this
    intro n hn
    simpa using this n hn

theorem exField_shape : exField.cm.shape = exField.data.shape := by decide +kernel
theorem exField_readable : Readable exField.cm := readable_all (by decide +kernel)
theorem exField_listed : DimsListed exField.cm := by
  intro d hd
  have : d = "distance" ∨ d = "time" := by simpa [exField] using hd
  rcases this with rfl | rfl
  · exact ⟨.float, .range exUp, rfl⟩
  · exact ⟨.time, .mono [0, 1000000000, 3000000000], rfl⟩

theorem exField_time : Sequenced exField.cm "time" := ⟨by decide, .time, _, rfl, Or.inr ⟨_, rfl⟩⟩
theorem exField_distance : Sequenced exField.cm "distance" := ⟨by decide, .float, _, rfl, Or.inl ⟨_, rfl⟩⟩

/-! ## C61: derivatives -/

/-- **C61, partial** (full statement: for all data, and all orders). `differentiate` with `order=2` of data that are floats, or with
`step=1`, succeeds along a dimension with ascending or descending labels and enough samples. Coordinates and shape stay, the
derivative of polynomials up to degree two is exact everywhere, and where the labels are even and there are samples on both sides it is
the central difference. -/
theorem C61_derivative_partial {p : PatchM ℚ} (hm : Regular p.cm) (hsh : p.cm.shape = p.data.shape) {d : String} (hd : Sequenced p.cm d)
    {step : ℕ} (h0 : 0 < step) (h3 : 3 * step ≤ lenDim p.cm d) {isInt : Bool} (hint : isInt = false ∨ step = 1) :
    ∃ q, p.differentiate isInt (some [d]) step = .ok q ∧ Derivative p q d step :=
  differentiate_spec hm hsh hd h0 h3 hint

example : Regular exField.cm ∧ exField.cm.shape = exField.data.shape ∧ Sequenced exField.cm "time" ∧ 3 * 1 ≤ lenDim exField.cm "time" ∧
    (exField.differentiate true (some ["time"]) 1).map (fun q => (q.data.get [2, 0], q.data.get [2, 1], q.data.get [2, 2])) = .ok (0, 2, 6) :=
  ⟨exField_regular, exField_shape, exField_time, by decide +kernel, by decide +kernel⟩

/-- **C61.** With fewer than three samples for each stride, `differentiate` raises. -/
theorem C61_short {p : PatchM ℚ} (hm : Regular p.cm) (hsh : p.cm.shape = p.data.shape) {d : String} (hd : Sequenced p.cm d)
    {step : ℕ} (h0 : 0 < step) (h3 : lenDim p.cm d < 3 * step) (isInt : Bool) :
    p.differentiate isInt (some [d]) step = .error .valueError :=
  differentiate_short hm hsh hd h0 h3 isInt

example : lenDim exField.cm "distance" < 3 * 2 := by decide +kernel

/-- **C61.** Labels that are neither evenly spaced nor in order are refused, whatever the step. -/
theorem C61_unsorted {p : PatchM ℚ} {d : String} {ds ds' : List String} {k : Kind} {vs : List ℚ}
    (hc : p.cm.ents.get? d = some (ds', .one k (.arr vs))) (isInt : Bool) (step : ℤ) :
    p.differentiate isInt (some (d :: ds)) step = .error .coordError := by
  unfold PatchM.differentiate
  have : p.spacing d = .error .coordError := by
    unfold PatchM.spacing
    rw [hc]
  simp only [Option.getD_some, List.mapM_cons, this, bind, Except.bind]

/-- **C61.** Strides along several dimensions at once are refused. -/
theorem C61_strides_refused {p : PatchM ℚ} {d e : String} {ds : List String} (hs : ∀ x ∈ d :: e :: ds, Sequenced p.cm x)
    (isInt : Bool) {step : ℤ} (h : 1 < step) :
    p.differentiate isInt (some (d :: e :: ds)) step = .error .parameterError := by
  have hsp : ∀ x ∈ d :: e :: ds, ∃ s, p.spacing x = .ok s := by
    intro x hx
    obtain ⟨hd, k, c, hc, hk⟩ := hs x hx
    unfold PatchM.spacing
    rcases hk with ⟨r, rfl⟩ | ⟨vs, rfl⟩
    · rw [hc]
      exact ⟨_, by simp [hd]; rfl⟩
    · rw [hc]
      exact ⟨_, by simp [hd]; rfl⟩
  have hm : ∀ l : List String, (∀ x ∈ l, ∃ s, p.spacing x = .ok s) → ∃ ys, l.mapM p.spacing = .ok ys ∧ ys.length = l.length := by
    intro l
    induction l with
    | nil => intro _; exact ⟨[], rfl, rfl⟩
    | cons x l ih =>
      intro hx
      obtain ⟨s, hs⟩ := hx x (by simp)
      obtain ⟨ys, hy, hl⟩ := ih fun y hy => hx y (by simp [hy])
      exact ⟨s :: ys, by simp [List.mapM_cons, hs, hy, bind, Except.bind, pure, Except.pure], by simp [hl]⟩
  obtain ⟨ys, hy, hl⟩ := hm _ hsp
  unfold PatchM.differentiate
  simp only [Option.getD_some, hy, bind, Except.bind]
  unfold diffData
  rw [if_pos h]
  match ys, hl with
  | a :: b :: ys, _ => rfl

example : (∀ x ∈ ["distance", "time"], Sequenced exField.cm x) := by
  intro x hx
  simp only [List.mem_cons, List.not_mem_nil, or_false] at hx
  rcases hx with rfl | rfl
  · exact ⟨by decide +kernel, _, _, rfl, Or.inl ⟨_, rfl⟩⟩
  · exact exField_time

/-- **C61.** Differentiating along several dimensions is differentiating along one after the other; along all dimensions if none is named. -/
theorem C61_many (p r : PatchM ℚ) (isInt : Bool) (d : String) (ds : List String) :
    (p.differentiate isInt (some (d :: ds)) 1 = .ok r ↔
      ∃ q, p.differentiate isInt (some [d]) 1 = .ok q ∧ q.differentiate isInt (some ds) 1 = .ok r) ∧
    p.differentiate isInt none 1 = p.differentiate isInt (some p.cm.dims) 1 := by
  refine ⟨?_, rfl⟩
  have run : ∀ (p : PatchM ℚ) (l : List String), p.differentiate isInt (some l) 1 =
      (l.mapM p.spacing).bind fun sp => (gradDiff p.data sp).map fun a => (⟨p.cm, a⟩ : PatchM ℚ) := by
    intro p l
    unfold PatchM.differentiate
    simp only [Option.getD_some, bind, pure]
    cases l.mapM p.spacing with
    | error e => rfl
    | ok sp =>
      simp only [Except.bind]
      have : diffData isInt p.data sp 1 = gradDiff p.data sp := by unfold diffData; rw [if_neg (by decide)]
      rw [this]
      cases gradDiff p.data sp <;> rfl
  have hsp : ∀ a : Nd ℚ, ∀ l : List String, l.mapM (PatchM.spacing (⟨p.cm, a⟩ : PatchM ℚ)) = l.mapM p.spacing := fun a l => rfl
  rw [run, run]
  simp only [List.mapM_cons, List.mapM_nil, bind, pure]
  cases h1 : p.spacing d with
  | error e => simp [Except.bind]
  | ok s =>
    simp only [Except.bind, Except.pure]
    have hone : gradDiff p.data [s] = p.data.gradient s.1 s.2 := by
      unfold gradDiff
      simp only [List.foldlM_cons, List.foldlM_nil]
      cases p.data.gradient s.1 s.2 <;> rfl
    rw [hone]
    cases h2 : ds.mapM p.spacing with
    | error e =>
      constructor
      · intro h; cases h
      · rintro ⟨q, hq, hr⟩
        cases hg : p.data.gradient s.1 s.2 with
        | error e => rw [hg] at hq; cases hq
        | ok a =>
          rw [hg] at hq
          cases hq
          rw [run, hsp, h2] at hr
          cases hr
    | ok sp =>
      have hcons : gradDiff p.data (s :: sp) = (p.data.gradient s.1 s.2).bind fun a => gradDiff a sp := by
        unfold gradDiff
        simp only [List.foldlM_cons]
        rfl
      simp only [hcons]
      cases hg : p.data.gradient s.1 s.2 with
      | error e =>
        constructor
        · intro h; cases h
        · rintro ⟨q, hq, _⟩; cases hq
      | ok a =>
        simp only [Except.bind]
        constructor
        · intro h
          refine ⟨_, rfl, ?_⟩
          rw [run, hsp, h2]
          exact h
        · rintro ⟨q, hq, hr⟩
          cases hq
          rw [run, hsp, h2] at hr
          exact hr

/-- A line of samples of an integer field. -/
def exSlope : PatchM ℚ := ⟨⟨["x"], [("x", ["x"], .one .float (.range ⟨0, 12, 2, 6⟩))]⟩, [6], fun i => i.getD 0 0⟩

/-- **C61 violated** (integers with strides): with `step=2` the derivative of integers is truncated, here from one half to nothing. -/
theorem C61_int_violated :
    (exSlope.differentiate false (some ["x"]) 2).map (fun q => (q.data.get [2], place exSlope "x" [2])) = .ok (1 / 2, 4) ∧
    (exSlope.differentiate true (some ["x"]) 1).map (fun q => q.data.get [2]) = .ok (1 / 2) ∧
    (exSlope.differentiate true (some ["x"]) 2).map (fun q => q.data.get [2]) = .ok 0 := by
  refine ⟨?_, ?_, ?_⟩ <;> decide +kernel

/-! ### Strain rates -/

/-- **C61, partial** (as `C61_derivative_partial`). The strain rate with an even number `n` of steps is the derivative along distance
with strides of half of it, and the gauge length is `n` times the distance between samples. Other numbers are rejected. -/
theorem C61_strain_partial {p : PatchM ℚ} (hm : Regular p.cm) (hsh : p.cm.shape = p.data.shape) (hd : "distance" ∈ p.cm.dims) {k : Kind}
    {r : RangeCoord} (hc : p.cm.ents.get? "distance" = some (["distance"], .one k (.range r))) {isInt : Bool} (n : ℤ) :
    (0 < n → 2 ∣ n → 3 * n ≤ 2 * lenDim p.cm "distance" → isInt = false ∨ n = 2 →
      ∃ q, p.strainRate isInt n = .ok (q, n * r.step) ∧ Derivative p q "distance" (n / 2).toNat) ∧
    (n ≤ 0 ∨ ¬ 2 ∣ n → p.strainRate isInt n = .error .parameterError) := by
  constructor
  · intro h0 h2 h3 hi
    obtain ⟨m, rfl⟩ := h2
    have e : (2 * m / 2 : ℤ) = m := by omega
    obtain ⟨m', rfl⟩ : ∃ m' : ℕ, m = m' := ⟨m.toNat, by omega⟩
    obtain ⟨q, h1, h2⟩ := differentiate_spec hm hsh (d := "distance") ⟨hd, k, _, hc, Or.inl ⟨r, rfl⟩⟩ (step := m') (by omega)
      (by omega) (isInt := isInt) (hi.imp_right fun h => by omega)
    refine ⟨q, ?_, by rw [e]; exact h2⟩
    unfold PatchM.strainRate
    rw [if_neg (by omega), if_neg (by omega), hc]
    simp only [e]
    rw [h1]
    show Except.ok (q, _) = _
    rw [mul_comm]
  · intro h
    unfold PatchM.strainRate
    by_cases h0 : n ≤ 0
    · rw [if_pos h0]
    · rw [if_neg h0, if_pos]
      rcases h with h | h
      · exact absurd h h0
      · omega

example : (exField.strainRate true 2).map (fun q => (q.1.data.get [1, 0], q.2)) = .ok (10 / 3, 6) := by decide +kernel

/-- **C61.** The strain rate without edges: each value is the difference of two samples `n` apart divided by their distance, and its
label is half way between theirs. Other coordinates along distance are dropped, the others stay. -/
theorem C61_edgeless {argsort : List ℚ → List ℕ} (ha : IsArgsort argsort) {p q : PatchM ℚ} (hm : Regular p.cm)
    (hsh : p.cm.shape = p.data.shape) {k : Kind} (hk : k ≠ .time) {r : RangeCoord}
    (hc : p.cm.ents.get? "distance" = some (["distance"], .one k (.range r))) (hd : "distance" ∈ p.cm.dims) {n : ℕ} (h0 : 0 < n)
    (h : p.edgeless argsort n = .ok q) : Staggered p q "distance" n :=
  edgeless_spec ha hm hsh hk hc hd h0 h

example : (exField.edgeless stableArgsort 3).map (fun q => (q.data.shape, q.data.get [0, 2], label q "distance" [0, 2])) =
    .ok ([1, 3], 10 / 3, some (some (19 / 2))) := by decide +kernel

/-! ## C62: integrals -/

/-- **C62, partial** (full statement: for all data and all dimensions). The integral of floats along a dimension that is evenly
sampled, or the last one, or has two samples: coordinates and shape stay, the first value is zero, and each other is the one before it
plus the trapezoid between them. -/
theorem C62_indefinite_partial {p : PatchM ℚ} (hm : Regular p.cm) (hsh : p.cm.shape = p.data.shape) {d : String} (hd : Sequenced p.cm d)
    (hu : (∃ k r, p.cm.ents.get? d = some ([d], .one k (.range r))) ∨ p.cm.dims.idxOf d + 1 = p.cm.dims.length ∨ lenDim p.cm d = 2) :
    ∃ q, p.integrateIndefinite false (some [d]) = .ok q ∧ Integral p q d :=
  indefinite_spec hm hsh hd hu

example : exField.cm.dims.idxOf "time" + 1 = exField.cm.dims.length ∧
    (exField.integrateIndefinite false (some ["time"])).map (fun q => (q.data.get [0, 0], q.data.get [0, 1], q.data.get [0, 2])) =
      .ok (0, 1 / 2, 21 / 2) := ⟨by decide, by decide +kernel⟩

/-- **C62.** The definite integral is what the indefinite one reaches at the last sample. The dimension keeps one sample, labelled with
the mean of the labels, and the limits are kept as coordinates. -/
theorem C62_definite {p : PatchM ℚ} (hp : Ready p) {d : String} (hd : Sequenced p.cm d) (h0 : 0 < lenDim p.cm d) (hfree : LimitsFree p.cm d) :
    ∃ q, p.integrateDefinite (some [d]) = .ok q ∧ Definite p q d :=
  definite_spec hp.regular hp.readable hp.listed hp.shape hd h0 hfree

example : Ready exField ∧ 0 < lenDim exField.cm "time" ∧ LimitsFree exField.cm "time" ∧
    (exField.integrateDefinite (some ["time"])).map (fun q => (q.data.shape, q.data.get [0, 0], label q "time" [0, 0])) =
      .ok ([4, 1], 21 / 2, some (some 1333333333)) :=
  ⟨⟨exField_regular, exField_readable, exField_listed, by decide, exField_shape⟩, by decide +kernel, by unfold LimitsFree; decide +kernel,
    by decide +kernel⟩

/-- **C62.** There is exactly one integral by the trapezoidal rule, so `C62_definite` and `C62_indefinite_partial` determine all values. -/
theorem C62_determined {p : PatchM ℚ} (hm : Regular p.cm) (hsh : p.cm.shape = p.data.shape) {d : String} (hd : Sequenced p.cm d) :
    (∃ F, Accumulates p d F) ∧ ∀ F G, Accumulates p d F → Accumulates p d G → ∀ i, InRange p.data.shape i → F i = G i := by
  obtain ⟨s, x, h⟩ := lined_of hm hsh hd
  exact ⟨⟨_, trapSum_accumulates h fun t ht => h.spaced.width ht⟩, fun F G hF hG i hi => accumulates_unique h hF hG _ i hi rfl⟩

/-- **C62.** Where the data are linear along the dimension, the integral is exact. -/
theorem C62_linear {p : PatchM ℚ} (hm : Regular p.cm) (hsh : p.cm.shape = p.data.shape) {d : String} (hd : Sequenced p.cm d)
    {F : List ℕ → ℚ} (hF : Accumulates p d F) {a b : ℚ} {i j : List ℕ} (hi : InRange p.data.shape i) (hj : InRange p.data.shape j)
    (hij : SameLine p d i j) (hf : ∀ k, InRange p.data.shape k → SameLine p d i k → p.data.get k = a + b * place p d k)
    (h0 : posAlong p d i = 0) : F j = a * (place p d j - place p d i) + b * (place p d j ^ 2 - place p d i ^ 2) / 2 := by
  obtain ⟨s, x, h⟩ := lined_of hm hsh hd
  exact accumulates_linear h hF _ i j hi hj hij hf h0 rfl

/-- **C62.** Integrating along several dimensions is integrating along one after the other; along all dimensions if none is named. -/
theorem C62_many (p r : PatchM ℚ) (hsh : p.cm.shape = p.data.shape) (isInt : Bool) (d : String) (ds : List String) :
    (p.integrateIndefinite isInt (some (d :: ds)) = .ok r ↔
      ∃ q, p.integrateIndefinite isInt (some [d]) = .ok q ∧ q.integrateIndefinite isInt (some ds) = .ok r) ∧
    p.integrateIndefinite isInt none = p.integrateIndefinite isInt (some p.cm.dims) := by
  refine ⟨?_, rfl⟩
  have run : ∀ (p : PatchM ℚ) (l : List String), p.integrateIndefinite isInt (some l) =
      (l.mapM p.spacing).bind fun sp => (sp.foldlM (fun (a : Nd ℚ) s => a.cumulate isInt s.1 s.2) p.data).bind fun a => PatchM.new p.cm a := by
    intro p l
    rfl
  have hshape : ∀ (a b : Nd ℚ) (s : Spacing × ℕ), a.cumulate isInt s.1 s.2 = .ok b → b.shape = a.shape := by
    intro a b s h
    unfold Nd.cumulate at h
    split at h
    · cases h; rfl
    · split_ifs at h
      · cases h; rfl
      · cases h; rfl
      · cases h; rfl
  have hsp : ∀ a : Nd ℚ, ∀ l : List String, l.mapM (PatchM.spacing (⟨p.cm, a⟩ : PatchM ℚ)) = l.mapM p.spacing := fun a l => rfl
  rw [run, run]
  simp only [List.mapM_cons, List.mapM_nil, bind, pure]
  cases h1 : p.spacing d with
  | error e => simp [Except.bind]
  | ok s =>
    simp only [Except.bind, Except.pure]
    cases hg : p.data.cumulate isInt s.1 s.2 with
    | error e =>
      have e1 : ([s] : List (Spacing × ℕ)).foldlM (fun (a : Nd ℚ) s => a.cumulate isInt s.1 s.2) p.data = .error e := by
        simp only [List.foldlM_cons, hg]; rfl
      simp only [e1]
      constructor
      · intro h
        cases h2 : ds.mapM p.spacing with
        | error e => rw [h2] at h; cases h
        | ok sp =>
          rw [h2] at h
          simp only [List.foldlM_cons, hg] at h
          cases h
      · rintro ⟨q, hq, _⟩; cases hq
    | ok a =>
      have hq : PatchM.new p.cm a = .ok ⟨p.cm, a⟩ := by
        unfold PatchM.new
        rw [if_pos (by rw [hshape _ _ s hg, hsh])]
      have e1 : ([s] : List (Spacing × ℕ)).foldlM (fun (a : Nd ℚ) s => a.cumulate isInt s.1 s.2) p.data = .ok a := by
        simp only [List.foldlM_cons, hg]; rfl
      simp only [e1, hq]
      cases h2 : ds.mapM p.spacing with
      | error e =>
        constructor
        · intro h; cases h
        · rintro ⟨q, hq, hr⟩
          cases hq
          rw [run, hsp, h2] at hr
          cases hr
      | ok sp =>
        have e2 : (s :: sp).foldlM (fun (a : Nd ℚ) s => a.cumulate isInt s.1 s.2) p.data = sp.foldlM (fun (a : Nd ℚ) s => a.cumulate isInt s.1 s.2) a := by
          simp only [List.foldlM_cons, hg]; rfl
        simp only [e2]
        constructor
        · intro h
          refine ⟨_, rfl, ?_⟩
          rw [run, hsp, h2]
          exact h
        · rintro ⟨q, hq, hr⟩
          cases hq
          rw [run, hsp, h2] at hr
          exact hr

example : (exField.integrateIndefinite false (some ["distance", "time"])).map (fun q => q.data.get [1, 1]) = .ok (33 / 2) := by decide +kernel

/-- A constant field at three unevenly spaced places and two times. -/
def exBlock (n : ℕ) : PatchM ℚ := ⟨⟨["x", "y"], [("x", ["x"], .one .float (.mono [0, 1, 3])),
  ("y", ["y"], .one .float (.range ⟨0, n, 1, n⟩))]⟩, [3, n], fun _ => 1⟩

/-- **C62 violated** (uneven dimension that is not the last): the distances between samples are paired with the last dimension. The
integral of the constant 1 over `x = 0, 1, 3` should be 0, 1, 3. With two samples along the last dimension the result is wrong, with
four it raises; the definite integral is right. -/
theorem C62_uneven_violated :
    (exBlock 2).cm.shape = (exBlock 2).data.shape ∧
    ((exBlock 2).integrateIndefinite false (some ["x"])).map (fun q => (q.data.get [1, 0], q.data.get [2, 0])) = .ok (1, 2) ∧
    ((exBlock 2).integrateIndefinite false (some ["x"])).map (fun q => (q.data.get [1, 1], q.data.get [2, 1])) = .ok (2, 4) ∧
    ((exBlock 4).integrateIndefinite false (some ["x"])).map (fun q => q.data.shape) = .error .valueError ∧
    ((exBlock 4).integrateDefinite (some ["x"])).map (fun q => (q.data.shape, q.data.get [0, 0])) = .ok ([1, 4], 3) := by
  refine ⟨?_, ?_, ?_, ?_, ?_⟩ <;> decide +kernel

/-- Three samples with the values 0, 1, 2. -/
def exSteps : PatchM ℚ := ⟨⟨["x"], [("x", ["x"], .one .float (.range ⟨0, 3, 1, 3⟩))]⟩, [3], fun i => i.getD 0 0⟩

/-- **C62 violated** (integers): the integral of integers is truncated, here from one half to nothing. -/
theorem C62_int_violated :
    (exSteps.integrateIndefinite false (some ["x"])).map (fun q => (q.data.get [1], q.data.get [2])) = .ok (1 / 2, 2) ∧
    (exSteps.integrateIndefinite true (some ["x"])).map (fun q => (q.data.get [1], q.data.get [2])) = .ok (0, 2) := by
  refine ⟨?_, ?_⟩ <;> decide +kernel

end Verif
