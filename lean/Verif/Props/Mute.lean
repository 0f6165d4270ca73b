import Verif.Proof.MuteSlope
import Verif.Props.Aggregate
/-!
# C65: mutes
-/
namespace Verif
open Spec

/-- Ones, sampled evenly along distance and time. -/
def exShot (x t : RangeCoord) : PatchM ℚ := ⟨⟨["distance", "time"],
  [("distance", ["distance"], .one .float (.range x)), ("time", ["time"], .one .time (.range t))]⟩, [x.len, t.len], fun _ => 1⟩

/-- The same with the time first. -/
def exShotT (x t : RangeCoord) : PatchM ℚ := ⟨⟨["time", "distance"],
  [("time", ["time"], .one .time (.range t)), ("distance", ["distance"], .one .float (.range x))]⟩, [t.len, x.len], fun _ => 1⟩

/-- Distances 0, 10, 20, 30 and times 100, 101, 102, 103 seconds. -/
def exX : RangeCoord := ⟨0, 40, 10, 4⟩
def exT : RangeCoord := ⟨100000000000, 104000000000, 1000000000, 4⟩

theorem exShot_regular : Regular (exShot exX exT).cm := by
  refine ⟨CM.mk?_wf (m := (exShot exX exT).cm) (if_pos (by decide +kernel)) (by decide +kernel), by unfold DistinctDims; decide +kernel, ?_, ?_, ?_⟩
  · intro name ds c h
    simp only [exShot, List.mem_cons, Prod.mk.injEq, List.not_mem_nil, or_false] at h
    rcases h with ⟨_, rfl, _⟩ | ⟨_, rfl, _⟩ <;> decide
  · intro name ds k c h
    simp only [exShot, List.mem_cons, Prod.mk.injEq, List.not_mem_nil, or_false] at h
    rcases h with ⟨_, _, h⟩ | ⟨_, _, h⟩ <;> cases h
    · exact ⟨by decide +kernel, by decide +kernel, by decide +kernel⟩
    · exact ⟨by decide +kernel, by decide +kernel, by decide +kernel⟩
  · have : (exShot exX exT).cm.ents.keys.all (fun n => matchesPrefixSuffix (exShot exX exT).cm.dims n == false) = true := by decide +kernel
    rw [List.all_eq_true] at this
    intro n hn
    simpa using this n hn

theorem exShot_shape : (exShot exX exT).cm.shape = (exShot exX exT).data.shape := by decide +kernel
theorem exShot_distance : Spec.Even (exShot exX exT).cm "distance" .float exX := ⟨by decide +kernel, rfl⟩
theorem exShot_time : Spec.Even (exShot exX exT).cm "time" .time exT := ⟨by decide +kernel, rfl⟩

/-- The data of a four by four patch, row by row. -/
def rows4 (q : PatchM ℚ) : List (List ℚ) := (List.range 4).map fun i => (List.range 4).map fun j => q.data.get [i, j]

/-! ## One dimension -/

/-- **C65, partial** (full statement: along any coordinate). Muting between two limits along an evenly sampled dimension sets exactly the
samples between them to zero, or with `invert` all others; everything else stays. Limits are places, or distances from the first or
last place; either may be missing. -/
theorem C65_range_partial {p : PatchM ℚ} (hm : Regular p.cm) (hsh : p.cm.shape = p.data.shape) {argsort : List ℚ → List ℕ} (ha : IsArgsort argsort)
    {d : String} {k : Kind} {c : RangeCoord} (hd : Spec.Even p.cm d k c) (relative invert : Bool) {a b : Bound} (h1 : OneLimit a) (h2 : OneLimit b) :
    ∃ q, p.lineMute argsort [(d, (a, b))] invert relative = .ok q ∧
      Muted p q invert fun i => Between (|stepNumber k c.step| / (2 * 10 ^ 10)) (limitAt k c relative a) (limitAt k c relative b) (place p d i) :=
  range_spec hm hsh ha hd relative invert h1 h2

example : Regular (exShot exX exT).cm ∧ (exShot exX exT).cm.shape = (exShot exX exT).data.shape ∧ Spec.Even (exShot exX exT).cm "time" .time exT ∧
    ((exShot exX exT).lineMute stableArgsort [("time", (.value 1, .value (-1)))] false true).map rows4 = .ok (List.replicate 4 [1, 0, 0, 1]) ∧
    ((exShot exX exT).lineMute stableArgsort [("time", (.value 102, .hole))] true false).map rows4 = .ok (List.replicate 4 [0, 0, 1, 1]) :=
  ⟨exShot_regular, exShot_shape, exShot_time, by decide +kernel, by decide +kernel⟩

/-! ## Two lines -/

/-- **C65, partial** (full statement: in any order of the dimensions, and however small the angle). Two lines along evenly sampled
dimensions, each given by two points or by a number: when they meet, exactly the samples inside the wedge in which both point are set to
zero, or with `invert` all others. -/
theorem C65_wedge_partial {p : PatchM ℚ} (hm : Regular p.cm) (hsh : p.cm.shape = p.data.shape) (argsort : List ℚ → List ℕ) {d1 d2 : String}
    {k1 k2 : Kind} {c1 c2 : RangeCoord} (hd1 : Spec.Even p.cm d1 k1 c1) (hd2 : Spec.Even p.cm d2 k2 c2) {relative : Bool} (invert : Bool)
    {r1 r2 : Bound × Bound} (ho : RightOrder p.cm d1 d2 relative r1 r2) {l m : Line}
    (hl : lineThrough (whereIs k1 c1 relative) (whereIs k2 c2 relative) r1.1 r2.1 = some l)
    (hm2 : lineThrough (whereIs k1 c1 relative) (whereIs k2 c2 relative) r1.2 r2.2 = some m)
    (hlong : Long (extent k1 c1) (extent k2 c2) (along l) (along m)) (hskew : Skew (extent k1 c1) (extent k2 c2) (along l) (along m)) {u v : ℚ × ℚ}
    (hop : Opens (extent k1 c1) (extent k2 c2) (constant r1.1 r2.1) (constant r1.2 r2.2) (along l) (along m) u v) :
    ∃ q, p.lineMute argsort [(d1, r1), (d2, r2)] invert relative = .ok q ∧
      Muted p q invert fun i => InWedge l m u v (place p d1 i, place p d2 i) :=
  wedge_spec hm hsh argsort hd1 hd2 invert ho hl hm2 hlong hskew hop

/-- The line `t = 0`, and one from the first sample at 10 metres per second: between them are the early arrivals. -/
example : RightOrder (exShot exX exT).cm "distance" "time" true (.hole, .pair 0 30) (.value 0, .pair 0 3) ∧
    lineThrough (whereIs .float exX true) (whereIs .time exT true) .hole (.value 0) = some ⟨(0, 100), (1, 100)⟩ ∧
    lineThrough (whereIs .float exX true) (whereIs .time exT true) (.pair 0 30) (.pair 0 3) = some ⟨(0, 100), (30, 103)⟩ ∧
    Long (extent .float exX) (extent .time exT) (1, 0) (30, 3) ∧ Skew (extent .float exX) (extent .time exT) (1, 0) (30, 3) ∧
    Opens (extent .float exX) (extent .time exT) true false (1, 0) (30, 3) (1, 0) (30, 3) ∧
    ((exShot exX exT).lineMute stableArgsort [("distance", (.hole, .pair 0 30)), ("time", (.value 0, .pair 0 3))] false true).map rows4 =
      .ok [[1, 1, 1, 1], [1, 1, 1, 1], [1, 0, 1, 1], [1, 0, 0, 1]] := by
  refine ⟨.inl ⟨[], rfl⟩, by decide +kernel, by decide +kernel, ?_, ?_, .inl ⟨?_, rfl, rfl⟩, by decide +kernel⟩
  · unfold Long; decide +kernel
  · unfold Skew; decide +kernel
  · decide +kernel

/-- **C65, partial.** When the lines are parallel, exactly the samples between them are set to zero, or with `invert` all others. -/
theorem C65_strip_partial {p : PatchM ℚ} (hm : Regular p.cm) (hsh : p.cm.shape = p.data.shape) (argsort : List ℚ → List ℕ) {d1 d2 : String}
    {k1 k2 : Kind} {c1 c2 : RangeCoord} (hd1 : Spec.Even p.cm d1 k1 c1) (hd2 : Spec.Even p.cm d2 k2 c2) {relative : Bool} (invert : Bool)
    {r1 r2 : Bound × Bound} (ho : RightOrder p.cm d1 d2 relative r1 r2) {l m : Line}
    (hl : lineThrough (whereIs k1 c1 relative) (whereIs k2 c2 relative) r1.1 r2.1 = some l)
    (hm2 : lineThrough (whereIs k1 c1 relative) (whereIs k2 c2 relative) r1.2 r2.2 = some m)
    (hlong : Long (extent k1 c1) (extent k2 c2) (along l) (along m)) (hp : (along l).1 * (along m).2 - (along l).2 * (along m).1 = 0) :
    ∃ q, p.lineMute argsort [(d1, r1), (d2, r2)] invert relative = .ok q ∧
      Muted p q invert fun i => InStrip l m (place p d1 i, place p d2 i) :=
  strip_spec hm hsh argsort hd1 hd2 invert ho hl hm2 hlong hp

/-- Two parallel lines, given in opposite directions. -/
example : RightOrder (exShot exX exT).cm "distance" "time" true (.pair 0 30, .pair 30 0) (.pair (-1) 2, .pair 5 (1 : ℚ)) ∧
    lineThrough (whereIs .float exX true) (whereIs .time exT true) (.pair 0 30) (.pair (-(1 / 2)) (-(1 / 2))) = some ⟨(0, 205 / 2), (30, 205 / 2)⟩ ∧
    lineThrough (whereIs .float exX true) (whereIs .time exT true) (.pair 30 0) (.pair (1 / 2) (1 / 2)) = some ⟨(30, 201 / 2), (0, 201 / 2)⟩ ∧
    Long (extent .float exX) (extent .time exT) (30, 0) (-30, 0) ∧
    ((exShot exX exT).lineMute stableArgsort [("distance", (.pair 0 30, .pair 30 0)), ("time", (.pair (-(1 / 2)) (-(1 / 2)), .pair (1 / 2) (1 / 2)))]
      false true).map rows4 = .ok (List.replicate 4 [1, 0, 0, 1]) := by
  refine ⟨.inl ⟨[], rfl⟩, by decide +kernel, by decide +kernel, ?_, by decide +kernel⟩
  unfold Long; decide +kernel

/-! ## Slopes -/

/-- **C65, partial** (full statement: for any order of the dimensions, and descending ones). `slope_mute` sets exactly the samples to zero
whose distances from the first sample have a ratio strictly between the slopes, or with `invert` all others. -/
theorem C65_slopes_partial {p : PatchM ℚ} (hm : Regular p.cm) (hsh : p.cm.shape = p.data.shape) (argsort : List ℚ → List ℕ) {d1 d2 : String}
    {rest : List String} (hdims : p.cm.dims = d1 :: d2 :: rest) {k1 k2 : Kind} {c1 c2 : RangeCoord} (hd1 : Spec.Even p.cm d1 k1 c1)
    (hd2 : Spec.Even p.cm d2 k2 c2) (u1 : 0 < c1.step) (u2 : 0 < c2.step) (hlen : 2 ≤ c1.len) (he : extent k1 c1 ≤ 10 ^ 9)
    (hf : extent k2 c2 ≤ 10 ^ 9) {s1 s2 : Option ℚ} (h1 : SlopeOk s1) (h2 : SlopeOk s2)
    (hsk : s1 = s2 ∨ 1 / 10 ^ 8 < |(slopeDir ((c1.len - 1) * stepNumber k1 c1.step) s1).1 * (slopeDir ((c1.len - 1) * stepNumber k1 c1.step) s2).2 -
      (slopeDir ((c1.len - 1) * stepNumber k1 c1.step) s1).2 * (slopeDir ((c1.len - 1) * stepNumber k1 c1.step) s2).1|) (invert : Bool) :
    ∃ q, p.slopeMute argsort [s1, s2] d1 d2 invert = .ok q ∧
      Muted p q invert fun i => BetweenSlopes s1 s2 (place p d1 i - stepNumber k1 c1.start) (place p d2 i - stepNumber k2 c2.start) :=
  slopes_spec hm hsh argsort hdims hd1 hd2 u1 u2 hlen he hf h1 h2 hsk invert

example : extent .float exX ≤ 10 ^ 9 ∧ extent .time exT ≤ 10 ^ 9 ∧ SlopeOk (some 0) ∧ SlopeOk (some 12) ∧
    1 / 10 ^ 8 < |(slopeDir ((exX.len - 1) * stepNumber .float exX.step) (some 0)).1 * (slopeDir ((exX.len - 1) * stepNumber .float exX.step) (some 12)).2 -
      (slopeDir ((exX.len - 1) * stepNumber .float exX.step) (some 0)).2 * (slopeDir ((exX.len - 1) * stepNumber .float exX.step) (some 12)).1| ∧
    ((exShot exX exT).slopeMute stableArgsort [some 0, some 12] "distance" "time" false).map rows4 =
      .ok [[1, 1, 1, 1], [1, 0, 0, 0], [1, 1, 0, 0], [1, 1, 1, 0]] ∧
    ((exShot exX exT).slopeMute stableArgsort [none, some 12] "distance" "time" true).map rows4 =
      .ok [[0, 0, 0, 0], [0, 0, 0, 0], [0, 1, 0, 0], [0, 1, 1, 0]] := by
  refine ⟨by decide +kernel, by decide +kernel, ?_, ?_, by decide +kernel, by decide +kernel, by decide +kernel⟩
  · rintro x hx; cases hx; exact Or.inl rfl
  · rintro x hx; cases hx; exact Or.inr (by norm_num)

/-! ## For all arguments -/

/-- Which samples are muted depends on the coordinates and the arguments only. -/
theorem lineMute_region (argsort : List ℚ → List ℕ) (m : CM) (kw : Dict (Bound × Bound)) (relative : Bool) :
    ∃ R : Except Err (List ℕ → Bool), ∀ (a : Nd ℚ) (invert : Bool),
      PatchM.lineMute argsort ⟨m, a⟩ kw invert relative = R.bind fun inside => PatchM.applyMute ⟨m, a⟩ invert inside := by
  unfold PatchM.lineMute
  simp only
  by_cases hk : (kw.keys.any fun d => !m.dims.contains d) = true
  · by_cases h2 : kw.length ≤ 2 ∧ (kw.keys.any fun d => m.dims.contains d) = true
    · exact ⟨.error .patchCoordinateError, fun a invert => by rw [if_pos hk, if_pos h2]; rfl⟩
    · exact ⟨.error .parameterError, fun a invert => by rw [if_pos hk, if_neg h2]; rfl⟩
  · simp only [if_neg hk]
    split
    · rename_i d r
      exact ⟨(m.muteRange argsort d r relative).map fun ps => fun i => decide (i.getD (m.dims.idxOf d) 0 ∈ ps),
        fun a invert => by cases m.muteRange argsort d r relative <;> rfl⟩
    · rename_i d1 r1 d2 r2
      exact ⟨(m.muteGeo d1 d2 r1 r2 relative).map fun g => fun i =>
        g.inside (m.distances d1 (i.getD (m.dims.idxOf d1) 0), m.distances d2 (i.getD (m.dims.idxOf d2) 0)),
        fun a invert => by cases m.muteGeo d1 d2 r1 r2 relative <;> rfl⟩
    · exact ⟨.error .parameterError, fun a invert => rfl⟩

/-- **C65.** Whatever the lines, a mute and its inverse keep complementary samples: each sample is kept by one and set to zero by the other,
and coordinates and shape stay. -/
theorem C65_complement {argsort : List ℚ → List ℕ} {p q : PatchM ℚ} {kw : Dict (Bound × Bound)} {invert relative : Bool}
    (h : p.lineMute argsort kw invert relative = .ok q) :
    ∃ q', p.lineMute argsort kw (!invert) relative = .ok q' ∧ q.cm = p.cm ∧ q'.cm = p.cm ∧ q.data.shape = p.data.shape ∧
      q'.data.shape = p.data.shape ∧ ∀ i, (q.data.get i = p.data.get i ∧ q'.data.get i = 0) ∨ (q.data.get i = 0 ∧ q'.data.get i = p.data.get i) := by
  obtain ⟨m, a⟩ := p
  obtain ⟨R, hR⟩ := lineMute_region argsort m kw relative
  rw [hR] at h
  cases R with
  | error e => cases h
  | ok inside =>
    obtain ⟨rfl, hsh⟩ := new_ok h
    refine ⟨⟨m, ⟨a.shape, fun i => a.get i * (if inside i = !invert then 1 else 0)⟩⟩, ?_, rfl, rfl, rfl, rfl, fun i => ?_⟩
    · rw [hR]
      show PatchM.applyMute _ _ _ = _
      unfold PatchM.applyMute PatchM.new
      rw [if_pos hsh]
    · simp only
      cases inside i <;> cases invert <;> simp

/-- **C65.** Muting the same region again changes nothing. -/
theorem C65_again {argsort : List ℚ → List ℕ} {p q : PatchM ℚ} {kw : Dict (Bound × Bound)} {invert relative : Bool}
    (h : p.lineMute argsort kw invert relative = .ok q) : q.lineMute argsort kw invert relative = .ok q := by
  obtain ⟨m, a⟩ := p
  obtain ⟨R, hR⟩ := lineMute_region argsort m kw relative
  rw [hR] at h
  cases R with
  | error e => cases h
  | ok inside =>
    obtain ⟨rfl, hsh⟩ := new_ok h
    rw [hR]
    show PatchM.applyMute _ _ _ = _
    unfold PatchM.applyMute PatchM.new
    rw [if_pos hsh]
    simp only
    congr 3
    funext i
    by_cases h : inside i = invert <;> simp [h]

example : ((exShot exX exT).lineMute stableArgsort [("distance", (.value 10, .value 20))] false true).map rows4 =
    .ok [[1, 1, 1, 1], [0, 0, 0, 0], [0, 0, 0, 0], [1, 1, 1, 1]] := by decide +kernel

/-! ## Refusals -/

/-- **C65.** No lines, or lines along more than two dimensions, are refused. -/
theorem C65_count {p : PatchM ℚ} {kw : Dict (Bound × Bound)} (h : kw.length = 0 ∨ 2 < kw.length) (argsort : List ℚ → List ℕ) (invert relative : Bool) :
    p.lineMute argsort kw invert relative = .error .parameterError := by
  unfold PatchM.lineMute
  by_cases hk : (kw.keys.any fun d => !p.cm.dims.contains d) = true
  · rw [if_pos hk]
    rcases h with h | h
    · rw [List.length_eq_zero_iff] at h
      rw [h] at hk
      cases hk
    · rw [if_neg (by omega)]
  · rw [if_neg hk]
    match kw with
    | [] => rfl
    | [_] => simp at h
    | [_, _] => simp at h
    | _ :: _ :: _ :: _ => rfl

/-- **C65.** A name that is not a dimension is refused. -/
theorem C65_unknown {p : PatchM ℚ} {kw : Dict (Bound × Bound)} {d : String} (hd : d ∈ kw.keys) (hn : d ∉ p.cm.dims) (argsort : List ℚ → List ℕ)
    (invert relative : Bool) : ∃ e, p.lineMute argsort kw invert relative = .error e ∧ (e = .parameterError ∨ e = .patchCoordinateError) := by
  unfold PatchM.lineMute
  rw [if_pos (by rw [List.any_eq_true]; exact ⟨d, hd, by simp [hn]⟩)]
  split
  · exact ⟨_, rfl, Or.inr rfl⟩
  · exact ⟨_, rfl, Or.inl rfl⟩

/-- **C65.** Lines given by points must not point to opposite sides, unless they are parallel. -/
theorem C65_opposite {p : PatchM ℚ} (hm : Regular p.cm) (argsort : List ℚ → List ℕ) {d1 d2 : String}
    {k1 k2 : Kind} {c1 c2 : RangeCoord} (hd1 : Spec.Even p.cm d1 k1 c1) (hd2 : Spec.Even p.cm d2 k2 c2) {relative : Bool} (invert : Bool)
    {r1 r2 : Bound × Bound} (ho : RightOrder p.cm d1 d2 relative r1 r2) {l m : Line}
    (hl : lineThrough (whereIs k1 c1 relative) (whereIs k2 c2 relative) r1.1 r2.1 = some l)
    (hm2 : lineThrough (whereIs k1 c1 relative) (whereIs k2 c2 relative) r1.2 r2.2 = some m)
    (hlong : Long (extent k1 c1) (extent k2 c2) (along l) (along m)) (hskew : Skew (extent k1 c1) (extent k2 c2) (along l) (along m))
    (h1 : constant r1.1 r2.1 = false) (h2 : constant r1.2 r2.2 = false) (hneg : inner (extent k1 c1) (extent k2 c2) (along l) (along m) < 0) :
    p.lineMute argsort [(d1, r1), (d2, r2)] invert relative = .error .parameterError := by
  have v1 : c1.Valid := hm.classes _ _ _ _ (Dict.mem_of_get? hd1.2)
  have v2 : c2.Valid := hm.classes _ _ _ _ (Dict.mem_of_get? hd2.2)
  obtain ⟨l', m', fill, hg, sl, sm, hfill⟩ := muteGeo_eq hd1 hd2 v1 v2 ho hl hm2
  obtain ⟨par, hpar, hrun⟩ := lineParams_eq (l := l') (m := m') fill (by rw [sl.1, sm.1]; exact hlong)
  rw [sl.1, sm.1] at hpar hrun
  have hpar : par = false := by
    rw [← Bool.not_eq_true, hpar, not_lt]
    have := hskew.1
    norm_num at this ⊢
    nlinarith
  have hface : facing par fill ((along l).1 / extent k1 c1, (along l).2 / extent k2 c2) ((along m).1 / extent k1 c1, (along m).2 / extent k2 c2) =
      .error .parameterError := by
    unfold facing
    rw [inner_dot, if_neg (not_le.2 hneg), hpar, hfill.1 h1 h2]
    rfl
  rw [hface] at hrun
  unfold PatchM.lineMute
  rw [if_neg (by simp [Dict.keys, hd1.1, hd2.1])]
  simp only [hg, hrun, bind, Except.bind, Except.map]

example : ((exShot exX exT).lineMute stableArgsort [("distance", (.pair 0 30, .pair 30 0)), ("time", (.pair 0 1, .pair 0 2))] false true).map rows4 =
    .error .parameterError := by decide +kernel

/-- **C65.** Two slopes are needed, and none may be negative. -/
theorem C65_slopes_refused {p : PatchM ℚ} {slopes : List (Option ℚ)} (h : slopes.length ≠ 2 ∨ ∃ s, some s ∈ slopes ∧ s < 0) (argsort : List ℚ → List ℕ)
    (d1 d2 : String) (invert : Bool) : p.slopeMute argsort slopes d1 d2 invert = .error .parameterError := by
  match slopes with
  | [] => rfl
  | [_] => rfl
  | [s1, s2] =>
    rcases h with h | ⟨s, hs, hn⟩
    · simp at h
    · have : ((s1.any fun s => decide (s < 0)) || (s2.any fun s => decide (s < 0))) = true := by
        simp only [List.mem_cons, List.not_mem_nil, or_false] at hs
        rcases hs with rfl | rfl <;> simp [hn]
      unfold PatchM.slopeMute
      simp only [this, if_true]
  | _ :: _ :: _ :: _ => rfl

/-! ## Violations -/

/-- **C65 violated** (order of the dimensions): the same data with the time first. The velocities between 0 and 12 are not muted where the
distance is first in the arguments and second in the patch, as values along a dimension are measured from the start of another one. -/
theorem C65_order_violated :
    ((exShot exX exT).slopeMute stableArgsort [some 0, some 12] "distance" "time" false).map (fun q => (q.data.get [1, 3], q.data.get [3, 1])) = .ok (0, 1) ∧
    ((exShotT exX exT).slopeMute stableArgsort [some 0, some 12] "distance" "time" false).map (fun q => (q.data.get [3, 1], q.data.get [1, 3])) = .ok (1, 1) ∧
    ((exShotT exX exT).slopeMute stableArgsort [some 0, some 12] "distance" "time" false).map rows4 = .ok (List.replicate 4 [1, 1, 1, 1]) := by
  refine ⟨?_, ?_, ?_⟩ <;> decide +kernel

/-- **C65 violated** (relative to the end): lines from the end are measured along the wrong dimension too. Both mute the samples later than
about one second before the end. -/
theorem C65_relative_violated :
    ((exShotT exX exT).lineMute stableArgsort [("time", (.pair (-1) (-1), .pair 9 9)), ("distance", (.pair 0 30, .pair 0 30))] false true).map rows4 =
      .ok [[1, 1, 1, 1], [1, 1, 1, 1], [1, 1, 1, 1], [0, 0, 0, 0]] ∧
    ((exShotT exX exT).lineMute stableArgsort [("distance", (.pair 0 30, .pair 0 30)), ("time", (.pair (-1) (-1), .pair 9 9))] false true).map rows4 =
      .ok (List.replicate 4 [1, 1, 1, 1]) := by
  refine ⟨?_, ?_⟩ <;> decide +kernel

/-- Distances 30, 20, 10, 0. -/
def exXdown : RangeCoord := ⟨30, -10, -10, 4⟩

/-- **C65 violated** (flipped dimension): after flipping the distance, as the documentation advises for an origin at the far end, nothing is
muted between two velocities, and with a velocity of zero the mute raises. The sample 10 metres and one second from the origin should be
muted. -/
theorem C65_flipped_violated :
    BetweenSlopes (some 5) (some 12) 10 1 ∧
    ((exShot exXdown exT).slopeMute stableArgsort [some 5, some 12] "distance" "time" false).map rows4 = .ok (List.replicate 4 [1, 1, 1, 1]) ∧
    ((exShot exXdown exT).slopeMute stableArgsort [some 0, some 12] "distance" "time" false).map rows4 = .error .parameterError := by
  refine ⟨?_, by decide +kernel, by decide +kernel⟩
  unfold BetweenSlopes Above Below
  norm_num

/-- Distances of millimetres and times of microseconds. -/
def exXmm : RangeCoord := ⟨0, 1 / 250, 1 / 1000, 4⟩
def exTus : RangeCoord := ⟨0, 4000, 1000, 4⟩

/-- **C65 violated** (small extents): between 1000 and 4000 metres per second lies the sample at two millimetres and one microsecond, but on
such a patch nothing is muted. -/
theorem C65_small_violated :
    BetweenSlopes (some 1000) (some 4000) (2 / 1000) (1 / 1000000) ∧
    ((exShot exXmm exTus).slopeMute stableArgsort [some 1000, some 4000] "distance" "time" false).map rows4 = .ok (List.replicate 4 [1, 1, 1, 1]) := by
  refine ⟨?_, by decide +kernel⟩
  unfold BetweenSlopes Above Below
  norm_num

end Verif
