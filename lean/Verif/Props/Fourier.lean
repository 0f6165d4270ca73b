import Verif.Proof.FourierDft
/-!
# Fourier transforms (C63, C64)
-/
namespace Verif
open Spec

/-! ### C63: a transform -/

/-- C63: the Fourier transform of a patch whose dimensions are evenly sampled exists, its frequencies are the labels of the new dimensions, and
its data are the Fourier sums at these labels. Data are exact (see `_partial` in DESIGN.md: no rounding, output "FFT"; a transform with
padding needs ascending labels). -/
theorem C63_transform_partial {fast : ℕ → ℕ} (hf : ∀ n, n ≤ fast n) {P : FPatch} (hp : Ready P.patch) {dim : Option (List String)} {D : List String}
    (hdim : dim.getD P.patch.cm.dims = D) (hne : D ≠ []) (hD : Transformable P.patch.cm D) {real : RealArg}
    (hreal : realDim D real ≠ none → P.isComplex = false) {pad : Bool} (hpos : pad = true → Ascending P.patch.cm D) :
    ∃ Q, P.dft fast dim real pad = .ok Q ∧
      Transformed P.patch Q.patch D (realDim D real) (fun d => if pad then fast (lenDim P.patch.cm d) else lenDim P.patch.cm d) ∧
      Q.isComplex = true ∧ Q.padded = some pad := by
  have hR := FtReady.of hp.regular hD
  obtain ⟨Q, p', h1, h2, h3, h4⟩ := dft_spec hf hp.regular hp.readable hp.ne hp.shape hdim hne hR hreal hpos
  refine ⟨Q, h1, h4.transformed hp.regular hp.ne hp.shape hR h2 h3 ?_, h4.complex, h4.padded⟩
  intro d _
  show _ ≤ if pad then _ else _
  split_ifs
  · exact hf _
  · exact le_refl _

/-- C63: dimensions that are transformed already are left alone. -/
theorem C63_again {fast : ℕ → ℕ} {P : FPatch} {D : List String} {real : RealArg} (hne : D ≠ [])
    (h : ∀ d ∈ D, d ∈ P.patch.cm.ents.keys ∧ d ∉ P.patch.cm.dims ∧ "ft_" ++ d ∈ P.patch.cm.dims) (pad : Bool) :
    P.dft fast (some D) real pad = .ok P := by
  have hu : P.patch.cm.untransformed D = [] := by
    unfold CM.untransformed
    rw [List.filter_eq_nil_iff]
    intro d hd
    simp [(h d hd).2.1, (h d hd).2.2]
  have hr : ∃ r, real.name D = .ok r := by
    cases real with
    | no => exact ⟨_, rfl⟩
    | dim d => exact ⟨_, rfl⟩
    | last =>
      unfold RealArg.name
      cases hl : D.getLast? with
      | none => exact absurd (List.getLast?_eq_none_iff.1 hl) hne
      | some d => exact ⟨_, rfl⟩
  obtain ⟨r, hr⟩ := hr
  unfold FPatch.dft
  simp only [Option.getD_some]
  rw [if_neg]
  · simp only [hr, bind, Except.bind, hu, List.isEmpty_nil, if_true]
    rfl
  · simp only [Bool.not_eq_true, List.any_eq_false]
    intro d hd
    simpa using (h d hd).1

/-- The argument `real` for a dimension, or for none. -/
def RealArg.ofDim : Option String → RealArg
  | some d => .dim d
  | none => .no

/-- C63: if some of the dimensions are transformed already, the others are transformed as if these had not been asked for, and none of them is real if the
real one is among those done. -/
theorem C63_rest {fast : ℕ → ℕ} {P : FPatch} {D E : List String} {real : RealArg} (hE : E = D.filter fun d => decide (d ∈ P.patch.cm.dims)) (hne : E ≠ [])
    (h : ∀ d ∈ D, d ∈ P.patch.cm.ents.keys ∧ (d ∉ P.patch.cm.dims → "ft_" ++ d ∈ P.patch.cm.dims)) (pad : Bool) :
    P.dft fast (some D) real pad = P.dft fast (some E) (.ofDim ((realDim D real).filter fun d => decide (d ∈ P.patch.cm.dims))) pad := by
  have hu : P.patch.cm.untransformed D = E := by
    unfold CM.untransformed
    rw [hE]
    apply List.filter_congr
    intro d hd
    by_cases hm : d ∈ P.patch.cm.dims
    · simp [hm]
    · simp [hm, (h d hd).2 hm]
  have hu' : P.patch.cm.untransformed E = E := by
    unfold CM.untransformed
    rw [List.filter_eq_self]
    intro d hd
    have : d ∈ P.patch.cm.dims := by rw [hE] at hd; simpa using (List.mem_filter.1 hd).2
    simp [this]
  have hDne : D ≠ [] := by rintro rfl; exact hne hE
  have hk : (D.any fun d => !P.patch.cm.ents.keys.contains d) = false := by
    rw [List.any_eq_false]
    intro d hd
    simpa using (h d hd).1
  have hk' : (E.any fun d => !P.patch.cm.ents.keys.contains d) = false := by
    rw [List.any_eq_false]
    intro d hd
    rw [hE] at hd
    simpa using (h d (List.mem_filter.1 hd).1).1
  have hmem : ∀ d, d ∈ E ↔ d ∈ D ∧ d ∈ P.patch.cm.dims := by intro d; rw [hE]; simp
  have hr : ∃ r, real.name D = .ok r ∧ (r.filter fun d => E.contains d) = (realDim D real).filter fun d => decide (d ∈ P.patch.cm.dims) := by
    cases real with
    | no => exact ⟨_, rfl, rfl⟩
    | dim d =>
      refine ⟨_, rfl, ?_⟩
      simp only [realDim]
      by_cases hd : d ∈ D <;> by_cases hm : d ∈ P.patch.cm.dims <;> simp [Option.filter, hd, hm, hmem]
    | last =>
      cases hl : D.getLast? with
      | none => exact absurd (List.getLast?_eq_none_iff.1 hl) hDne
      | some d =>
        have hd : d ∈ D := List.mem_of_getLast? hl
        refine ⟨some d, by simp only [RealArg.name, hl], ?_⟩
        simp only [realDim, hl]
        by_cases hm : d ∈ P.patch.cm.dims <;> simp [Option.filter, hd, hm, hmem]
  obtain ⟨r, hr, hr'⟩ := hr
  have hr2 : ∃ r2, (RealArg.ofDim ((realDim D real).filter fun d => decide (d ∈ P.patch.cm.dims))).name E = .ok r2 ∧
      (r2.filter fun d => E.contains d) = (realDim D real).filter fun d => decide (d ∈ P.patch.cm.dims) := by
    rw [← hr']
    cases hrr : r.filter fun d => E.contains d with
    | none => exact ⟨none, rfl, rfl⟩
    | some d =>
      refine ⟨some d, rfl, ?_⟩
      have : E.contains d = true := (Option.filter_eq_some_iff.1 hrr).2
      simp only [Option.filter, this, if_true]
  obtain ⟨r2, hr2, hr2'⟩ := hr2
  unfold FPatch.dft
  simp only [Option.getD_some, hk, hk', Bool.false_eq_true, if_false, hr, hr2, bind, Except.bind, hu, hu', hr', hr2']

/-- C63: a real transform of complex data is refused. -/
theorem C63_refuses_complex {fast : ℕ → ℕ} (hf : ∀ n, n ≤ fast n) {P : FPatch} (hp : Ready P.patch) {dim : Option (List String)} {D : List String}
    (hdim : dim.getD P.patch.cm.dims = D) (hne : D ≠ []) (hD : Transformable P.patch.cm D) {real : RealArg}
    (hreal : realDim D real ≠ none) (hc : P.isComplex = true) {pad : Bool} (hpos : pad = true → Ascending P.patch.cm D) :
    P.dft fast dim real pad = .error .typeError := by
  have hR := FtReady.of hp.regular hD
  obtain ⟨Q, p', h1, _⟩ := dft_spec (P := ⟨P.patch, false, P.padded⟩) hf hp.regular hp.readable hp.ne hp.shape hdim hne hR (real := real) (fun _ => rfl) hpos
  cases hr : realDim D real with
  | none => exact absurd hr hreal
  | some r =>
    unfold FPatch.dft at h1 ⊢
    rw [hdim] at h1 ⊢
    simp only at h1 ⊢
    split at h1
    · cases h1
    · rename_i hk
      rw [if_neg hk]
      obtain ⟨o, ho, ho'⟩ := realName_spec (real := real) hne
      rw [untransformed_self hR.dims] at h1 ⊢
      simp only [ho, bind, Except.bind, ho', hr] at h1 ⊢
      have he : D.isEmpty = false := by simpa using hne
      rw [he] at h1 ⊢
      simp only [Bool.false_eq_true, if_false] at h1 ⊢
      unfold FPatch.dftOver at h1 ⊢
      simp only [bind, Except.bind, hc] at h1 ⊢
      split at h1
      · cases h1
      · split at h1
        · cases h1
        · split at h1
          · cases h1
          · simp only [dftData, if_true]

/-! ### C64: there and back -/

/-- C64: the inverse transform of a transform is the patch again: dimensions, labels and data, without the padding. Data are exact; a dimension
that is not the real one needs more than two samples, or two and ascending labels; the real one needs ascending labels. -/
theorem C64_roundtrip_partial {fast : ℕ → ℕ} (hf : ∀ n, n ≤ fast n) {argsort : List ℚ → List ℕ} {P Q : FPatch} (hp : Ready P.patch)
    (hdat : P.isComplex = false → ∀ i, InRange P.patch.data.shape i → (P.patch.data.get i).im = 0)
    {dim : Option (List String)} {D : List String} (hdim : dim.getD P.patch.cm.dims = D) (hne : D ≠ []) (hD : Transformable P.patch.cm D) {real : RealArg}
    (hreal : realDim D real ≠ none → P.isComplex = false) {pad : Bool} (hpos : pad = true → Ascending P.patch.cm D)
    (hlong : ∀ d ∈ D, realDim D real = some d ∧ 0 < spacingOf P.patch.cm d ∨
      realDim D real ≠ some d ∧ (2 < lenDim P.patch.cm d ∨ (2 ≤ lenDim P.patch.cm d ∧ 0 < spacingOf P.patch.cm d)))
    (h : P.dft fast dim real pad = .ok Q) {back : Option (List String)} (hback : AsksBack P.patch.cm D back) :
    ∃ R, Q.idft argsort back = .ok R ∧ Restored P.patch R.patch D ∧ R.isComplex = (realDim D real).isNone ∧ R.padded = none := by
  have hR := FtReady.of hp.regular hD
  obtain ⟨Q', p', h1, h2, h3, h4⟩ := dft_spec hf hp.regular hp.readable hp.ne hp.shape hdim hne hR hreal hpos
  rw [h] at h1
  cases h1
  have hT := h4.transformed hp.regular hp.ne hp.shape hR h2 h3 (by
    intro d _
    show _ ≤ if pad then _ else _
    split_ifs
    · exact hf _
    · exact le_refl _)
  obtain ⟨E, hE, hask⟩ := idftDims_spec hp.regular.wf hp.regular.distinct hT.dims hR hback
  refine idft_spec hp.regular hp.ne hp.shape hR h2 hdat h3 ?_ ?_ h4 hE hask ?_
  · intro d _
    show _ ≤ if pad then _ else _
    split_ifs
    · exact hf _
    · exact le_refl _
  · rintro rfl d _
    rfl
  · intro d hd
    have hle : lenDim P.patch.cm d ≤ if pad then fast (P.patch.cm.ents.lenOf d) else P.patch.cm.ents.lenOf d := by
      split_ifs
      · exact hf _
      · exact le_refl _
    obtain ⟨k, r, hg, hv⟩ := hR.even d hd
    have hl : 1 ≤ lenDim P.patch.cm d := by
      show 1 ≤ P.patch.cm.ents.lenOf d
      unfold Ents.lenOf
      rw [hg]
      exact hv.len_pos
    have hdx : dxOf P.patch.cm d ≠ 0 := by
      unfold dxOf
      rw [hg]
      exact stepFloat_ne hv.step_ne
    have := freq_zero (n := if pad then fast (P.patch.cm.ents.lenOf d) else P.patch.cm.ents.lenOf d) (decide (realDim D real = some d)) (by
      intro hc
      rcases hlong d hd with ⟨_, h⟩ | ⟨h, _⟩
      · rwa [← spacing_dx]
      · exact absurd (of_decide_eq_true hc) h) (le_trans hl hle) hdx (by
      intro hc
      rcases hlong d hd with ⟨h, _⟩ | ⟨_, h | h⟩
      · exact absurd h (of_decide_eq_false hc)
      · left; omega
      · right; rw [← spacing_dx]; exact ⟨by omega, h.2⟩)
    rw [this, decide_eq_true_eq]

/-! ### A case -/

/-- Three times half a second apart, four distances, and a coordinate along the distances. -/
noncomputable def exTone : FPatch := ⟨⟨⟨["time", "distance"],
  [("time", ["time"], .one .time (.range ⟨0, 1500000000, 500000000, 3⟩)), ("distance", ["distance"], .one .float (.range exUp)),
   ("depth", ["distance"], .one .float (.mono [9, 4, 3, 1]))]⟩, ⟨[3, 4], fun i => (10 * (i.getD 0 0 : ℂ) + (i.getD 1 0 : ℂ))⟩⟩, false, none⟩

theorem exTone_ready : Ready exTone.patch := by
  refine ⟨⟨CM.mk?_wf (m := exTone.patch.cm) (if_pos (by decide +kernel)) (by decide +kernel), by unfold DistinctDims; decide +kernel, ?_, ?_, ?_⟩,
    readable_all (by decide +kernel), ?_, by decide +kernel, by decide +kernel⟩
  · intro name ds c h
    simp only [exTone, List.mem_cons, Prod.mk.injEq, List.not_mem_nil, or_false] at h
    rcases h with ⟨_, rfl, _⟩ | ⟨_, rfl, _⟩ | ⟨_, rfl, _⟩ <;> decide
  · intro name ds k c h
    simp only [exTone, List.mem_cons, Prod.mk.injEq, List.not_mem_nil, or_false] at h
    rcases h with ⟨_, _, h⟩ | ⟨_, _, h⟩ | ⟨_, _, h⟩ <;> cases h
    · exact ⟨by decide +kernel, by decide +kernel, by decide +kernel⟩
    · exact exUp_built.valid
    · exact ⟨Or.inr (by decide +kernel), by simp⟩
  · have : exTone.patch.cm.ents.keys.all (fun n => matchesPrefixSuffix exTone.patch.cm.dims n == false) = true := by decide +kernel
    intro n hn
    simpa using List.all_eq_true.1 this n hn
  · intro d hd
    have : d = "time" ∨ d = "distance" := by simpa [exTone] using hd
    rcases this with rfl | rfl
    · exact ⟨.time, .range ⟨0, 1500000000, 500000000, 3⟩, rfl⟩
    · exact ⟨.float, .range exUp, rfl⟩

theorem exTone_both : Transformable exTone.patch.cm ["time", "distance"] := by
  refine ⟨by decide, ?_, ?_, ?_, ?_⟩
  · intro d hd
    simp only [List.mem_cons, List.not_mem_nil, or_false] at hd
    rcases hd with rfl | rfl
    · exact ⟨by decide, _, _, rfl⟩
    · exact ⟨by decide, _, _, rfl⟩
  · intro d hd
    simp only [List.mem_cons, List.not_mem_nil, or_false] at hd
    rcases hd with rfl | rfl <;> exact ⟨rfl, rfl⟩
  · intro d hd
    simp only [List.mem_cons, List.not_mem_nil, or_false] at hd
    rcases hd with rfl | rfl <;> decide
  · intro d hd
    simp only [List.mem_cons, List.not_mem_nil, or_false] at hd
    rcases hd with rfl | rfl <;> decide

/-- Padding to multiples of eight, for the examples. -/
def fast8 (n : ℕ) : ℕ := (n + 7) / 8 * 8

theorem fast8_le (n : ℕ) : n ≤ fast8 n := by unfold fast8; omega

example : (exTone.dft fast8 none (.dim "time") true).map (fun Q => (Q.patch.cm.dims, Q.patch.data.shape)) = .ok (["ft_time", "ft_distance"], [5, 8]) := by
  decide +kernel

example : ((exTone.dft fast8 none (.dim "time") true).bind fun Q => Q.idft stableArgsort none).map
    (fun R => (R.patch.cm.dims, R.patch.data.shape, R.isComplex)) = .ok (["time", "distance"], [3, 4], false) := by
  decide +kernel

/-- After a transform over time, one over both with time as the real dimension is one over distance. -/
example : ((exTone.dft fast8 (some ["time"]) .no false).bind fun Q => Q.dft fast8 (some ["time", "distance"]) (.dim "time") false).map
    (fun Q => (Q.patch.cm.dims, Q.patch.data.shape)) = .ok (["ft_time", "ft_distance"], [3, 4]) := by decide +kernel

example : Ready exTone.patch ∧ Transformable exTone.patch.cm ["time", "distance"] ∧ Ascending exTone.patch.cm ["time", "distance"] ∧
    (∀ d ∈ ["time", "distance"], realDim ["time", "distance"] (.dim "time") = some d ∧ 0 < spacingOf exTone.patch.cm d ∨
      realDim ["time", "distance"] (.dim "time") ≠ some d ∧
        (2 < lenDim exTone.patch.cm d ∨ (2 ≤ lenDim exTone.patch.cm d ∧ 0 < spacingOf exTone.patch.cm d))) ∧
    AsksBack exTone.patch.cm ["time", "distance"] (some ["distance", "time"]) :=
  ⟨exTone_ready, exTone_both, by unfold Ascending; decide +kernel, by decide +kernel, Or.inl (List.Perm.swap _ _ _)⟩

/- The hypotheses of `C63_again` and `C63_refuses_complex`. -/
example : (exTone.dft fast8 none .no false).map (fun Q => ["time", "distance"].all fun d =>
    decide (d ∈ Q.patch.cm.ents.keys ∧ d ∉ Q.patch.cm.dims ∧ "ft_" ++ d ∈ Q.patch.cm.dims)) = .ok true := by decide +kernel
example : realDim ["time", "distance"] .last ≠ none := by decide

/-! ### Where the inverse transform fails -/

/-- One sample along each of two dimensions. -/
noncomputable def exDots : FPatch := ⟨⟨⟨["time", "distance"],
  [("time", ["time"], .one .time (.range ⟨0, 500000000, 500000000, 1⟩)), ("distance", ["distance"], .one .float (.range ⟨2, 3, 1, 1⟩))]⟩,
  ⟨[1, 1], fun _ => 1⟩⟩, false, none⟩

/-- Descending labels. -/
noncomputable def exFall : FPatch := ⟨⟨⟨["distance"], [("distance", ["distance"], .one .float (.range ⟨9, 4, -1, 5⟩))]⟩,
  ⟨[5], fun i => (i.getD 0 0 : ℂ)⟩⟩, false, none⟩

/-- One complex sample. -/
noncomputable def exDot : FPatch := ⟨⟨⟨["time"], [("time", ["time"], .one .time (.range ⟨0, 500000000, 500000000, 1⟩))]⟩, ⟨[1], fun _ => Complex.I⟩⟩, true, none⟩

/-- C63 fails for evenly sampled dimensions with descending labels: the transform with padding (the default) raises. -/
theorem C63_descending_violated : (exFall.dft fast8 none .no true).map (fun Q => Q.patch.data.shape) = .error .coordError := by decide +kernel

/-- C64 fails: after a transform with padding over one dimension and one without padding over another, the inverse keeps the padding. -/
theorem C64_stays_padded_violated : ((exTone.dft fast8 (some ["time"]) .no true).bind fun Q =>
      (Q.dft fast8 (some ["distance"]) .no false).bind fun Q => Q.idft stableArgsort none).map
    (fun R => (R.patch.cm.dims, R.patch.data.shape)) = .ok (["time", "distance"], [8, 4]) ∧ exTone.patch.data.shape = [3, 4] :=
  ⟨by decide +kernel, rfl⟩

/-- C64 fails: with the two transforms in the other order, the inverse raises a KeyError. -/
theorem C64_unpadded_violated : ((exTone.dft fast8 (some ["distance"]) .no false).bind fun Q =>
      (Q.dft fast8 (some ["time"]) .no true).bind fun Q => Q.idft stableArgsort none).map
    (fun R => R.patch.data.shape) = .error .keyError := by decide +kernel

/-- C64 fails: after a transform with padding over two dimensions, the inverse over one and then over the other keeps the padding of the second. -/
theorem C64_stepwise_violated : ((exTone.dft fast8 none .no true).bind fun Q =>
      (Q.idft stableArgsort (some ["time"])).bind fun Q => Q.idft stableArgsort none).map
    (fun R => (R.patch.cm.dims, R.patch.data.shape)) = .ok (["time", "distance"], [3, 8]) ∧ exTone.patch.data.shape = [3, 4] :=
  ⟨by decide +kernel, rfl⟩

/-- C64 fails: two dimensions of one sample each are both taken as real, which is an AssertionError. -/
theorem C64_two_single_violated : (exDots.dft fast8 none .no false).isOk = true ∧
    ((exDots.dft fast8 none .no false).bind fun Q => Q.idft stableArgsort none).map (fun R => R.patch.data.shape) = .error .assertionError :=
  ⟨by decide +kernel, by decide +kernel⟩

/-- C64 fails: a real transform along descending labels has no inverse. -/
theorem C64_descending_violated : (exFall.dft fast8 none .last false).isOk = true ∧
    ((exFall.dft fast8 none .last false).bind fun Q => Q.idft stableArgsort none).map (fun R => R.patch.data.shape) = .error .coordError :=
  ⟨by decide +kernel, by decide +kernel⟩

theorem exDot_ready : Ready exDot.patch := by
  refine ⟨⟨CM.mk?_wf (m := exDot.patch.cm) (if_pos (by decide +kernel)) (by decide +kernel), by unfold DistinctDims; decide +kernel, ?_, ?_, ?_⟩,
    readable_all (by decide +kernel), ?_, by decide +kernel, by decide +kernel⟩
  · intro name ds c h
    simp only [exDot, List.mem_cons, Prod.mk.injEq, List.not_mem_nil, or_false] at h
    obtain ⟨_, rfl, _⟩ := h
    decide
  · intro name ds k c h
    simp only [exDot, List.mem_cons, Prod.mk.injEq, List.not_mem_nil, or_false] at h
    obtain ⟨_, _, h⟩ := h
    cases h
    exact ⟨by decide +kernel, by decide +kernel, by decide +kernel⟩
  · have : exDot.patch.cm.ents.keys.all (fun n => matchesPrefixSuffix exDot.patch.cm.dims n == false) = true := by decide +kernel
    intro n hn
    simpa using List.all_eq_true.1 this n hn
  · intro d hd
    have : d = "time" := by simpa [exDot] using hd
    subst this
    exact ⟨.time, .range ⟨0, 500000000, 500000000, 1⟩, rfl⟩

theorem exDot_time : Transformable exDot.patch.cm ["time"] := by
  refine ⟨by decide, ?_, ?_, ?_, ?_⟩ <;> (intro d hd; simp only [List.mem_cons, List.not_mem_nil, or_false] at hd; subst hd)
  · exact ⟨by decide, _, _, rfl⟩
  · exact ⟨rfl, rfl⟩
  · decide
  · decide

/-- C64 fails: along a dimension of one sample, the inverse takes the transform of complex data as one of real data, and the imaginary part is lost. -/
theorem C64_single_violated : ∃ Q R, exDot.dft fast8 none .no false = .ok Q ∧ Q.idft stableArgsort none = .ok R ∧
    exDot.patch.data.get [0] = Complex.I ∧ R.patch.data.get [0] = 0 := by
  have hp := exDot_ready
  have hR := FtReady.of hp.regular exDot_time
  obtain ⟨Q, p', h1, h2, h3, h4⟩ := dft_spec fast8_le hp.regular hp.readable hp.ne hp.shape (dim := none) (D := ["time"]) rfl (by simp) hR
    (real := .no) (fun h => absurd rfl h) (pad := false) (by simp)
  replace h4 : Dft exDot ["time"] none false exDot.patch.cm.ents.lenOf Q p' := h4
  have hT := h4.transformed hp.regular hp.ne hp.shape hR h2 h3 (fun d _ => le_refl _)
  obtain ⟨E, hE, hask⟩ := idftDims_spec hp.regular.wf hp.regular.distinct hT.dims hR (dim := none) (by
    intro d hd hn
    exact absurd (by simpa [exDot] using hd) hn)
  have hE' : E = ["time"] := List.perm_singleton.1 hE
  subst hE'
  have hl : exDot.patch.cm.ents.lenOf "time" = 1 := rfl
  have hdx : dxOf exDot.patch.cm "time" = 1 / 2 := by decide +kernel
  have hX : Extended exDot.patch p' exDot.patch.cm.ents.lenOf ["time"] := h4.ext
  have hS : Spectrum p'.cm Q.patch.cm none (some "time") ["time"] := by
    have hS : Spectrum p'.cm Q.patch.cm none none ["time"] := h4.spec
    refine ⟨hS.wf, hS.stored, hS.dims, ?_, hS.old, hS.unp, hS.kept, hS.lost, hS.none⟩
    intro d hd
    simp only [List.mem_singleton] at hd
    subst hd
    rw [hS.ft "time" (by decide), hX.lenOf hR (by simp), hX.dxOf hR (by simp), hl, hdx]
    have : freqRange 1 (1 / 2) (decide ((none : Option String) = some "time")) = freqRange 1 (1 / 2) (decide (some "time" = some "time")) := by
      decide +kernel
    rw [this]
  have hqs : Q.patch.data.shape = [1] := hT.shape
  have hin : ∀ sh : List ℕ, sh = [1] → InRange sh [0] := by
    rintro sh rfl
    exact List.Forall₂.cons (by decide) List.Forall₂.nil
  have hq0 : Q.patch.data.get [0] = Complex.I * (1 / 2 : ℚ) := by
    rw [hT.data [0] (hin _ hqs) (fun _ => 0) (by
      intro d hd
      simp only [List.mem_singleton] at hd
      subst hd
      rw [hT.freq "time" (by simp) [0] (hin _ hqs)]
      decide +kernel)]
    have e1 : lenDim exDot.patch.cm "time" = 1 := rfl
    have e2 : spacingOf exDot.patch.cm "time" = 1 / 2 := by decide +kernel
    have e3 : ∀ i, exDot.patch.data.get i = Complex.I := fun _ => rfl
    simp [fourierSum, e1, e2, e3, wave]
  obtain ⟨b, hb⟩ : ∃ b, b = ((Q.patch.data.scale (1 / ((1 / 2 : ℚ) : ℂ))).unshiftAll []).irfftn 1 [0] := ⟨_, rfl⟩
  have hps : p'.data.shape = [1] := hX.shape
  obtain ⟨R, g1, g2, _⟩ := idft_run (argsort := stableArgsort) (Q := Q) (p := exDot.patch) (p' := p') (D := ["time"]) (L := ["time"]) (E := ["time"])
    (real := some "time") (pad := false) (N := exDot.patch.cm.ents.lenOf) (b := b) hp.regular hp.ne hp.shape hR
    (by rintro d h; cases h; simp) (List.Perm.refl _) (fun d _ => le_refl _) (fun _ d _ => rfl) hX hS h4.padded (List.Perm.refl _) hask (by
      intro d hd
      simp only [List.mem_singleton] at hd
      subst hd
      rw [hl, hdx]
      decide +kernel) (by
      rw [hb]
      have e1 : ((realLast ["time"] (some "time")).map exDot.patch.cm.dims.idxOf) = [0] := by decide +kernel
      have e2 : ((realLast ["time"] (some "time")).map exDot.patch.cm.ents.lenOf) = [1] := by decide +kernel
      have e3 : ((realLast ["time"] (some "time")).map (dxOf exDot.patch.cm)).prod = 1 / 2 := by decide +kernel
      rw [e1, e2, e3]
      rfl) (by
      rw [hb, hps]
      show Q.patch.data.shape.set 0 1 = [1]
      rw [hqs]
      rfl)
  refine ⟨Q, R, h1, g1, rfl, ?_⟩
  rw [g2.data [0] (hin _ rfl)]
  show b.get [0] = 0
  rw [hb]
  simp [Nd.irfftn, Nd.unshiftAll, Nd.irfft, Nd.hermitian, Nd.scale, hqs, hq0]

end Verif
