import Verif.Proof.Whiten
import Verif.Props.Fourier
import Verif.Props.Taper
import Verif.Props.Window
import Verif.Props.Dispersion
/-!
# Spectral whitening (C82)
-/
namespace Verif
open Spec

/-! ### Directions -/

theorem exp_heading (z : ℂ) : Complex.exp (Complex.arg z * Complex.I) = heading z := by
  unfold heading
  split_ifs with h
  · rw [h]; simp
  · have hn : (‖z‖ : ℂ) ≠ 0 := by simpa using h
    rw [eq_div_iff hn, mul_comm, Complex.norm_mul_exp_arg_mul_I]

theorem norm_heading (z : ℂ) : ‖heading z‖ = 1 := by
  unfold heading
  split_ifs with h
  · simp
  · rw [norm_div, Complex.norm_real, norm_norm, div_self (by simpa using h)]

theorem norm_mul_heading (z : ℂ) : (‖z‖ : ℂ) * heading z = z := by
  unfold heading
  split_ifs with h
  · rw [h]; simp
  · have hn : (‖z‖ : ℂ) ≠ 0 := by simpa using h
    field_simp

theorem heading_star (z : ℂ) : heading (star z) = star (heading z) := by
  unfold heading
  by_cases h : z = 0
  · simp [h]
  · rw [if_neg (by simpa using h), if_neg h, star_div₀, norm_star]
    congr 1
    exact (Complex.conj_ofReal _).symm

theorem heading_scale {c : ℝ} (hc : 0 < c) (z : ℂ) : heading (c * z) = heading z := by
  unfold heading
  have hc' : (c : ℂ) ≠ 0 := by exact_mod_cast hc.ne'
  by_cases h : z = 0
  · simp [h]
  · rw [if_neg (mul_ne_zero hc' h), if_neg h, norm_mul, Complex.norm_real, Real.norm_of_nonneg hc.le]
    have hn : (‖z‖ : ℂ) ≠ 0 := by simpa using h
    push_cast
    field_simp

/-! ### Spectra along one line -/

theorem lineSpectrum_eq (p : PatchM ℂ) (d : String) (f : ℚ) (i : List ℕ) : lineSpectrum p d f i =
    ∑ j ∈ Finset.range (lenDim p.cm d), p.data.get (i.set (p.cm.dims.idxOf d) j) * (wave (f * (j * spacingOf p.cm d)) * (spacingOf p.cm d : ℚ)) := by
  unfold lineSpectrum fourierSum
  rw [list_sum_range]
  rfl

theorem lineSpectrum_set (p : PatchM ℂ) (d : String) (f : ℚ) (i : List ℕ) (k : ℕ) :
    lineSpectrum p d f (i.set (p.cm.dims.idxOf d) k) = lineSpectrum p d f i := by
  simp only [lineSpectrum_eq, List.set_set]

theorem lineSpectrum_period (p : PatchM ℂ) (d : String) (hdx : spacingOf p.cm d ≠ 0) (f : ℚ) (i : List ℕ) :
    lineSpectrum p d (f + 1 / spacingOf p.cm d) i = lineSpectrum p d f i := by
  simp only [lineSpectrum_eq]
  refine Finset.sum_congr rfl fun j _ => ?_
  congr 2
  rw [show (f + 1 / spacingOf p.cm d) * (j * spacingOf p.cm d) = f * (j * spacingOf p.cm d) + (j : ℕ) by field_simp]
  show expi _ = expi _
  rw [expi_add, expi_nat, mul_one]

theorem lineSpectrum_real {p : PatchM ℂ} {d : String} {i : List ℕ} (hr : ∀ j, j < lenDim p.cm d → (p.data.get (i.set (p.cm.dims.idxOf d) j)).im = 0) (f : ℚ) :
    lineSpectrum p d (-f) i = star (lineSpectrum p d f i) := by
  simp only [lineSpectrum_eq]
  rw [star_sum]
  refine Finset.sum_congr rfl fun j hj => ?_
  rw [star_mul', star_mul']
  have e1 : star (p.data.get (i.set (p.cm.dims.idxOf d) j)) = p.data.get (i.set (p.cm.dims.idxOf d) j) :=
    Complex.conj_eq_iff_im.2 (hr j (Finset.mem_range.1 hj))
  have e2 : star (wave (f * (j * spacingOf p.cm d))) = wave (-f * (j * spacingOf p.cm d)) := by
    show star (expi _) = expi _
    rw [star_expi]; congr 1; ring
  rw [e1, e2]
  congr 2
  exact (Complex.conj_ofReal ((spacingOf p.cm d : ℚ) : ℝ)).symm.trans (by push_cast; rfl)

/-- With conjugate coefficients both ways of writing the white signal agree. -/
theorem synthesis_white {p : PatchM ℂ} {d : String} {n : ℕ} (hn : n ≠ 0) (hdx : spacingOf p.cm d ≠ 0) {half : Bool} {i : List ℕ}
    (hl : p.cm.dims.idxOf d < i.length)
    (hr : half = true → ∀ j, j < lenDim p.cm d → (p.data.get (i.set (p.cm.dims.idxOf d) j)).im = 0) :
    synthesis p d n half (fun i => heading (spectrumAt p d n half i)) i = whiteSignal p d n i := by
  have hnq : (n : ℚ) ≠ 0 := by exact_mod_cast hn
  have hpos : ∀ k, posAlong p d (i.set (p.cm.dims.idxOf d) k) = k := fun k => getD_set_self hl
  unfold synthesis whiteSignal
  simp only [spectrumAt, hpos, lineSpectrum_set]
  cases half with
  | true =>
    simp only [if_true]
    congr 1
    set c : ℕ → ℂ := fun k => heading (lineSpectrum p d (k / (n * spacingOf p.cm d)) i) * wave (-((k : ℚ) * posAlong p d i / n)) with hc
    have flip : ∀ k, k ≤ n → c (n - k) = star (c k) := by
      intro k hk
      simp only [hc]
      rw [star_mul', ← heading_star, ← lineSpectrum_real (hr rfl)]
      have e1 : ((n - k : ℕ) : ℚ) / (n * spacingOf p.cm d) = -(k / (n * spacingOf p.cm d)) + 1 / spacingOf p.cm d := by
        rw [Nat.cast_sub hk]; field_simp; ring
      rw [e1, lineSpectrum_period p d hdx]
      congr 1
      show expi _ = star (expi _)
      rw [star_expi, Nat.cast_sub hk,
        show -(((n : ℚ) - k) * posAlong p d i / n) = - -((k : ℚ) * posAlong p d i / n) + ((-(posAlong p d i : ℤ) : ℤ) : ℚ) by push_cast; field_simp; ring,
        expi_add, expi_int, mul_one]
    rw [sum_conj hn (fun k _ h => flip k (by omega))]
    push_cast
    refine Finset.sum_congr rfl fun k hk => ?_
    have hk' := Finset.mem_range.1 hk
    have ek : heading (lineSpectrum p d (bandFrequency true n (spacingOf p.cm d) k) i) *
        wave (-(bandFrequency true n (spacingOf p.cm d) k * (posAlong p d i * spacingOf p.cm d))) = c k := by
      simp only [hc, bandFrequency, if_true, Nat.cast_zero, sub_zero]
      congr 2
      field_simp
    rw [ek]
    split_ifs with he
    · rw [Complex.ofReal_one, one_mul]
      have hs : star (c k) = c k := by
        rcases he with rfl | he
        · have e0 : c 0 = heading (lineSpectrum p d 0 i) := by
            simp only [hc]
            have : wave (-(((0 : ℕ) : ℚ) * posAlong p d i / n)) = 1 := by
              show expi _ = 1
              simp [expi_zero]
            rw [this, mul_one]; simp
          rw [e0, ← heading_star, ← lineSpectrum_real (hr rfl), neg_zero]
        · have := flip k (by omega)
          rw [← this]; congr 1; omega
      exact Complex.conj_eq_iff_re.1 hs
    · exact ((Complex.add_conj (c k)).trans (by push_cast; rfl)).symm
  | false =>
    simp only [Bool.false_eq_true, if_false]
    congr 1
    refine Finset.sum_nbij' (fun k => (k + (n - n / 2)) % n) (fun k => (k + n / 2) % n) ?_ ?_ ?_ ?_ ?_
    · intro k _
      exact Finset.mem_range.2 (Nat.mod_lt _ (by omega))
    · intro k _
      exact Finset.mem_range.2 (Nat.mod_lt _ (by omega))
    · intro k hk
      have hk := Finset.mem_range.1 hk
      show ((k + (n - n / 2)) % n + n / 2) % n = k
      rw [Nat.mod_add_mod, show k + (n - n / 2) + n / 2 = k + n by omega, Nat.add_mod_right, Nat.mod_eq_of_lt hk]
    · intro k hk
      have hk := Finset.mem_range.1 hk
      show ((k + n / 2) % n + (n - n / 2)) % n = k
      rw [Nat.mod_add_mod, show k + n / 2 + (n - n / 2) = k + n by omega, Nat.add_mod_right, Nat.mod_eq_of_lt hk]
    · intro k hk
      have hk := Finset.mem_range.1 hk
      have ew : bandFrequency false n (spacingOf p.cm d) k * (posAlong p d i * spacingOf p.cm d) = ((k : ℚ) - (n / 2 : ℕ)) * posAlong p d i / n := by
        simp only [bandFrequency, Bool.false_eq_true, if_false]
        field_simp
      rw [ew]
      by_cases hlt : k < n / 2
      · have e : (k + (n - n / 2)) % n = k + (n - n / 2) := Nat.mod_eq_of_lt (by omega)
        simp only [e]
        have ec : ((k + (n - n / 2) : ℕ) : ℚ) = (k : ℚ) - (n / 2 : ℕ) + n := by
          rw [Nat.cast_add, Nat.cast_sub (by omega)]; ring
        rw [ec]
        have e1 : ((k : ℚ) - (n / 2 : ℕ) + n) / (n * spacingOf p.cm d) = bandFrequency false n (spacingOf p.cm d) k + 1 / spacingOf p.cm d := by
          simp only [bandFrequency, Bool.false_eq_true, if_false]
          field_simp
        rw [e1, lineSpectrum_period p d hdx]
        congr 1
        show expi _ = expi _
        rw [show -(((k : ℚ) - (n / 2 : ℕ) + n) * posAlong p d i / n) = -(((k : ℚ) - (n / 2 : ℕ)) * posAlong p d i / n) + ((-(posAlong p d i : ℤ) : ℤ) : ℚ) by push_cast; field_simp; ring,
          expi_add, expi_int, mul_one]
      · have e : (k + (n - n / 2)) % n = k - n / 2 := by
          rw [show k + (n - n / 2) = (k - n / 2) + n by omega, Nat.add_mod_right, Nat.mod_eq_of_lt (by omega)]
        simp only [e]
        have ec : ((k - n / 2 : ℕ) : ℚ) = (k : ℚ) - (n / 2 : ℕ) := Nat.cast_sub (by omega)
        rw [ec]
        rfl

/-! ### Whitening -/

/-- The keywords ask for dimension `d`, without limits of a band: nothing is given for time. -/
def AsksWhite (kw : Dict (Option (List ℚ))) (d : String) : Prop := kw = [(d, none)] ∨ kw = [] ∧ d = "time"

/-- What whitening along a dimension needs: an ascending even dimension that can be transformed, no other dimension being a transformed one, and
real samples if the array is one of real numbers (and two samples if it is not). -/
structure Whitenable (P : FPatch) (d : String) : Prop where
  ready : Ready P.patch
  transformable : Transformable P.patch.cm [d]
  ascending : 0 < spacingOf P.patch.cm d
  others : ∀ e ∈ P.patch.cm.dims, e ≠ d → ¬ "ft_".toList <+: e.toList
  long : P.isComplex = true → 2 ≤ lenDim P.patch.cm d
  real : P.isComplex = false → ∀ i, InRange P.patch.data.shape i → (P.patch.data.get i).im = 0

theorem Whitenable.dim {P : FPatch} {d : String} (h : Whitenable P d) : d ∈ P.patch.cm.dims := (h.transformable.even d (by simp)).1

theorem Whitenable.waves {fast : ℕ → ℕ} (hf : ∀ n, n ≤ fast n) {argsort : List ℚ → List ℕ} {P : FPatch} {d : String} (h : Whitenable P d) :
    ∃ Q, P.dft fast (some [d]) (if P.isComplex then .no else .last) true = .ok Q ∧
      Transformed P.patch Q.patch [d] (if P.isComplex then none else some d) (fun d => fast (lenDim P.patch.cm d)) ∧
      Q.patch.cm.ents.get? ("ft_" ++ d) =
        some (["ft_" ++ d], .one .float (.range (freqRange (fast (lenDim P.patch.cm d)) (spacingOf P.patch.cm d) (!P.isComplex)))) ∧
      Q.patch.cm.shape = Q.patch.data.shape ∧ Q.padded = some true ∧
      ∀ A : List ℕ → ℂ, ∃ R, FPatch.idft argsort ⟨⟨Q.patch.cm, ⟨Q.patch.data.shape, A⟩⟩, true, Q.padded⟩ none = .ok R ∧
        Restored ⟨P.patch.cm, ⟨P.patch.data.shape, synthesis P.patch d (fast (lenDim P.patch.cm d)) (!P.isComplex) A⟩⟩ R.patch [d] ∧
        R.isComplex = P.isComplex ∧ R.padded = none :=
  idft_waves hf h.ready.regular h.ready.readable h.ready.ne h.ready.shape (FtReady.of h.ready.regular h.transformable) h.ascending h.long (by
    intro e he hn
    exact h.others e he (by simpa using hn))

theorem Whitenable.len_pos {P : FPatch} {d : String} (h : Whitenable P d) : 1 ≤ lenDim P.patch.cm d := by
  obtain ⟨k, r, hg, hv⟩ := (FtReady.of h.ready.regular h.transformable).even d (by simp)
  show 1 ≤ P.patch.cm.ents.lenOf d
  unfold Ents.lenOf
  rw [hg]
  exact hv.len_pos

theorem Whitenable.ftName {P : FPatch} {d : String} (h : Whitenable P d) : ftName d = "ft_" ++ d :=
  (FtReady.of h.ready.regular h.transformable).fwd d (by simp)

theorem Whitenable.untransformed {P : FPatch} {d : String} (h : Whitenable P d) : (P.patch.cm.untransformed [d]).isEmpty = false := by
  rw [untransformed_self (by simpa using h.dim)]
  rfl

theorem Whitenable.shape {P : FPatch} {d : String} (h : Whitenable P d) : P.patch.data.shape = P.patch.cm.dims.map (lenDim P.patch.cm) := by
  rw [← h.ready.shape]; unfold CM.shape; rw [if_neg h.ready.ne]; rfl

theorem Whitenable.spectrum {P : FPatch} {d : String} (h : Whitenable P d) {Q : PatchM ℂ} {N : ℕ}
    (hT : Transformed P.patch Q [d] (if P.isComplex then none else some d) (fun _ => N)) : Q.data.shape = spectrumShape P.patch d N (!P.isComplex) ∧
      ∀ i, InRange Q.data.shape i → Q.data.get i = spectrumAt P.patch d N (!P.isComplex) i := by
  constructor
  · rw [hT.shape]
    unfold spectrumShape bandCount
    apply List.map_congr_left
    intro e _
    cases P.isComplex <;> simp only [Bool.false_eq_true, if_false, if_true, Bool.not_false, Bool.not_true, Option.some.injEq, List.mem_singleton, reduceCtorEq]
    · by_cases he : e = d
      · simp [he]
      · simp [he, Ne.symm he]
  · intro i hi
    refine hT.data i hi (fun _ => bandFrequency (!P.isComplex) N (spacingOf P.patch.cm d) (posAlong P.patch d i)) ?_
    intro e he
    obtain rfl := List.mem_singleton.1 he
    rw [hT.freq e (by simp) i hi]
    unfold bandFrequency
    cases P.isComplex <;> simp

theorem Whitenable.inside {P : FPatch} {d : String} (h : Whitenable P d) {N k : ℕ} {i : List ℕ} (hi : InRange P.patch.data.shape i)
    (hk : k < bandCount (!P.isComplex) N) : InRange (spectrumShape P.patch d N (!P.isComplex)) (i.set (P.patch.cm.dims.idxOf d) k) := by
  refine inRange_iff.2 ⟨?_, ?_⟩
  · rw [List.length_set, inRange_length hi, h.shape]; simp [spectrumShape]
  · intro ax hax
    have hax' : ax < P.patch.cm.dims.length := by simpa [spectrumShape] using hax
    have h1 := (inRange_iff.1 hi).2 ax (by rw [h.shape]; simpa using hax')
    unfold spectrumShape
    rw [List.getD_eq_getElem?_getD (l := List.map _ _), List.getElem?_map, List.getElem?_eq_getElem hax']
    simp only [Option.map_some, Option.getD_some]
    split_ifs with he
    · have hx : P.patch.cm.dims.idxOf d = ax := by rw [← he]; exact (show P.patch.cm.dims.Nodup from h.ready.regular.distinct).idxOf_getElem ax hax'
      rw [hx, getD_set_self (by rw [inRange_length hi, h.shape]; simpa using hax')]
      exact hk
    · have hx : P.patch.cm.dims.idxOf d ≠ ax := by
        intro hx
        apply he
        subst hx
        exact List.getElem_idxOf hax'
      rw [getD_set_ne hx]
      rw [h.shape, List.getD_eq_getElem?_getD (l := List.map _ _), List.getElem?_map, List.getElem?_eq_getElem hax'] at h1
      exact h1

theorem synthesis_congr {P : FPatch} {d : String} (h : Whitenable P d) {N : ℕ} {A B : List ℕ → ℂ}
    (hAB : ∀ i, InRange (spectrumShape P.patch d N (!P.isComplex)) i → A i = B i) {i : List ℕ} (hi : InRange P.patch.data.shape i) :
    synthesis P.patch d N (!P.isComplex) A i = synthesis P.patch d N (!P.isComplex) B i := by
  unfold synthesis
  cases hc : P.isComplex
  · simp only [Bool.not_false, if_true]
    congr 2
    refine Finset.sum_congr rfl fun k hk => ?_
    rw [hAB _ (h.inside hi (by rw [hc]; exact Finset.mem_range.1 hk))]
  · simp only [Bool.not_true, Bool.false_eq_true, if_false]
    congr 1
    refine Finset.sum_congr rfl fun k hk => ?_
    rw [hAB _ (h.inside hi (by rw [hc]; exact Finset.mem_range.1 hk))]

theorem restored_congr {m : CM} {sh : List ℕ} {f g : List ℕ → ℂ} {r : PatchM ℂ} {D : List String} (h : Restored ⟨m, ⟨sh, f⟩⟩ r D)
    (hfg : ∀ i, InRange sh i → f i = g i) : Restored ⟨m, ⟨sh, g⟩⟩ r D :=
  ⟨h.dims, h.shape, fun i hi => (h.data i hi).trans (hfg i hi), h.labels, h.lost, h.none⟩

theorem asksWhite_dim {P : FPatch} {d : String} (hd : d ∈ P.patch.cm.dims) {kw : Dict (Option (List ℚ))} (hk : AsksWhite kw d) :
    whitenDim P.patch.cm kw = .ok (d, []) := by
  rcases hk with rfl | ⟨rfl, rfl⟩
  · show (if P.patch.cm.dims.contains d || P.patch.cm.dims.contains (ftName d) then Except.ok (d, []) else Except.error Err.parameterError) = _
    rw [if_pos (by simp [hd])]
  · unfold whitenDim
    rw [if_pos (by simp [hd])]

/-- Whitening in general: what is left to do after the transform. -/
theorem whiten_run {fast : ℕ → ℕ} (hf : ∀ n, n ≤ fast n) (argsort : List ℚ → List ℕ) (w : ℕ → List ℚ) {P : FPatch} {d : String} (h : Whitenable P d)
    {kw : Dict (Option (List ℚ))} {range : List ℚ} (hk : whitenDim P.patch.cm kw = .ok (d, range)) (size water : Option ℚ) :
    ∃ q : PatchM ℂ, q.cm.ents.get? ("ft_" ++ d) =
        some (["ft_" ++ d], .one .float (.range (freqRange (fast (lenDim P.patch.cm d)) (spacingOf P.patch.cm d) (!P.isComplex)))) ∧
      q.cm.dims.idxOf ("ft_" ++ d) = P.patch.cm.dims.idxOf d ∧ "ft_" ++ d ∈ q.cm.dims ∧
      q.data.shape = spectrumShape P.patch d (fast (lenDim P.patch.cm d)) (!P.isComplex) ∧
      (∀ i, InRange q.data.shape i → q.data.get i = spectrumAt P.patch d (fast (lenDim P.patch.cm d)) (!P.isComplex) i) ∧
      q.cm.shape = q.data.shape ∧
      P.whiten fast argsort w kw size water = (do
        let amp ← q.whiteAmp ("ft_" ++ d) size water
        let r ← PatchM.whiteBand w ⟨q.cm, ⟨q.data.shape, fun i => (amp.get i : ℂ) * heading (q.data.get i)⟩⟩ ("ft_" ++ d) range
        FPatch.idft argsort ⟨r, true, some true⟩ none) ∧
      ∀ A : List ℕ → ℂ, ∃ R, FPatch.idft argsort ⟨⟨q.cm, ⟨q.data.shape, A⟩⟩, true, some true⟩ none = .ok R ∧
        Restored ⟨P.patch.cm, ⟨P.patch.data.shape, synthesis P.patch d (fast (lenDim P.patch.cm d)) (!P.isComplex) A⟩⟩ R.patch [d] ∧
        R.isComplex = P.isComplex ∧ R.padded = none := by
  obtain ⟨Q, h1, h2, h3, h4, h5, h6⟩ := h.waves hf (argsort := argsort)
  have h2' : Transformed P.patch Q.patch [d] (if P.isComplex then none else some d) (fun _ => fast (lenDim P.patch.cm d)) := by
    refine ⟨h2.dims, ?_, ?_, h2.data, h2.labels, h2.lost⟩
    · rw [h2.shape]
      apply List.map_congr_left
      intro e _
      have hre : (if P.isComplex then none else some d) = some e → d = e := by cases P.isComplex <;> simp
      generalize (if P.isComplex then none else some d) = real at hre
      split_ifs with ha hb
      · rw [hre ha]
      · rw [List.mem_singleton.1 hb]
      · rfl
    · intro e he i hi
      obtain rfl := List.mem_singleton.1 he
      exact h2.freq e he i hi
  obtain ⟨hs, hd⟩ := h.spectrum h2'
  have hdim : "ft_" ++ d ∈ Q.patch.cm.dims := by
    rw [h2.dims]
    exact List.mem_map.2 ⟨d, h.dim, by simp⟩
  have hix : Q.patch.cm.dims.idxOf ("ft_" ++ d) = P.patch.cm.dims.idxOf d := by
    have hR := FtReady.of h.ready.regular h.transformable
    have := idxOf_rename (rename_inj h.ready.regular.wf hR.ftFree) h.dim
    rw [h2.dims]
    simpa using this
  refine ⟨Q.patch, h3, hix, hdim, hs, hd, h4, ?_, fun A => ?_⟩
  · unfold FPatch.whiten
    simp only [hk, h1, bind, Except.bind, h.ftName, h.untransformed, h5]
    cases Q.patch.whiteAmp ("ft_" ++ d) size water with
    | error e => rfl
    | ok amp =>
      simp only
      have : PatchM.new Q.patch.cm ⟨Q.patch.data.shape, fun i => (amp.get i : ℂ) * Complex.exp (Complex.arg (Q.patch.data.get i) * Complex.I)⟩ =
          .ok ⟨Q.patch.cm, ⟨Q.patch.data.shape, fun i => (amp.get i : ℂ) * heading (Q.patch.data.get i)⟩⟩ := by
        unfold PatchM.new
        rw [if_pos h4]
        simp only [exp_heading]
      rw [this]
      rfl
  · have := h6 A
    rw [h5] at this
    exact this

theorem whiteAmp_none {q : PatchM ℂ} {ft : String} {x} (h : q.cm.ents.get? ft = some x) (water : Option ℚ) :
    q.whiteAmp ft none water = .ok ⟨q.data.shape, fun _ => 1⟩ := by
  unfold PatchM.whiteAmp
  rw [h]

theorem whiteBand_nil {w : ℕ → List ℚ} (q : PatchM ℂ) (ft : String) : q.whiteBand w ft [] = .ok q := rfl

/-- **C82.** Whitening without smoothing and without limits gives the white signal with the phases of the samples: it is made of the
waves of as many samples as the patch is padded to, each with the phase it has in the patch and the same amplitude. Coordinates, dimensions and the
kind of the data stay as they are. -/
theorem C82_white_partial {fast : ℕ → ℕ} (hf : ∀ n, n ≤ fast n) (argsort : List ℚ → List ℕ) (w : ℕ → List ℚ) {P : FPatch} {d : String} (h : Whitenable P d)
    {kw : Dict (Option (List ℚ))} (hk : AsksWhite kw d) (water : Option ℚ) :
    ∃ R, P.whiten fast argsort w kw none water = .ok R ∧
      Restored ⟨P.patch.cm, ⟨P.patch.data.shape, whiteSignal P.patch d (fast (lenDim P.patch.cm d))⟩⟩ R.patch [d] ∧ R.isComplex = P.isComplex := by
  obtain ⟨q, h1, _, _, h3, h4, h5, h6, h7⟩ := whiten_run hf argsort w h (asksWhite_dim h.dim hk) none water
  obtain ⟨R, g1, g2, g3, _⟩ := h7 fun i => ((1 : ℝ) : ℂ) * heading (q.data.get i)
  refine ⟨R, ?_, ⟨g2.dims, g2.shape, ?_, g2.labels, g2.lost, g2.none⟩, g3⟩
  · rw [h6, whiteAmp_none h1]
    exact g1
  · intro i hi
    have hi' : InRange P.patch.data.shape i := hi
    refine (g2.data i hi).trans ?_
    have hN : fast (lenDim P.patch.cm d) ≠ 0 := by have := h.len_pos; have := hf (lenDim P.patch.cm d); omega
    have hl : P.patch.cm.dims.idxOf d < i.length := by rw [inRange_length hi', h.shape]; simpa using List.idxOf_lt_length_of_mem h.dim
    change synthesis P.patch d (fast (lenDim P.patch.cm d)) (!P.isComplex) (fun i => ((1 : ℝ) : ℂ) * heading (q.data.get i)) i =
      whiteSignal P.patch d (fast (lenDim P.patch.cm d)) i
    refine (synthesis_congr h (B := fun i => heading (spectrumAt P.patch d (fast (lenDim P.patch.cm d)) (!P.isComplex) i)) ?_ hi').trans
      (synthesis_white hN h.ascending.ne' hl ?_)
    · intro j hj
      rw [← h3] at hj
      rw [Complex.ofReal_one, one_mul, h4 j hj]
    · intro hc j hj
      refine h.real (by simpa using hc) _ (inRange_set hi' ?_)
      rw [h.shape, getD_map_idxOf h.dim]
      exact hj

/-- **C82.** If the patch is not padded (its length is one the transform likes), the whitened patch is white: the Fourier sums of its samples have amplitude
one at all the frequencies of the transform, and the phases of those of the patch. Missing: patches that are padded, see `C82_padded_violated`. -/
theorem C82_flat_partial {fast : ℕ → ℕ} (hf : ∀ n, n ≤ fast n) (argsort : List ℚ → List ℕ) (w : ℕ → List ℚ) {P : FPatch} {d : String} (h : Whitenable P d)
    {kw : Dict (Option (List ℚ))} (hk : AsksWhite kw d) (water : Option ℚ) {n : ℕ} (hn : lenDim P.patch.cm d = n) (hfast : fast n = n) :
    ∃ R, P.whiten fast argsort w kw none water = .ok R ∧ ∀ i, InRange P.patch.data.shape i → ∀ k, k < n →
      ∃ F : ℂ, (∑ j ∈ Finset.range n, R.patch.data.get (i.set (P.patch.cm.dims.idxOf d) j) *
          (wave (k / (n * spacingOf P.patch.cm d) * (j * spacingOf P.patch.cm d)) * (spacingOf P.patch.cm d : ℚ))) = F ∧ ‖F‖ = 1 ∧
        lineSpectrum P.patch d (k / (n * spacingOf P.patch.cm d)) i = ‖lineSpectrum P.patch d (k / (n * spacingOf P.patch.cm d)) i‖ * F := by
  obtain ⟨R, h1, h2, _⟩ := C82_white_partial hf argsort w h hk water
  refine ⟨R, h1, fun i hi k hk => ⟨heading (lineSpectrum P.patch d (k / (n * spacingOf P.patch.cm d)) i), ?_, norm_heading _, (norm_mul_heading _).symm⟩⟩
  rw [hn, hfast] at h2
  have hn0 : n ≠ 0 := by omega
  have hnq : (n : ℚ) ≠ 0 := by exact_mod_cast hn0
  have hnc : (n : ℂ) ≠ 0 := by exact_mod_cast hn0
  have hdx := h.ascending.ne'
  have hdc : ((spacingOf P.patch.cm d : ℚ) : ℂ) ≠ 0 := by exact_mod_cast hdx
  have hl : P.patch.cm.dims.idxOf d < i.length := by rw [inRange_length hi, h.shape]; simpa using List.idxOf_lt_length_of_mem h.dim
  set H : ℕ → ℂ := fun k => heading (lineSpectrum P.patch d (k / (n * spacingOf P.patch.cm d)) i) with hH
  have e : ∀ j ∈ Finset.range n, R.patch.data.get (i.set (P.patch.cm.dims.idxOf d) j) *
        (wave (k / (n * spacingOf P.patch.cm d) * (j * spacingOf P.patch.cm d)) * (spacingOf P.patch.cm d : ℚ)) =
      ∑ l ∈ Finset.range n, H l * ((expi ((k : ℚ) * j / n) * expi (-((j : ℚ) * l / n))) / n) := by
    intro j hj
    have hji : InRange P.patch.data.shape (i.set (P.patch.cm.dims.idxOf d) j) := by
      refine inRange_set hi ?_
      rw [h.shape, getD_map_idxOf h.dim, hn]
      exact Finset.mem_range.1 hj
    have hd := h2.data _ hji
    change _ = whiteSignal P.patch d n _ at hd
    have hpos : posAlong P.patch d (i.set (P.patch.cm.dims.idxOf d) j) = j := getD_set_self hl
    rw [hd]
    unfold whiteSignal
    simp only [hpos, lineSpectrum_set]
    rw [Finset.sum_div, Finset.sum_mul]
    refine Finset.sum_congr rfl fun l _ => ?_
    have w1 : wave (k / (n * spacingOf P.patch.cm d) * (j * spacingOf P.patch.cm d)) = expi ((k : ℚ) * j / n) := by
      show expi _ = _
      congr 1; field_simp
    have w2 : wave (-((l : ℚ) * j / n)) = expi (-((j : ℚ) * l / n)) := by
      show expi _ = _
      congr 1; ring
    rw [w1, w2]
    rw [show heading (lineSpectrum P.patch d (l / (n * spacingOf P.patch.cm d)) i) = H l from rfl]
    push_cast
    field_simp
  rw [Finset.sum_congr rfl e, Finset.sum_comm]
  have e2 : ∀ l ∈ Finset.range n, (∑ j ∈ Finset.range n, H l * ((expi ((k : ℚ) * j / n) * expi (-((j : ℚ) * l / n))) / n)) = if k = l then H l else 0 := by
    intro l hl
    rw [← Finset.mul_sum, ← Finset.sum_div, wave_sum hk (Finset.mem_range.1 hl)]
    split_ifs
    · rw [div_self hnc, mul_one]
    · simp
  rw [Finset.sum_congr rfl e2, Finset.sum_ite_eq, if_pos (Finset.mem_range.2 hk)]

/-- **C82.** Whitening does not depend on the gain: if the samples of one patch are those of another, multiplied with a positive number, both are whitened to the
same samples. -/
theorem C82_gain {fast : ℕ → ℕ} (hf : ∀ n, n ≤ fast n) (argsort : List ℚ → List ℕ) (w : ℕ → List ℚ) {P : FPatch} {d : String} (h : Whitenable P d)
    {kw : Dict (Option (List ℚ))} (hk : AsksWhite kw d) (water : Option ℚ) {c : ℝ} (hc : 0 < c) {P' : FPatch} (hcm : P'.patch.cm = P.patch.cm)
    (hs : P'.patch.data.shape = P.patch.data.shape) (hcx : P'.isComplex = P.isComplex) (hdat : ∀ i, P'.patch.data.get i = c * P.patch.data.get i) :
    ∃ R R', P.whiten fast argsort w kw none water = .ok R ∧ P'.whiten fast argsort w kw none water = .ok R' ∧
      R'.patch.data.shape = R.patch.data.shape ∧ ∀ i, InRange P.patch.data.shape i → R'.patch.data.get i = R.patch.data.get i := by
  have h' : Whitenable P' d := by
    have hr := h.ready
    refine ⟨⟨?_, ?_, ?_, ?_, ?_⟩, ?_, ?_, ?_, ?_, ?_⟩
    · rw [hcm]; exact hr.regular
    · rw [hcm]; exact hr.readable
    · rw [hcm]; exact hr.listed
    · rw [hcm]; exact hr.ne
    · rw [hcm, hs]; exact hr.shape
    · rw [hcm]; exact h.transformable
    · rw [hcm]; exact h.ascending
    · rw [hcm]; exact h.others
    · rw [hcm, hcx]; exact h.long
    · intro hx i hi
      rw [hdat, Complex.im_ofReal_mul, h.real (by rw [← hcx]; exact hx) i (by rw [← hs]; exact hi), mul_zero]
  obtain ⟨R, h1, h2, _⟩ := C82_white_partial hf argsort w h hk water
  obtain ⟨R', h1', h2', _⟩ := C82_white_partial hf argsort w h' hk water
  refine ⟨R, R', h1, h1', ?_, fun i hi => ?_⟩
  · rw [h2'.shape, h2.shape]; exact hs
  · rw [h2'.data i (by show InRange P'.patch.data.shape i; rw [hs]; exact hi), h2.data i hi]
    show whiteSignal P'.patch d _ i = whiteSignal P.patch d _ i
    unfold whiteSignal posAlong
    rw [hcm]
    congr 1
    refine Finset.sum_congr rfl fun k _ => ?_
    congr 1
    rw [← heading_scale hc (lineSpectrum P.patch d _ i)]
    congr 1
    rw [lineSpectrum_eq, lineSpectrum_eq, hcm, Finset.mul_sum]
    refine Finset.sum_congr rfl fun j _ => ?_
    rw [hdat]
    ring

/-! ### Smoothing -/

theorem freq_step_pos {n : ℕ} {dx : ℚ} (hn : 1 ≤ n) (hdx : 0 < dx) (half : Bool) : 0 < (freqRange n dx half).step := by
  show 0 < 1 / ((n : ℚ) * dx)
  have : (0 : ℚ) < n := by exact_mod_cast hn
  positivity

theorem freq_at {n : ℕ} {dx : ℚ} (half : Bool) (x : ℕ) : (freqRange n dx half).start + x * (freqRange n dx half).step = bandFrequency half n dx x := by
  unfold freqRange bandFrequency
  cases half <;> simp <;> ring

theorem freq_len (n : ℕ) (dx : ℚ) (half : Bool) : (freqRange n dx half).len = bandCount half n := rfl

theorem freq_cmax {n : ℕ} {dx : ℚ} (hn : 1 ≤ n) (hdx : 0 < dx) (half : Bool) : (freqRange n dx half).cmax = bandFrequency half n dx (bandCount half n - 1) := by
  have hv := freqRange_valid hn hdx.ne' half
  have hl := hv.len_pos
  rw [hv.cmax_eq, ← freq_at, ← freq_len n dx half, Nat.cast_sub hl, Nat.cast_one]
  refine max_eq_right ?_
  have h1 : (0 : ℚ) ≤ (freqRange n dx half).len - 1 := by
    have : (1 : ℚ) ≤ (freqRange n dx half).len := by exact_mod_cast hl
    linarith
  have := mul_nonneg h1 (freq_step_pos hn hdx half).le
  linarith

theorem greatest_eq {a : Nd ℝ} (h0 : ∀ i, 0 ≤ a.get i) {M : ℝ} (hM : IsGreatest (a.get '' {i | InRange a.shape i}) M) : a.greatest = M := by
  have key : ∀ l : List ℝ, (∀ x ∈ l, x ≤ M) → 0 ≤ M → l.foldr max 0 ≤ M ∧ ∀ x ∈ l, x ≤ l.foldr max 0 := by
    intro l
    induction l with
    | nil => intro _ h; exact ⟨h, by simp⟩
    | cons x l ih =>
      intro hl h
      obtain ⟨g1, g2⟩ := ih (fun y hy => hl y (by simp [hy])) h
      refine ⟨max_le (hl x (by simp)) g1, ?_⟩
      intro y hy
      rcases List.mem_cons.1 hy with rfl | hy
      · exact le_max_left _ _
      · exact le_trans (g2 y hy) (le_max_right _ _)
  obtain ⟨⟨i, hi, rfl⟩, hub⟩ := hM
  obtain ⟨g1, g2⟩ := key ((Nd.indices a.shape).map a.get) (by
    intro x hx
    obtain ⟨j, hj, rfl⟩ := List.mem_map.1 hx
    exact hub ⟨j, mem_indices.1 hj, rfl⟩) (h0 i)
  exact le_antisymm g1 (g2 _ (List.mem_map.2 ⟨i, mem_indices.2 hi, rfl⟩))

/-- **C82.** Whitening with smoothing divides the Fourier sums by their smoothed amplitudes: means over the fewest frequencies that cover the size asked for, and at
least the part of the greatest mean which the water level says. Missing: spectra with such a mean zero, where numpy divides by zero. -/
theorem C82_smooth_partial {fast : ℕ → ℕ} (hf : ∀ n, n ≤ fast n) (argsort : List ℚ → List ℕ) (w : ℕ → List ℚ) {P : FPatch} {d : String} (h : Whitenable P d)
    {kw : Dict (Option (List ℚ))} (hk : AsksWhite kw d) {half : Bool} (hhalf : half = !P.isComplex) {n : ℕ} (hn : n = fast (lenDim P.patch.cm d)) {size : ℚ}
    (hsize : 0 < size) (hmax : size < bandFrequency half n (spacingOf P.patch.cm d) (bandCount half n - 1)) {water : Option ℚ}
    (hwater : ∀ x, water = some x → 0 ≤ x ∧ x ≤ 1) {l : ℕ}
    (hl : ((l : ℚ) - 1) / (n * spacingOf P.patch.cm d) < size ∧ size ≤ l / (n * spacingOf P.patch.cm d)) {M : ℝ}
    (hM : IsGreatest (smoothed P.patch d n half l '' {i | InRange (spectrumShape P.patch d n half) i}) M)
    (hz : ∀ i, InRange (spectrumShape P.patch d n half) i → atLevel water M (smoothed P.patch d n half l i) ≠ 0) :
    ∃ R, P.whiten fast argsort w kw (some size) water = .ok R ∧
      Restored ⟨P.patch.cm, ⟨P.patch.data.shape, synthesis P.patch d n half fun i =>
        spectrumAt P.patch d n half i / (atLevel water M (smoothed P.patch d n half l i) : ℝ)⟩⟩ R.patch [d] ∧ R.isComplex = P.isComplex := by
  subst hhalf hn
  obtain ⟨q, h1, h2, h2', h3, h4, h5, h6, h7⟩ := whiten_run hf argsort w h (asksWhite_dim h.dim hk) (some size) water
  set N := fast (lenDim P.patch.cm d) with hN
  set half := !P.isComplex with hhalf
  have hN1 : 1 ≤ N := le_trans h.len_pos (hf _)
  have hNq : (0 : ℚ) < N := by exact_mod_cast hN1
  have hpos := h.ascending
  have hK1 : 1 ≤ bandCount half N := (freqRange_valid hN1 hpos.ne' half).len_pos
  have hstep : (freqRange N (spacingOf P.patch.cm d) half).step = 1 / (N * spacingOf P.patch.cm d) := rfl
  have hden : (0 : ℚ) < N * spacingOf P.patch.cm d := mul_pos hNq hpos
  -- the window
  have hceil : ⌈size / (freqRange N (spacingOf P.patch.cm d) half).step⌉ = (l : ℤ) := by
    rw [hstep, Int.ceil_eq_iff]
    have e : size / (1 / (N * spacingOf P.patch.cm d)) = size * (N * spacingOf P.patch.cm d) := by field_simp
    rw [e]
    constructor
    · have := (div_lt_iff₀ hden).1 hl.1
      push_cast; exact this
    · have := (le_div_iff₀ hden).1 hl.2
      push_cast; exact this
  have hlK : l ≤ bandCount half N := by
    have a1 : ((l : ℚ) - 1) / (N * spacingOf P.patch.cm d) < ((bandCount half N - 1 : ℕ) : ℚ) / (N * spacingOf P.patch.cm d) := by
      refine lt_of_lt_of_le (lt_trans hl.1 hmax) ?_
      unfold bandFrequency
      refine div_le_div_of_nonneg_right ?_ hden.le
      have : (0 : ℚ) ≤ ((if half then 0 else N / 2 : ℕ) : ℚ) := Nat.cast_nonneg _
      linarith
    have a2 := (div_lt_div_iff_of_pos_right hden).1 a1
    rw [Nat.cast_sub hK1, Nat.cast_one] at a2
    have a3 : (l : ℚ) < bandCount half N := by linarith
    exact (by exact_mod_cast a3 : l < bandCount half N).le
  have hl1 : 1 ≤ l := by
    rcases Nat.eq_zero_or_pos l with rfl | hp
    · exfalso
      have := hl.2
      simp at this
      linarith
    · exact hp
  have hcount : (freqRange N (spacingOf P.patch.cm d) half).sampleCount false true (.value size) = .ok (l : ℤ) := by
    unfold RangeCoord.sampleCount
    rw [rawCount_value (freq_step_pos hN1 hpos half) (r := .value size) hsize.le]
    simp only [WinReq.amount, bind, Except.bind, hceil, freq_len]
    rw [if_neg (by simp; exact_mod_cast hlK)]
  have hcheck : checkSmooth (freqRange N (spacingOf P.patch.cm d) half) size water = .ok () := by
    unfold checkSmooth
    rw [if_neg, if_neg (not_le.2 hsize), if_neg (by rw [freq_cmax hN1 hpos]; exact not_le.2 hmax)]
    cases water with
    | none => simp
    | some x => have := hwater x rfl; simp [this.1, this.2]
  -- the smoothed amplitudes
  have hax : q.data.shape.getD (P.patch.cm.dims.idxOf d) 0 = bandCount half N := by
    rw [h3]
    unfold spectrumShape
    rw [getD_map_idxOf h.dim, if_pos rfl]
  set amp : Nd ℝ := ⟨q.data.shape, fun i => ‖q.data.get i‖⟩ with hamp
  have huni : ∀ i, InRange q.data.shape i → (amp.uniformWrap l (P.patch.cm.dims.idxOf d)).get i = smoothed P.patch d N half l i := by
    intro i hi
    show (List.sum _) / _ = _
    rw [list_sum_range]
    unfold smoothed
    congr 1
    refine Finset.sum_congr rfl fun t ht => ?_
    show ‖q.data.get _‖ = _
    have hsh : amp.shape.getD (P.patch.cm.dims.idxOf d) 0 = bandCount half N := hax
    rw [hsh]
    have e : (((posAlong P.patch d i : ℤ) - (l / 2 : ℕ) + t) % (bandCount half N : ℕ)).toNat =
        (i.getD (P.patch.cm.dims.idxOf d) 0 + (bandCount half N - l / 2) + t) % bandCount half N := by
      have : ((posAlong P.patch d i : ℤ) - (l / 2 : ℕ) + t) % (bandCount half N : ℕ) =
          (((i.getD (P.patch.cm.dims.idxOf d) 0 + (bandCount half N - l / 2) + t) % bandCount half N : ℕ) : ℤ) := by
        unfold posAlong
        rw [Int.natCast_mod, Int.natCast_add, Int.natCast_add, Int.natCast_sub (by omega)]
        rw [show ((i.getD (P.patch.cm.dims.idxOf d) 0 : ℕ) : ℤ) + ((bandCount half N : ℕ) - ((l / 2 : ℕ) : ℤ)) + t =
          ((i.getD (P.patch.cm.dims.idxOf d) 0 : ℕ) - ((l / 2 : ℕ) : ℤ) + t) + (bandCount half N : ℕ) by ring, Int.add_emod_right]
      rw [this, Int.toNat_natCast]
    rw [e, h4 _ (inRange_set hi (by rw [hax]; exact Nat.mod_lt _ (by omega)))]
  have hgr : (amp.uniformWrap l (P.patch.cm.dims.idxOf d)).greatest = M := by
    refine greatest_eq ?_ ?_
    · intro i
      show 0 ≤ (List.sum _) / _
      rw [list_sum_range]
      exact div_nonneg (Finset.sum_nonneg fun _ _ => norm_nonneg _) (Nat.cast_nonneg _)
    · have : (amp.uniformWrap l (P.patch.cm.dims.idxOf d)).get '' {i | InRange (amp.uniformWrap l (P.patch.cm.dims.idxOf d)).shape i} =
          smoothed P.patch d N half l '' {i | InRange (spectrumShape P.patch d N half) i} := by
        rw [show (amp.uniformWrap l (P.patch.cm.dims.idxOf d)).shape = spectrumShape P.patch d N half from h3]
        refine Set.image_congr ?_
        intro i hi
        exact huni i (by rw [h3]; exact hi)
      rw [this]; exact hM
  have hraise : ∀ i, InRange q.data.shape i → ((amp.uniformWrap l (P.patch.cm.dims.idxOf d)).raise water).get i =
      atLevel water M (smoothed P.patch d N half l i) := by
    intro i hi
    unfold Nd.raise atLevel
    cases water with
    | none => exact huni i hi
    | some x =>
      simp only [hgr, huni i hi]
      split_ifs with hlt
      · exact (max_eq_right hlt.le).symm
      · exact (max_eq_left (not_lt.1 hlt)).symm
  have hamp' : q.whiteAmp ("ft_" ++ d) (some size) water =
      .ok ⟨q.data.shape, fun i => ‖q.data.get i‖ / ((amp.uniformWrap l (P.patch.cm.dims.idxOf d)).raise water).get i⟩ := by
    unfold PatchM.whiteAmp
    rw [h1]
    simp only [hcheck, hcount, bind, Except.bind, h2, Int.toNat_natCast]
    unfold ampEnvelope
    refine if_pos ?_
    intro i hi
    have hi' : InRange q.data.shape i := mem_indices.1 hi
    rw [show (((⟨q.data.shape, fun i => ‖q.data.get i‖⟩ : Nd ℝ).uniformWrap l (P.patch.cm.dims.idxOf d)).raise water).get i = _ from hraise i hi']
    exact hz i (by rw [← h3]; exact hi')
  obtain ⟨R, g1, g2, g3, _⟩ := h7 fun i =>
    ((‖q.data.get i‖ / ((amp.uniformWrap l (P.patch.cm.dims.idxOf d)).raise water).get i : ℝ) : ℂ) * heading (q.data.get i)
  refine ⟨R, ?_, restored_congr g2 fun i hi => synthesis_congr h (fun j hj => ?_) hi, g3⟩
  · rw [h6, hamp']
    exact g1
  · rw [← h3] at hj
    rw [hraise j hj, h4 j hj]
    push_cast
    rw [div_mul_eq_mul_div, norm_mul_heading]

/-! ### Bands -/

theorem firstFrom {half : Bool} {n : ℕ} {dx v : ℚ} {i : ℕ} (h : IndexFor (freqRange n dx half) false v i) : FirstFrom half n dx v i := by
  refine ⟨h.1, fun x => ?_⟩
  rw [h.2 x, freq_at]
  rfl

theorem notNarrow {c : RangeCoord} : ∀ {range : List ℚ}, rangeTooNarrow c range = false → range.IsChain fun a b => a + c.step * 2 ≤ b := by
  intro range h
  unfold rangeTooNarrow at h
  rw [List.any_eq_false] at h
  rw [List.isChain_iff_getElem]
  intro i hi
  have hm : (range[i], range[i + 1]) ∈ range.zip range.tail := by
    rw [List.mem_iff_getElem]
    refine ⟨i, by simp; omega, by simp⟩
  have := h _ hm
  simp only [decide_eq_true_eq, not_lt] at this
  linarith

theorem band_run {fast : ℕ → ℕ} (hf : ∀ n, n ≤ fast n) {argsort : List ℚ → List ℕ} {w : ℕ → List ℚ} {P R : FPatch} {d : String} (h : Whitenable P d)
    {range : List ℚ} (hr : range ≠ []) {water : Option ℚ} (hR : P.whiten fast argsort w [(d, some range)] none water = .ok R) :
    ∃ q r : PatchM ℂ, q.cm.ents.get? ("ft_" ++ d) =
        some (["ft_" ++ d], .one .float (.range (freqRange (fast (lenDim P.patch.cm d)) (spacingOf P.patch.cm d) (!P.isComplex)))) ∧
      q.cm.dims.idxOf ("ft_" ++ d) = P.patch.cm.dims.idxOf d ∧ q.data.shape = spectrumShape P.patch d (fast (lenDim P.patch.cm d)) (!P.isComplex) ∧
      (∀ i, InRange q.data.shape i → q.data.get i = heading (spectrumAt P.patch d (fast (lenDim P.patch.cm d)) (!P.isComplex) i)) ∧
      (range.IsChain fun a b => a + 1 / (fast (lenDim P.patch.cm d) * spacingOf P.patch.cm d) * 2 ≤ b) ∧
      q.taperRange (fun z x => z * (x : ℂ)) w ("ft_" ++ d) [range.map some] false false false = .ok r ∧
      (r.cm = q.cm → r.data.shape = q.data.shape →
        Restored ⟨P.patch.cm, ⟨P.patch.data.shape, synthesis P.patch d (fast (lenDim P.patch.cm d)) (!P.isComplex) r.data.get⟩⟩ R.patch [d] ∧
        R.isComplex = P.isComplex) := by
  have hdim : whitenDim P.patch.cm [(d, some range)] = .ok (d, range) := by
    show (if P.patch.cm.dims.contains d || P.patch.cm.dims.contains (ftName d) then Except.ok (d, range) else Except.error Err.parameterError) = _
    rw [if_pos (by simp [h.dim])]
  obtain ⟨q, h1, h2, h2', h3, h4, h5, h6, h7⟩ := whiten_run hf argsort w h hdim none water
  rw [h6, whiteAmp_none h1] at hR
  obtain ⟨amp, hamp, hR⟩ := bind_split hR
  cases hamp
  obtain ⟨r, hr1, hR⟩ := bind_split hR
  unfold PatchM.whiteBand at hr1
  rw [if_neg (by simpa using hr)] at hr1
  simp only [h1] at hr1
  split at hr1
  · cases hr1
  rename_i hnar
  refine ⟨⟨q.cm, ⟨q.data.shape, fun i => ((1 : ℝ) : ℂ) * heading (q.data.get i)⟩⟩, r, h1, h2, h3, ?_, notNarrow (by simpa using hnar), hr1, ?_⟩
  · intro i hi
    show ((1 : ℝ) : ℂ) * heading (q.data.get i) = _
    rw [Complex.ofReal_one, one_mul, h4 i hi]
  · intro e1 e2
    obtain ⟨R', g1, g2, g3, _⟩ := h7 r.data.get
    have : (⟨q.cm, ⟨q.data.shape, r.data.get⟩⟩ : PatchM ℂ) = r := by
      obtain ⟨rc, ⟨rs, rg⟩⟩ := r
      simp only at e1 e2
      subst e1 e2
      rfl
    rw [this, hR] at g1
    cases g1
    exact ⟨g2, g3⟩

/-- **C82.** With four limits of a band, at least two frequencies apart, the white spectrum is multiplied with a taper: zero before the first limit, rising up
to the second, one up to the third and falling to zero at the fourth. Missing: that whitening succeeds, as limits outside the frequencies raise. -/
theorem C82_band4_partial {fast : ℕ → ℕ} (hf : ∀ n, n ≤ fast n) {argsort : List ℚ → List ℕ} {w : ℕ → List ℚ} (hw : ∀ n, (w n).length = n) {P R : FPatch}
    {d : String} (h : Whitenable P d) {half : Bool} (hhalf : half = !P.isComplex) {n : ℕ} (hn : n = fast (lenDim P.patch.cm d)) {v1 v2 v3 v4 : ℚ}
    {water : Option ℚ} (hR : P.whiten fast argsort w [(d, some [v1, v2, v3, v4])] none water = .ok R) :
    ([v1, v2, v3, v4].IsChain fun a b => a + 1 / (n * spacingOf P.patch.cm d) * 2 ≤ b) ∧
    ∃ i1 i2 i3 i4, FirstFrom half n (spacingOf P.patch.cm d) v1 i1 ∧ FirstFrom half n (spacingOf P.patch.cm d) v2 i2 ∧
      FirstFrom half n (spacingOf P.patch.cm d) v3 i3 ∧ FirstFrom half n (spacingOf P.patch.cm d) v4 i4 ∧
      Restored ⟨P.patch.cm, ⟨P.patch.data.shape, synthesis P.patch d n half fun i =>
        heading (spectrumAt P.patch d n half i) * (rangeEnv w i1 i2 i3 i4 (posAlong P.patch d i) : ℚ)⟩⟩ R.patch [d] ∧ R.isComplex = P.isComplex := by
  subst hhalf hn
  obtain ⟨q, r, h1, h2, h3, h4, h5, h6, h7⟩ := band_run hf h (by simp) hR
  have hN1 : 1 ≤ fast (lenDim P.patch.cm d) := le_trans h.len_pos (hf _)
  have hst : 0 < 1 / (fast (lenDim P.patch.cm d) * spacingOf P.patch.cm d) := freq_step_pos hN1 h.ascending true
  refine ⟨h5, ?_⟩
  simp only [List.isChain_cons_cons, List.isChain_singleton, and_true] at h5
  obtain ⟨i1, i2, i3, i4, g1, g2, g3, g4, gc, gs, gd⟩ := taper4 hw h1 (freqRange_valid hN1 h.ascending.ne' _) (relative := false)
    (by simp; linarith [h5.1]) (by simp; linarith [h5.2.1]) (by simp; linarith [h5.2.2]) h6
  obtain ⟨k1, k2⟩ := h7 gc gs
  refine ⟨i1, i2, i3, i4, firstFrom g1, firstFrom g2, firstFrom g3, firstFrom g4, restored_congr k1 fun i hi => synthesis_congr h (fun j hj => ?_) hi, k2⟩
  rw [gd j, h4 j (by rw [h3]; exact hj)]
  unfold posAlong
  rw [h2]

/-- **C82.** With two limits the taper rises from the first frequency to the first limit and falls from the second limit to the last frequency. -/
theorem C82_band2_partial {fast : ℕ → ℕ} (hf : ∀ n, n ≤ fast n) {argsort : List ℚ → List ℕ} {w : ℕ → List ℚ} (hw : ∀ n, (w n).length = n) {P R : FPatch}
    {d : String} (h : Whitenable P d) {half : Bool} (hhalf : half = !P.isComplex) {n : ℕ} (hn : n = fast (lenDim P.patch.cm d)) {v1 v2 : ℚ}
    {water : Option ℚ} (hR : P.whiten fast argsort w [(d, some [v1, v2])] none water = .ok R) :
    v1 + 2 / (n * spacingOf P.patch.cm d) ≤ v2 ∧
    ∃ i1 i2, FirstFrom half n (spacingOf P.patch.cm d) v1 i1 ∧ FirstFrom half n (spacingOf P.patch.cm d) v2 i2 ∧
      Restored ⟨P.patch.cm, ⟨P.patch.data.shape, synthesis P.patch d n half fun i =>
        heading (spectrumAt P.patch d n half i) * (rangeEnv w 0 i1 i2 (bandCount half n) (posAlong P.patch d i) : ℚ)⟩⟩ R.patch [d] ∧
      R.isComplex = P.isComplex := by
  subst hhalf hn
  obtain ⟨q, r, h1, h2, h3, h4, h5, h6, h7⟩ := band_run hf h (by simp) hR
  have hN1 : 1 ≤ fast (lenDim P.patch.cm d) := le_trans h.len_pos (hf _)
  have hst : 0 < 1 / (fast (lenDim P.patch.cm d) * spacingOf P.patch.cm d) := freq_step_pos hN1 h.ascending true
  simp only [List.isChain_cons_cons, List.isChain_singleton, and_true] at h5
  refine ⟨by rw [show (2 : ℚ) / _ = 1 / (fast (lenDim P.patch.cm d) * spacingOf P.patch.cm d) * 2 by ring]; exact h5, ?_⟩
  obtain ⟨i1, i2, g1, g2, gc, gs, gd⟩ := taper2 hw h1 (freqRange_valid hN1 h.ascending.ne' _) (relative := false) (by simp; linarith [h5]) h6
  obtain ⟨k1, k2⟩ := h7 gc gs
  refine ⟨i1, i2, firstFrom g1, firstFrom g2, restored_congr k1 fun i hi => synthesis_congr h (fun j hj => ?_) hi, k2⟩
  rw [gd j, h4 j (by rw [h3]; exact hj)]
  unfold posAlong
  rw [h2]
  rfl

/-! ### Transformed patches -/

/-- **C82.** A patch that is already transformed along the dimension stays transformed: every element gets amplitude one and keeps its phase. -/
theorem C82_transformed {fast : ℕ → ℕ} {argsort : List ℚ → List ℕ} {w : ℕ → List ℚ} {P : FPatch} {d : String} (hd : d ∈ P.patch.cm.ents.keys)
    (hn : d ∉ P.patch.cm.dims) (hft : "ft_" ++ d ∈ P.patch.cm.dims) (hc : "ft_" ++ d ∈ P.patch.cm.ents.keys) (hf : ¬ "ift_".toList <+: d.toList)
    (hs : P.patch.cm.shape = P.patch.data.shape) {kw : Dict (Option (List ℚ))} (hk : AsksWhite kw d) (water : Option ℚ) :
    P.whiten fast argsort w kw none water =
      .ok ⟨⟨P.patch.cm, ⟨P.patch.data.shape, fun i => heading (P.patch.data.get i)⟩⟩, true, P.padded⟩ := by
  have hname : ftName d = "ft_" ++ d := ftName_eq hf
  have hdim : whitenDim P.patch.cm kw = .ok (d, []) := by
    rcases hk with rfl | ⟨rfl, rfl⟩
    rotate_left
    · unfold whitenDim
      rw [if_pos (by simpa using Or.inr hft)]
    show (if P.patch.cm.dims.contains d || P.patch.cm.dims.contains (ftName d) then Except.ok (d, []) else Except.error Err.parameterError) = _
    rw [if_pos (by simp [hname, hft])]
  have hu : (P.patch.cm.untransformed [d]).isEmpty = true := by
    simp [CM.untransformed, hn, hft]
  obtain ⟨x, hx⟩ := Dict.mem_keys.1 hc
  unfold FPatch.whiten
  simp only [hdim, bind, Except.bind]
  rw [C63_again (D := [d]) (by simp) (by simpa using ⟨hd, hn, hft⟩)]
  simp only [hname, whiteAmp_none hx]
  unfold PatchM.new
  rw [if_pos hs]
  simp only [whiteBand_nil, hu, if_true, exp_heading, Complex.ofReal_one, one_mul]
  rfl

/-! ### Refusals -/

/-- **C82.** Whitening is refused (ParameterError) for more than one dimension, for one the patch does not have, for a water level outside zero and one, for a
size that is not positive or not below the highest frequency, and for limits less than two frequencies apart. -/
theorem C82_refused {fast : ℕ → ℕ} (hf : ∀ n, n ≤ fast n) (argsort : List ℚ → List ℕ) (w : ℕ → List ℚ) :
    (∀ (P : FPatch) kw size water, 2 ≤ kw.length → P.whiten fast argsort w kw size water = .error .parameterError) ∧
    (∀ (P : FPatch) size water, "time" ∉ P.patch.cm.dims → "ft_time" ∉ P.patch.cm.dims → P.whiten fast argsort w [] size water = .error .parameterError) ∧
    (∀ (P : FPatch) d range size water, d ∉ P.patch.cm.dims → ftName d ∉ P.patch.cm.dims →
      P.whiten fast argsort w [(d, range)] size water = .error .parameterError) ∧
    (∀ (P : FPatch) d kw range size water, Whitenable P d → (kw = [(d, range)] ∨ kw = [] ∧ d = "time") →
      (∃ x, water = some x ∧ (x < 0 ∨ 1 < x)) ∨ size ≤ 0 ∨
        (∃ n half, n = fast (lenDim P.patch.cm d) ∧ half = !P.isComplex ∧ bandFrequency half n (spacingOf P.patch.cm d) (bandCount half n - 1) ≤ size) →
      P.whiten fast argsort w kw (some size) water = .error .parameterError) ∧
    ∀ (P : FPatch) d (range : List ℚ) water, Whitenable P d →
      (∃ (k : ℕ) (a b : ℚ), range[k]? = some a ∧ range[k + 1]? = some b ∧ b - a < 2 / (fast (lenDim P.patch.cm d) * spacingOf P.patch.cm d)) →
      P.whiten fast argsort w [(d, some range)] none water = .error .parameterError := by
  refine ⟨?_, ?_, ?_, ?_, ?_⟩
  · intro P kw size water hk
    unfold FPatch.whiten
    match kw, hk with
    | _ :: _ :: _, _ => rfl
  · intro P size water h1 h2
    unfold FPatch.whiten whitenDim
    rw [if_neg (by simp [h1, h2])]
    rfl
  · intro P d range size water h1 h2
    unfold FPatch.whiten
    have : whitenDim P.patch.cm [(d, range)] = .error .parameterError := by
      show (if P.patch.cm.dims.contains d || P.patch.cm.dims.contains (ftName d) then Except.ok (d, range.getD []) else Except.error Err.parameterError) = _
      rw [if_neg (by simp [h1, h2])]
    rw [this]
    rfl
  · intro P d kw range size water h hk hbad
    have hdim : ∃ r, whitenDim P.patch.cm kw = .ok (d, r) := by
      rcases hk with rfl | ⟨rfl, rfl⟩
      · refine ⟨range.getD [], ?_⟩
        show (if P.patch.cm.dims.contains d || P.patch.cm.dims.contains (ftName d) then Except.ok (d, range.getD []) else Except.error Err.parameterError) = _
        rw [if_pos (by simp [h.dim])]
      · exact ⟨[], asksWhite_dim h.dim (Or.inr ⟨rfl, rfl⟩)⟩
    obtain ⟨r, hr⟩ := hdim
    obtain ⟨q, h1, _, _, _, _, _, h6, _⟩ := whiten_run hf argsort w h hr (some size) water
    rw [h6]
    have hN1 : 1 ≤ fast (lenDim P.patch.cm d) := le_trans h.len_pos (hf _)
    have : q.whiteAmp ("ft_" ++ d) (some size) water = .error .parameterError := by
      unfold PatchM.whiteAmp
      rw [h1]
      have hc : checkSmooth (freqRange (fast (lenDim P.patch.cm d)) (spacingOf P.patch.cm d) (!P.isComplex)) size water = .error .parameterError := by
        unfold checkSmooth
        split_ifs with g1 g2 g3
        · rfl
        · rfl
        · rfl
        · exfalso
          rcases hbad with ⟨x, rfl, hx⟩ | hx | ⟨n, half, rfl, rfl, hx⟩
          · simp only [Option.any_some, decide_eq_true_eq] at g1
            exact g1 hx
          · exact g2 hx
          · rw [freq_cmax hN1 h.ascending] at g3
            exact g3 hx
      simp only [hc, bind, Except.bind]
    rw [this]
    rfl
  · rintro P d range water h ⟨k, a, b, ha, hb, hab⟩
    have hdim : whitenDim P.patch.cm [(d, some range)] = .ok (d, range) := by
      show (if P.patch.cm.dims.contains d || P.patch.cm.dims.contains (ftName d) then Except.ok (d, range) else Except.error Err.parameterError) = _
      rw [if_pos (by simp [h.dim])]
    obtain ⟨q, h1, _, _, _, _, _, h6, _⟩ := whiten_run hf argsort w h hdim none water
    rw [h6, whiteAmp_none h1]
    have hne : range ≠ [] := by rintro rfl; simp at ha
    have : ∀ r : PatchM ℂ, r.cm = q.cm → r.whiteBand w ("ft_" ++ d) range = .error .parameterError := by
      intro r hr
      unfold PatchM.whiteBand
      rw [if_neg (by simpa using hne), hr, h1]
      simp only
      rw [if_pos]
      by_contra hn
      have hn' : rangeTooNarrow (freqRange (fast (lenDim P.patch.cm d)) (spacingOf P.patch.cm d) (!P.isComplex)) range = false := by simpa using hn
      have := List.isChain_iff_getElem.1 (notNarrow hn')
      obtain ⟨hk', hk''⟩ := List.getElem?_eq_some_iff.1 hb
      obtain ⟨_, hk0⟩ := List.getElem?_eq_some_iff.1 ha
      have := this k hk'
      rw [hk'', hk0] at this
      have e : (freqRange (fast (lenDim P.patch.cm d)) (spacingOf P.patch.cm d) (!P.isComplex)).step * 2 = 2 / (fast (lenDim P.patch.cm d) * spacingOf P.patch.cm d) := by
        show 1 / _ * 2 = _
        ring
      rw [e] at this
      linarith
    have key := this ⟨q.cm, ⟨q.data.shape, fun i => (((1 : ℝ) : ℝ) : ℂ) * heading (q.data.get i)⟩⟩ rfl
    show (PatchM.whiteBand w ⟨q.cm, ⟨q.data.shape, fun i => (((1 : ℝ) : ℝ) : ℂ) * heading (q.data.get i)⟩⟩ _ _ >>= _) = _
    rw [key]
    rfl

/-! ### A case -/

theorem exTone_white : Whitenable exTone "time" := by
  refine ⟨exTone_ready, ⟨by decide, ?_, ?_, ?_, ?_⟩, by decide +kernel, ?_, (by intro h; cases h), ?_⟩
  · intro d hd
    obtain rfl := List.mem_singleton.1 hd
    exact ⟨by decide, _, _, rfl⟩
  · intro d hd
    obtain rfl := List.mem_singleton.1 hd
    exact ⟨rfl, rfl⟩
  · intro d hd
    obtain rfl := List.mem_singleton.1 hd
    decide
  · intro d hd
    obtain rfl := List.mem_singleton.1 hd
    decide
  · have : ∀ e ∈ ["time", "distance"], e ≠ "time" → ¬ "ft_".toList <+: e.toList := by decide
    exact this
  · intro _ i _
    show (10 * ((i.getD 0 0 : ℕ) : ℂ) + ((i.getD 1 0 : ℕ) : ℂ)).im = 0
    simp

/-- A window for the examples. -/
def flatWindow (n : ℕ) : List ℚ := List.replicate n 1

/-- Padding to multiples of 32. -/
def fast32 (n : ℕ) : ℕ := (n + 31) / 32 * 32

theorem fast32_le (n : ℕ) : n ≤ fast32 n := by unfold fast32; omega

example : AsksWhite [("time", none)] "time" ∧ AsksWhite [] "time" := ⟨Or.inl rfl, Or.inr ⟨rfl, rfl⟩⟩
example : (exTone.whiten fast32 stableArgsort flatWindow [("time", some [1/8, 1/4, 1/2, 3/4])] none none).map
    (fun R => (R.patch.cm.dims, R.patch.data.shape, R.isComplex)) = .ok (["time", "distance"], [3, 4], false) := by decide +kernel
example : (exTone.whiten fast8 stableArgsort flatWindow [("time", some [1/4, 3/4])] none none).map
    (fun R => (R.patch.cm.dims, R.patch.data.shape, R.isComplex)) = .ok (["time", "distance"], [3, 4], false) := by decide +kernel
/- The hypotheses of `C82_transformed`. -/
example : ((exTone.dft fast8 (some ["time"]) .no true).map fun P => decide ("time" ∈ P.patch.cm.ents.keys ∧ "time" ∉ P.patch.cm.dims ∧
    "ft_time" ∈ P.patch.cm.dims ∧ "ft_time" ∈ P.patch.cm.ents.keys ∧ P.patch.cm.shape = P.patch.data.shape)) = .ok true := by decide +kernel

/-- Thirteen times, a second apart. -/
def exSeconds : CM := ⟨["time"], [("time", ["time"], .one .time (.range ⟨0, 13000000000, 1000000000, 13⟩))]⟩

/-- A patch of thirteen samples. -/
noncomputable def exRecord (x : ℕ → ℂ) : FPatch := ⟨⟨exSeconds, ⟨[13], fun i => x (i.getD 0 0)⟩⟩, false, none⟩

/-- `scipy.fft.next_fast_len` up to thirteen: the factors of the length are 2, 3, 5, 7 and 11. -/
def fast13 (n : ℕ) : ℕ := if n = 13 then 14 else n

theorem fast13_le (n : ℕ) : n ≤ fast13 n := by unfold fast13; split_ifs <;> omega

theorem exSeconds_regular : Regular exSeconds where
  wf := CM.mk?_wf (m := exSeconds) (if_pos (by decide +kernel)) (by decide +kernel)
  distinct := by unfold DistinctDims; decide
  coordDims := by
    intro name ds c h
    simp only [exSeconds, List.mem_cons, Prod.mk.injEq, List.not_mem_nil, or_false] at h
    obtain ⟨_, rfl, _⟩ := h
    decide
  classes := by
    intro name ds k c h
    simp only [exSeconds, List.mem_cons, Prod.mk.injEq, List.not_mem_nil, or_false] at h
    obtain ⟨_, _, h⟩ := h
    cases h
    exact ⟨by decide +kernel, by decide +kernel, by decide +kernel⟩
  plain := by
    have : exSeconds.ents.keys.all (fun n => matchesPrefixSuffix exSeconds.dims n == false) = true := by decide +kernel
    intro n hn
    simpa using List.all_eq_true.1 this n hn

theorem exRecord_white {x : ℕ → ℂ} (hx : ∀ j, (x j).im = 0) : Whitenable (exRecord x) "time" where
  ready := by
    refine ⟨exSeconds_regular, readable_all (m := exSeconds) (by decide +kernel), ?_, by simp [exRecord, exSeconds], rfl⟩
    intro d hd
    obtain rfl : d = "time" := by simpa [exRecord, exSeconds] using hd
    exact ⟨.time, .range ⟨0, 13000000000, 1000000000, 13⟩, rfl⟩
  transformable := by
    refine ⟨by decide, ?_, ?_, ?_, ?_⟩
    · intro d hd
      obtain rfl := List.mem_singleton.1 hd
      exact ⟨by simp [exRecord, exSeconds], _, _, rfl⟩
    · intro d hd
      obtain rfl := List.mem_singleton.1 hd
      exact ⟨rfl, rfl⟩
    · intro d hd
      obtain rfl := List.mem_singleton.1 hd
      decide
    · intro d hd
      obtain rfl := List.mem_singleton.1 hd
      decide
  ascending := by
    have : 0 < spacingOf exSeconds "time" := by decide +kernel
    exact this
  others := by
    intro e he hn
    exact absurd (by simpa [exRecord, exSeconds] using he) hn
  long := by intro h; cases h
  real := fun _ i _ => hx _

theorem exSeconds_spacing : spacingOf exSeconds "time" = 1 := by decide +kernel

theorem exRecord_spectrum (x : ℕ → ℂ) (f : ℚ) (i : List ℕ) (hi : i.length = 1) :
    lineSpectrum (exRecord x).patch "time" f i = ∑ j ∈ Finset.range 13, x j * expi (f * j) := by
  rw [lineSpectrum_eq]
  refine Finset.sum_congr rfl fun j _ => ?_
  have hs : spacingOf (exRecord x).patch.cm "time" = 1 := exSeconds_spacing
  rw [hs]
  have hd : (exRecord x).patch.data.get (i.set ((exRecord x).patch.cm.dims.idxOf "time") j) = x j := by
    show x ((i.set 0 j).getD 0 0) = x j
    rw [getD_set_self (by omega)]
  rw [hd]
  show x j * (expi _ * _) = _
  simp

/-- The hypotheses of `C82_smooth_partial`: a pulse. -/
example : ∃ (M : ℝ), Whitenable (exRecord fun j => if j = 0 then 1 else 0) "time" ∧
    (1 / 10 : ℚ) < bandFrequency true 14 (spacingOf exSeconds "time") (bandCount true 14 - 1) ∧
    (((2 : ℕ) : ℚ) - 1) / (14 * spacingOf exSeconds "time") < 1 / 10 ∧ (1 / 10 : ℚ) ≤ (2 : ℕ) / (14 * spacingOf exSeconds "time") ∧
    IsGreatest (smoothed (exRecord fun j => if j = 0 then 1 else 0).patch "time" 14 true 2 ''
      {i | InRange (spectrumShape (exRecord fun j => if j = 0 then 1 else 0).patch "time" 14 true) i}) M ∧
    ∀ i, InRange (spectrumShape (exRecord fun j => if j = 0 then 1 else 0).patch "time" 14 true) i →
      atLevel (some (1 / 100)) M (smoothed (exRecord fun j => if j = 0 then 1 else 0).patch "time" 14 true 2 i) ≠ 0 := by
  have hsp : ∀ f i, i.length = 1 → lineSpectrum (exRecord fun j => if j = 0 then 1 else 0).patch "time" f i = 1 := by
    intro f i hi
    rw [exRecord_spectrum _ _ _ hi, Finset.sum_eq_single 0]
    · simp [expi_zero]
    · intro j _ hj; simp [hj]
    · simp
  have hsh : spectrumShape (exRecord fun j => if j = 0 then 1 else 0).patch "time" 14 true = [8] := rfl
  have hsm : ∀ i, InRange [8] i → smoothed (exRecord fun j => if j = 0 then 1 else 0).patch "time" 14 true 2 i = 1 := by
    intro i hi
    unfold smoothed spectrumAt
    rw [Finset.sum_congr rfl fun t _ => show _ = (1 : ℝ) by
      rw [hsp _ _ (by rw [List.length_set, inRange_length hi]; rfl), norm_one]]
    norm_num
  refine ⟨1, exRecord_white (fun j => by split_ifs <;> simp), by decide +kernel, by decide +kernel, by decide +kernel, ⟨?_, ?_⟩, ?_⟩
  · exact ⟨[0], by rw [hsh]; exact List.Forall₂.cons (by norm_num) .nil, hsm [0] (List.Forall₂.cons (by norm_num) .nil)⟩
  · rintro _ ⟨i, hi, rfl⟩
    rw [hsh] at hi
    rw [hsm i hi]
  · intro i hi
    rw [hsh] at hi
    rw [hsm i hi]
    unfold atLevel
    simp only
    norm_num

/-! ### Where whitening fails -/

theorem full_circle {n m : ℕ} (h0 : 0 < m) (hm : m < n) : ∑ k ∈ Finset.range n, expi (-((k : ℚ) * m / n)) = 0 := by
  have := wave_sum (n := n) (j := 0) (m := m) (by omega) hm
  rw [if_neg (by omega)] at this
  rw [← this]
  refine Finset.sum_congr rfl fun k _ => ?_
  simp [expi_zero]

theorem full_circle' {n m : ℕ} (h0 : 0 < m) (hm : m < n) : ∑ k ∈ Finset.range n, expi ((m : ℚ) * k / n) = 0 := by
  have := wave_sum (n := n) (j := m) (m := 0) hm (by omega)
  rw [if_neg (by omega)] at this
  rw [← this]
  refine Finset.sum_congr rfl fun k _ => ?_
  simp [expi_zero]

/-- C82 fails: a whitened patch is not white if the transform pads it. Thirteen equal samples are whitened to thirteen equal samples: their Fourier sums are zero at all
frequencies of the transform other than zero. -/
theorem C82_padded_violated : ∃ R, (exRecord fun _ => 1).whiten fast13 stableArgsort flatWindow [("time", none)] none none = .ok R ∧
    (∀ j < 13, R.patch.data.get [j] = 1 / 7) ∧
    ∀ k : ℕ, 0 < k → k < 13 → ∑ j ∈ Finset.range 13, R.patch.data.get [j] * wave ((k : ℚ) / 13 * j) = 0 := by
  have hW := exRecord_white (x := fun _ => 1) (by simp)
  obtain ⟨R, h1, h2, _⟩ := C82_white_partial fast13_le stableArgsort flatWindow hW (Or.inl rfl) none
  have hlen : lenDim (exRecord fun _ => 1).patch.cm "time" = 13 := rfl
  have hf : fast13 13 = 14 := rfl
  rw [hlen, hf] at h2
  have hd : ∀ j < 13, R.patch.data.get [j] = 1 / 7 := by
    intro j hj
    have e := h2.data [j] (List.Forall₂.cons hj .nil)
    change _ = whiteSignal (exRecord fun _ => 1).patch "time" 14 [j] at e
    rw [e]
    unfold whiteSignal
    have hs : spacingOf (exRecord fun _ => 1).patch.cm "time" = 1 := exSeconds_spacing
    have hp : posAlong (exRecord fun _ => 1).patch "time" [j] = j := rfl
    rw [hs, hp]
    have key : ∀ k ∈ Finset.range 14, heading (lineSpectrum (exRecord fun _ => 1).patch "time" (k / (((14 : ℕ) : ℚ) * 1)) [j]) * wave (-((k : ℚ) * j / (14 : ℕ))) =
        (if k = 0 then 2 else 0) - expi (-((k : ℚ) * (j + 1 : ℕ) / (14 : ℕ))) := by
      intro k hk
      have hk' := Finset.mem_range.1 hk
      rw [exRecord_spectrum _ _ _ rfl]
      split_ifs with h0
      · subst h0
        have : ∑ j ∈ Finset.range 13, (1 : ℂ) * expi (((0 : ℕ) : ℚ) / (((14 : ℕ) : ℚ) * 1) * j) = 13 := by simp [expi_zero]
        rw [this]
        have hh : heading 13 = 1 := by
          unfold heading
          rw [if_neg (by norm_num)]
          norm_num
        rw [hh]
        show 1 * expi _ = _
        simp [expi_zero]
        norm_num
      · have e1 : ∑ j ∈ Finset.range 13, (1 : ℂ) * expi ((k : ℚ) / (((14 : ℕ) : ℚ) * 1) * j) = -expi (-((k : ℚ) / (14 : ℕ))) := by
          have := full_circle' (n := 14) (m := k) (by omega) hk'
          rw [Finset.sum_range_succ] at this
          have e13 : expi ((k : ℚ) * ((13 : ℕ) : ℚ) / (14 : ℕ)) = expi (-((k : ℚ) / (14 : ℕ))) := by
            rw [show (k : ℚ) * ((13 : ℕ) : ℚ) / (14 : ℕ) = -((k : ℚ) / (14 : ℕ)) + (k : ℕ) by push_cast; ring, expi_add, expi_nat, mul_one]
          rw [e13] at this
          rw [← eq_neg_of_add_eq_zero_left this]
          refine Finset.sum_congr rfl fun j _ => ?_
          rw [one_mul]
          congr 1
          push_cast; ring
        rw [e1]
        have hne : expi (-((k : ℚ) / (14 : ℕ))) ≠ 0 := Complex.exp_ne_zero _
        have hno : ‖expi (-((k : ℚ) / (14 : ℕ)))‖ = 1 := norm_wave _
        have hh : heading (-expi (-((k : ℚ) / (14 : ℕ)))) = -expi (-((k : ℚ) / (14 : ℕ))) := by
          unfold heading
          rw [if_neg (neg_ne_zero.2 hne), norm_neg, hno]
          simp
        rw [hh, zero_sub, neg_mul]
        congr 1
        show _ * expi _ = _
        rw [← expi_add]
        congr 1
        push_cast; ring
    rw [Finset.sum_congr rfl key, Finset.sum_sub_distrib, full_circle (n := 14) (m := j + 1) (by omega) (by omega), Finset.sum_ite_eq' (Finset.range 14) 0]
    simp
    norm_num
  refine ⟨R, h1, hd, ?_⟩
  intro k h0 hk
  have : ∀ j ∈ Finset.range 13, R.patch.data.get [j] * wave ((k : ℚ) / 13 * j) = 1 / 7 * expi ((k : ℚ) * j / (13 : ℕ)) := by
    intro j hj
    rw [hd j (Finset.mem_range.1 hj)]
    congr 1
    show expi _ = _
    congr 1
    push_cast; ring
  rw [Finset.sum_congr rfl this, ← Finset.mul_sum, full_circle' h0 hk, mul_zero]

/-- C82 fails for dead traces: zeros are whitened to a spike at the first sample. -/
theorem C82_dead_violated : ∃ R, (exRecord fun _ => 0).whiten fast13 stableArgsort flatWindow [("time", none)] none none = .ok R ∧
    R.patch.data.get [0] = 1 ∧ ∀ j, 0 < j → j < 13 → R.patch.data.get [j] = 0 := by
  have hW := exRecord_white (x := fun _ => 0) (by simp)
  obtain ⟨R, h1, h2, _⟩ := C82_white_partial fast13_le stableArgsort flatWindow hW (Or.inl rfl) none
  have hlen : lenDim (exRecord fun _ => 0).patch.cm "time" = 13 := rfl
  have hf : fast13 13 = 14 := rfl
  rw [hlen, hf] at h2
  have hd : ∀ j < 13, R.patch.data.get [j] = (∑ k ∈ Finset.range 14, expi (-((k : ℚ) * j / (14 : ℕ)))) / 14 := by
    intro j hj
    have e := h2.data [j] (List.Forall₂.cons hj .nil)
    change _ = whiteSignal (exRecord fun _ => 0).patch "time" 14 [j] at e
    rw [e]
    unfold whiteSignal
    have hs : spacingOf (exRecord fun _ => 0).patch.cm "time" = 1 := exSeconds_spacing
    have hp : posAlong (exRecord fun _ => 0).patch "time" [j] = j := rfl
    rw [hs, hp]
    have key : ∀ k ∈ Finset.range 14, heading (lineSpectrum (exRecord fun _ => 0).patch "time" (k / (((14 : ℕ) : ℚ) * 1)) [j]) * wave (-((k : ℚ) * j / (14 : ℕ))) =
        expi (-((k : ℚ) * j / (14 : ℕ))) := by
      intro k _
      rw [exRecord_spectrum _ _ _ rfl]
      simp only [zero_mul, Finset.sum_const_zero]
      have hh : heading 0 = 1 := if_pos rfl
      rw [hh, one_mul]
      rfl
    rw [Finset.sum_congr rfl key]
    push_cast
    norm_num
  refine ⟨R, h1, ?_, ?_⟩
  · rw [hd 0 (by norm_num)]
    simp [expi_zero]
  · intro j h0 hj
    rw [hd j hj, full_circle h0 (by omega), zero_div]

/-- C82 fails: the whitened patch is not in the domain of the patch if that is transformed along another dimension, which is transformed back too. -/
theorem C82_domain_violated : ((exTone.dft fast8 (some ["distance"]) .no true).map fun P => P.patch.cm.dims) = .ok ["time", "ft_distance"] ∧
    ((exTone.dft fast8 (some ["distance"]) .no true).bind fun P => P.whiten fast8 stableArgsort flatWindow [("time", none)] none none).map
      (fun R => R.patch.cm.dims) = .ok ["time", "distance"] := by
  constructor <;> decide +kernel

end Verif
