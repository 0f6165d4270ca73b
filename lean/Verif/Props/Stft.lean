import Verif.Proof.Stft
import Verif.Props.Window
import Verif.Props.Fourier
/-! # C83: short-time Fourier transforms and their inverse -/
namespace Verif
open Spec

theorem windowStep_samples {c : RangeCoord} {n o : ℕ} (hn : n ≤ c.len) (ho : o < n) :
    windowStep c (some (.count o)) none true (.count n) = .ok ((n : ℤ), some ((n : ℤ) - o)) := by
  unfold windowStep
  have h1 : c.sampleCount true true (.count n) = .ok (n : ℤ) := by
    rw [C42_samples]; exact if_neg (by omega)
  have h2 : c.sampleCount true true (.count o) = .ok (o : ℤ) := by
    rw [C42_samples]; exact if_neg (by omega)
  simp only [Option.isSome_none, Bool.and_false, Bool.false_eq_true, if_false, h1, bind, Except.bind, percentToSamps]
  have h3 : checkNotNegative (some (.count o)) = .ok () := by
    unfold checkNotNegative
    rw [if_neg]
    simp [WinReq.magnitude]
  have h4 : checkNotNegative none = .ok () := rfl
  have h5 : ∀ b, quantityToSamps c b none = .ok none := fun _ => rfl
  have h6 : quantityToSamps c (true || false) (some (.count o)) = .ok (some (o : ℤ)) := by
    show (c.sampleCount true true (.count o)).map some = _
    rw [h2]; rfl
  simp only [h3, h4, h5, h6]
  show checkStep n (some ((n : ℤ) - o)) = _
  unfold checkStep
  rw [if_neg]
  simp
  omega

/-- **C83** (partial: evenly sampled dimensions with ascending labels, windows that can be stored unaltered, no detrending). `stft` gives the Fourier sums of
the samples under the moved window, labelled with the centres of the slices and with the frequencies. -/
theorem C83_slices_partial {P : SPatch} (hp : Ready P.patch) {d : String} (hd : Sliceable P.patch.cm d) (hasc : 0 < spacingOf P.patch.cm d)
    {win : WinReq} {taper : TaperWin} {overlap : Option WinReq} {samples : Bool} {size : ℕ} {hop : Option ℤ}
    (hres : Resolves P.patch.cm d win none overlap samples size hop) {w : List ℚ} (hw : taper.get size = w) (hne : w ≠ []) (hlen : w.length ≤ size)
    (hh : 1 ≤ hop.getD size) (hhalf : w.length - w.length / 2 ≤ lenDim P.patch.cm d) (hsto : Storable w) :
    ∃ Q first count, P.stft d win taper overlap samples none = .ok Q ∧ Q.isComplex = true ∧
      Sliced P.patch Q.patch d w (hop.getD size).toNat size (!P.isComplex) first count := by
  obtain ⟨ds, k, c, hc, hres⟩ := hres
  obtain ⟨k', c', hc'⟩ := hd.even.2
  rw [hc] at hc'; cases hc'
  subst hw
  obtain ⟨wc, hwc, _⟩ := C14_represents_partial .float (taper.get size) hsto
  have hv : c.Valid := hp.regular.classes _ _ _ _ (Dict.mem_of_get? hc)
  set s : ShortTime := ⟨taper.get size, (hop.getD size).toNat, size, !P.isComplex⟩ with hs
  obtain ⟨A, cm, time, freq, hrun, hA, hS, htl, hfl, hshape⟩ := stft_run hp hd hc hres hs hne hlen hh hhalf hwc none
  have hsp : spacingOf P.patch.cm d = stepFloat k c.step := by rw [spacing_dx]; unfold dxOf; rw [hc]
  have hdx : 0 < stepFloat k c.step := hsp ▸ hasc
  have hstep : 0 < c.step := by
    rw [stepFloat_number] at hdx
    revert hdx
    unfold stepNumber
    cases k <;> intro h <;> linarith
  have hslen : lenDim P.patch.cm d = c.len := by unfold lenDim Ents.lenOf; rw [hc]; rfl
  have hgetd : P.patch.data.shape.getD (P.patch.cm.dims.idxOf d) 0 = lenDim P.patch.cm d := shape_getD hp.shape hd.even.1
  have hplen : P.patch.data.shape.length = P.patch.cm.dims.length := by rw [shape_dims hp.shape hd.even.1, List.length_map]
  have hax : P.patch.cm.dims.idxOf d < P.patch.data.shape.length := by rw [hplen]; exact List.idxOf_lt_length_of_mem hd.even.1
  have hsh : A.shape = (P.patch.cm.dims.map fun e => if e = d then (if (!P.isComplex) then size / 2 + 1 else size) else lenDim P.patch.cm e) ++
      [s.slices (lenDim P.patch.cm d)] := by
    rw [transform_shape hax hA, hgetd, shape_dims hp.shape hd.even.1, set_idxOf hp.regular.distinct _ hd.even.1]
    rfl
  have hhop : 1 ≤ s.hop := by show 1 ≤ (hop.getD size).toNat; omega
  have hmfft : 1 ≤ size := by
    have : 0 < (taper.get size).length := List.length_pos_iff.2 hne
    omega
  have hnd : d ∉ P.patch.cm.dims.map fun e => if e = d then "ft_" ++ d else e := by
    intro h
    obtain ⟨e, _, h⟩ := List.mem_map.1 h
    split_ifs at h with he
    · have := hd.free ("ft_" ++ d) (by simp)
      rw [h, hc] at this; cases this
    · exact he h
  have hidxd : cm.dims.idxOf d = P.patch.cm.dims.length := by
    rw [hS.dims, List.idxOf_append_of_notMem hnd]; simp
  have hidx : ∀ e ∈ P.patch.cm.dims, cm.dims.idxOf (if e = d then "ft_" ++ d else e) = P.patch.cm.dims.idxOf e := by
    intro e he
    rw [hS.dims, List.idxOf_append_of_mem (List.mem_map_of_mem (f := fun e => if e = d then "ft_" ++ d else e) he)]
    refine idxOf_rename (g := fun e => if e = d then "ft_" ++ d else e) ?_ he
    have := rename_inj hp.regular.wf (D := [d]) (by simpa using hd.free ("ft_" ++ d) (by simp))
    intro a ha b hb h
    refine this a ha b hb ?_
    simp only [List.mem_singleton]
    by_cases ha' : a = d <;> by_cases hb' : b = d <;> simp_all
  have hfreq : ∀ i, InRange A.shape i → label (⟨cm, A⟩ : PatchM ℂ) ("ft_" ++ d) i =
      some (some (((posAlong P.patch d i : ℚ) - (if (!P.isComplex) then 0 else (size / 2 : ℕ))) / (size * spacingOf P.patch.cm d))) := by
    intro i hi
    rw [label_dim hS.freq]
    have h1 := hidx d hd.even.1
    rw [if_pos rfl] at h1
    have h2 : posAlong (⟨cm, A⟩ : PatchM ℂ) ("ft_" ++ d) i = posAlong P.patch d i := by unfold posAlong; rw [h1]
    have h3 : posAlong P.patch d i < s.freqs := by
      have := inRange_axis hi (axis := P.patch.cm.dims.idxOf d) (by rw [transform_shape hax hA]; simp; omega)
      rw [transform_shape hax hA, set_concat_getD hax] at this
      exact this
    rw [h2, hfl]
    unfold sliceFreqs
    rw [List.getD_eq_getElem?_getD, List.getElem?_map, List.getElem?_map, List.getElem?_range h3]
    simp only [Option.map_some, Option.getD_some]
    rw [hsp, abs_of_pos hdx]
  refine ⟨_, s.before, s.slices (lenDim P.patch.cm d), hrun, rfl, hS.dims, hsh, ?_, fun k' r hr => by rw [hc] at hr; cases hr; exact ⟨_, hS.time⟩, hfreq, ?_, ?_, ?_, ?_, ?_⟩
  · intro k' r hr i hi
    rw [hc] at hr; cases hr
    rw [label_dim hS.time]
    have h2 : posAlong (⟨cm, A⟩ : PatchM ℂ) d i = i.getD P.patch.cm.dims.length 0 := by unfold posAlong; rw [hidxd]
    have h3 : i.getD P.patch.cm.dims.length 0 < s.slices c.len := by
      have hi' : InRange (P.patch.data.shape.set (P.patch.cm.dims.idxOf d) s.freqs ++ [s.slices c.len]) i := by
        have := transform_shape hax hA
        rw [hgetd, hslen] at this
        rw [← this]; exact hi
      have := (inRange_dropLast hi').2.1
      rwa [List.length_set, hplen] at this
    rw [h2, htl]
    unfold sliceTimes
    rw [List.getD_eq_getElem?_getD, List.getElem?_map, List.getElem?_map, List.getElem?_range h3]
    simp only [Option.map_some, Option.getD_some, Option.some.injEq]
    rw [abs_of_pos hstep, hv.cmin_eq, min_eq_left]
    · ring
    · have : (1 : ℚ) ≤ c.len := by exact_mod_cast hv.len_pos
      nlinarith
  · intro i hi f hf
    have hil : i.length = P.patch.data.shape.length + 1 := by
      rw [inRange_length hi]; show A.shape.length = _
      rw [transform_shape hax hA]; simp
    have hg := transform_slices (s := s) hlen (by exact hmfft) hdx.ne' hax hA hil
    have hf' := hfreq i hi
    rw [hf] at hf'
    simp only [Option.some.injEq] at hf'
    show A.get i = _
    rw [hg, hgetd, hplen, hsp, hf', hsp]
    have e : ∀ b : Bool, (((if b = true then 0 else size / 2 : ℕ) : ℕ) : ℚ) = if b = true then (0 : ℚ) else ((size / 2 : ℕ) : ℚ) := by
      intro b; split_ifs <;> simp
    rw [e]
    rfl
  · intro c' k' hk' hw'
    refine ⟨ShortTime.before_zero (s := s) hhop hw', ?_⟩
    have := ShortTime.last_zero (s := s) hhop hk' hw'
    unfold ShortTime.slices
    push_cast
    omega
  · intro c' h1 h2
    have hmid : s.mid = (taper.get size).length / 2 := rfl
    have hwl : 0 < (taper.get size).length := List.length_pos_iff.2 hne
    constructor
    · by_cases hb : s.before = 0
      · rw [hb] at h1
        have : 0 ≤ c' * (s.hop : ℤ) := mul_nonneg (by simpa using h1) (by positivity)
        have : 0 ≤ c' * ((hop.getD size).toNat : ℤ) := this
        omega
      · have ht := ShortTime.before_tight s (by omega)
        have hq : -((s.before * s.hop : ℕ) : ℤ) ≤ c' * s.hop := by
          push_cast
          have := mul_le_mul_of_nonneg_right h1 (by positivity : (0 : ℤ) ≤ s.hop)
          linarith
        have hq : -((s.before * s.hop : ℕ) : ℤ) ≤ c' * ((hop.getD size).toNat : ℤ) := hq
        have ht' : s.mid + s.before * s.hop < (taper.get size).length := ht
        rw [hmid] at ht'
        omega
    · have hl := ShortTime.last_near (s := s) hhop (n := lenDim P.patch.cm d)
      have h3 : c' ≤ (s.last (lenDim P.patch.cm d) : ℤ) - 1 := by
        unfold ShortTime.slices at h2
        push_cast at h2
        omega
      have := mul_le_mul_of_nonneg_right h3 (by positivity : (0 : ℤ) ≤ s.hop)
      have h4 : c' * ((hop.getD size).toNat : ℤ) ≤ ((s.last (lenDim P.patch.cm d) : ℤ) - 1) * s.hop := this
      rw [hmid] at hl
      omega
  · intro n ds x hx hds hsto' i hi
    have hn : n ≠ d := by
      rintro rfl
      rw [hc] at hx; cases hx
      simp at hds
    obtain ⟨y, hy, hy'⟩ := hS.kept n hn ds x hx hds
    have e1 : label (⟨cm, A⟩ : PatchM ℂ) n i = label P.patch n i := by
      refine label_kept hx hy' (canon_same hy) hsto' i fun e he => ?_
      have hem := hp.regular.wf.attached _ _ _ (Dict.mem_of_get? hx) e he
      have := hidx e hem
      rwa [if_neg (fun h : e = d => hds (h ▸ he))] at this
    rw [e1]
    unfold label
    rw [hx]
    cases ds with
    | nil => rfl
    | cons e ds =>
      simp only
      congr 1
      unfold labelAt
      congr 1
      apply List.map_congr_left
      intro b hb
      have hem := List.idxOf_lt_length_of_mem (hp.regular.wf.attached _ _ _ (Dict.mem_of_get? hx) b hb)
      have hil : i.length = P.patch.cm.dims.length + 1 := by
        rw [inRange_length hi]; show A.shape.length = _
        rw [transform_shape hax hA]; simp [hplen]
      rw [List.getD_eq_getElem?_getD, List.getD_eq_getElem?_getD, List.getElem?_dropLast, if_pos (by omega)]
  · intro n hn ds x hx hds
    exact hS.lost n hn ds x hx hds

/-- C83 for a window and an overlap which are given in samples. -/
theorem C83_samples_partial {P : SPatch} (hp : Ready P.patch) {d : String} (hd : Sliceable P.patch.cm d) (hasc : 0 < spacingOf P.patch.cm d)
    {n o : ℕ} (hn : n ≤ lenDim P.patch.cm d) (ho : o < n) {taper : TaperWin} {w : List ℚ} (hw : taper = .array w ∧ w.length ≤ n ∨ ∃ f, taper = .named f ∧ f n = w ∧ w.length = n)
    (hne : w ≠ []) (hsto : Storable w) :
    ∃ Q first count, P.stft d (.count n) taper (some (.count o)) true none = .ok Q ∧ Q.isComplex = true ∧
      Sliced P.patch Q.patch d w (n - o) n (!P.isComplex) first count := by
  obtain ⟨k, c, hc⟩ := hd.even.2
  have hslen : lenDim P.patch.cm d = c.len := by unfold lenDim Ents.lenOf; rw [hc]; rfl
  have hres : Resolves P.patch.cm d (.count n) none (some (.count o)) true n (some ((n : ℤ) - o)) := ⟨_, _, _, hc, windowStep_samples (by omega) ho⟩
  have hlen : w.length ≤ n := by
    rcases hw with ⟨_, h⟩ | ⟨_, _, _, h⟩
    · exact h
    · exact h.le
  have hget : taper.get n = w := by
    rcases hw with ⟨rfl, _⟩ | ⟨f, rfl, h, _⟩
    · rfl
    · exact h
  obtain ⟨Q, first, count, h1, h2, h3⟩ := C83_slices_partial hp hd hasc hres hget hne hlen (by simp; omega) (by omega) hsto
  refine ⟨Q, first, count, h1, h2, ?_⟩
  have : ((some ((n : ℤ) - o)).getD n).toNat = n - o := by simp
  rwa [this] at h3

/-- **C83** (partial: windows that can be stored unaltered; every coordinate is that of a dimension or attached to the dimension transformed). The inverse of a
short-time transform is the patch again, if every sample is seen by the windows. -/
theorem C83_roundtrip_partial {P : SPatch} (hp : Ready P.patch) (hdat : P.isComplex = false → ∀ i, InRange P.patch.data.shape i → (P.patch.data.get i).im = 0)
    {d : String} (hd : Sliceable P.patch.cm d) (hown : ∀ n ds x, P.patch.cm.ents.get? n = some (ds, x) → d ∉ ds → n ∈ P.patch.cm.dims)
    {win : WinReq} {taper : TaperWin} {overlap : Option WinReq} {samples : Bool} {size : ℕ} {hop : Option ℤ}
    (hres : Resolves P.patch.cm d win none overlap samples size hop) {w : List ℚ} (hw : taper.get size = w) (hlen : w.length ≤ size)
    (hh : 1 ≤ hop.getD size) (hhalf : w.length - w.length / 2 ≤ lenDim P.patch.cm d) (hsto : Storable w) (hcov : SeesAll w (hop.getD size).toNat) :
    ∃ Q R, P.stft d win taper overlap samples none = .ok Q ∧ Q.istft = .ok R ∧ R.isComplex = P.isComplex ∧ R.info = none ∧ Restored P.patch R.patch [d] := by
  obtain ⟨ds, k, c, hc, hres⟩ := hres
  obtain ⟨k', c', hc'⟩ := hd.even.2
  rw [hc] at hc'; cases hc'
  subst hw
  have hne : taper.get size ≠ [] := by
    intro h
    have := hcov.1
    rw [h] at this
    simp at this
    omega
  obtain ⟨wc, hwc, hwl, _⟩ := C14_represents_partial .float (taper.get size) hsto
  set s : ShortTime := ⟨taper.get size, (hop.getD size).toNat, size, !P.isComplex⟩ with hs
  obtain ⟨A, cm, time, freq, hrun, hA, hS, _, _, _⟩ := stft_run hp hd hc hres hs hne hlen hh hhalf hwc none
  obtain ⟨R, hR, h1, h2, h3⟩ := istft_run hp hd hc hown (s := s) (by show 1 ≤ (hop.getD size).toNat; omega) hlen hcov
    (by intro h; exact hdat (by simpa [hs] using h)) hA hS (vals_of_some hne hwl)
  refine ⟨_, R, hrun, hR, ?_, h2, h3⟩
  rw [h1]
  show (!(!P.isComplex)) = _
  simp

/-! ### What is refused -/

/-- C83: the dimension has to exist and to be evenly sampled, the window array has to fit into what is transformed, and the patch has to be at least half a
window long. -/
theorem C83_refused (P : SPatch) (d : String) (win : WinReq) (taper : TaperWin) (overlap : Option WinReq) (samples : Bool) (detr : Option ((ℕ → ℂ) → ℕ → ℂ)) :
    (d ∉ P.patch.cm.dims → P.stft d win taper overlap samples detr = .error .parameterError) ∧
    (d ∈ P.patch.cm.dims → (∀ ds k c, P.patch.cm.ents.get? d ≠ some (ds, .one k (.range c))) → P.stft d win taper overlap samples detr = .error .coordError) ∧
    (d ∈ P.patch.cm.dims → ∀ size hop, Resolves P.patch.cm d win none overlap samples size hop →
      (taper.get size = [] ∨ size < (taper.get size).length ∨
        P.patch.data.shape.getD (P.patch.cm.dims.idxOf d) 0 < (taper.get size).length - (taper.get size).length / 2) →
      P.stft d win taper overlap samples detr = .error .valueError) := by
  refine ⟨fun h => if_pos h, fun hd h => ?_, fun hd size hop hres h => ?_⟩
  · unfold SPatch.stft
    rw [if_neg (by simpa using hd)]
    split
    · next k c hc => exact absurd hc (h _ _ _)
    · rfl
  · obtain ⟨ds, k, c, hc, hres⟩ := hres
    unfold SPatch.stft
    rw [if_neg (by simpa using hd), hc]
    simp only [hres, bind, Except.bind]
    by_cases hmake : ((taper.get size).isEmpty || decide (hop.getD size < 1) || decide (size < ((taper.get size).length : ℤ))) = true
    · unfold ShortTime.make
      rw [if_pos hmake]
    · unfold ShortTime.make
      rw [if_neg hmake]
      simp only [Bool.or_eq_true, List.isEmpty_iff, decide_eq_true_eq, not_or, not_lt] at hmake
      rcases h with h | h | h
      · exact absurd h hmake.1.1
      · omega
      · simp only
        unfold ShortTime.transform
        rw [if_pos]
        exact h

/-- C83: only what `stft` made can be inverted; not after detrending, nor if the windows leave samples out. -/
theorem C83_not_inverted {P : SPatch} : (P.info = none → P.istft = .error .patchAttributeError) ∧
    (∀ {d : String} {win : WinReq} {taper : TaperWin} {overlap : Option WinReq} {samples : Bool} {detr : Option ((ℕ → ℂ) → ℕ → ℂ)} {size : ℕ} {hop : Option ℤ},
      Ready P.patch → Sliceable P.patch.cm d → Resolves P.patch.cm d win none overlap samples size hop → Storable (taper.get size) →
      (∃ x ∈ taper.get size, x ≠ 0) → (taper.get size).length ≤ size → 1 ≤ hop.getD size →
      (taper.get size).length - (taper.get size).length / 2 ≤ lenDim P.patch.cm d → (detr ≠ none ∨ ¬ SeesAll (taper.get size) (hop.getD size).toNat) →
      ∃ Q, P.stft d win taper overlap samples detr = .ok Q ∧ Q.istft = .error .patchAttributeError) := by
  refine ⟨fun h => by unfold SPatch.istft; rw [h], ?_⟩
  intro d win taper overlap samples detr size hop hp hd hres hsto hx hlen hh hhalf hor
  obtain ⟨ds, k, c, hc, hres⟩ := hres
  obtain ⟨k', c', hc'⟩ := hd.even.2
  rw [hc] at hc'; cases hc'
  obtain ⟨x, hx, hx0⟩ := hx
  have hne : taper.get size ≠ [] := by intro h; rw [h] at hx; cases hx
  obtain ⟨wc, hwc, hwl, _⟩ := C14_represents_partial .float (taper.get size) hsto
  set s : ShortTime := ⟨taper.get size, (hop.getD size).toNat, size, !P.isComplex⟩ with hs
  obtain ⟨A, cm, time, freq, hrun, hA, hS, _, _, _⟩ := stft_run hp hd hc hres hs hne hlen hh hhalf hwc detr
  refine ⟨_, hrun, ?_⟩
  have hshort : StftInfo.short ⟨d, "ft_" ++ d, s.hop, s.mfft, s.onesided, detr.isSome⟩ cm = .ok s := by
    unfold StftInfo.short
    rw [hS.win]
    simp only [MCoord.reals, bind, Except.bind, vals_of_some hne hwl]
    unfold ShortTime.make
    rw [if_neg]
    · simp [hs]; omega
    · simp only [Bool.or_eq_true, List.isEmpty_iff, decide_eq_true_eq, not_or, not_lt]
      refine ⟨⟨hne, ?_⟩, by exact_mod_cast hlen⟩
      show (1 : ℤ) ≤ ((hop.getD size).toNat : ℕ)
      omega
  have hcond : (detr.isSome || !s.invertible) = true := by
    rcases hor with h | h
    · cases detr with
      | none => exact absurd rfl h
      | some f => rfl
    · have hl : 1 ≤ s.len := List.length_pos_iff.2 hne
      have hh' : 1 ≤ s.hop := by show 1 ≤ (hop.getD size).toNat; omega
      rw [covers_iff (s := s) hh' hl] at h
      have hmax : s.maxNorm ≠ 0 := by
        intro h0
        obtain ⟨j, hj, hjx⟩ := List.mem_iff_getElem.1 hx
        have hle := maxNorm_le (s := s) (j := j) hj
        rw [h0] at hle
        have hsq : s.win.getD j 0 ^ 2 ≤ s.norm j := by
          unfold ShortTime.norm
          refine le_add_of_nonneg_right (List.sum_nonneg ?_)
          intro y hy
          obtain ⟨t, _, rfl⟩ := List.mem_map.1 hy
          split_ifs <;> positivity
        have hw : s.win.getD j 0 = x := by
          show (taper.get size).getD j 0 = x
          rw [List.getD_eq_getElem?_getD, List.getElem?_eq_getElem hj, hjx]; rfl
        rw [hw] at hsq
        have : 0 < x ^ 2 := by positivity
        linarith
      have : s.invertible = false := by
        by_contra hc
        exact h ⟨by simpa using hc, hmax⟩
      rw [this]
      simp
  unfold SPatch.istft
  simp only
  rw [if_neg (by
    rw [not_or, not_not, not_not, hS.dims]
    exact ⟨by simp, List.mem_append_left _ (List.mem_map.2 ⟨d, hd.even.1, if_pos rfl⟩)⟩)]
  simp only [hshort, bind, Except.bind, hcond, if_true]

/-! ### A case -/

/-- Three times and four distances; a coordinate along the distances. -/
noncomputable def exSlices : SPatch := ⟨exTone.patch, false, none⟩

theorem exSlices_distance : Sliceable exSlices.patch.cm "distance" where
  even := ⟨by decide, _, _, rfl⟩
  free := by decide +kernel
  forward := by decide
  plain := by decide

theorem exSlices_time : Sliceable exSlices.patch.cm "time" where
  even := ⟨by decide, _, _, rfl⟩
  free := by decide +kernel
  forward := by decide
  plain := by decide

theorem storable_pair : Storable [1, 2] := Or.inr (Or.inl ⟨1, 1, 2, by decide, by decide +kernel⟩)

theorem covers_pair : SeesAll [1, 2] 1 := by
  refine ⟨by decide, fun i j hi hj => ?_⟩
  have hi' : i = 0 ∨ i = 1 := by simp at hi; omega
  have hj' : j = 0 ∨ j = 1 := by simp at hj; omega
  rcases hi' with rfl | rfl <;> rcases hj' with rfl | rfl <;> constructor <;> decide +kernel

example : Ready exSlices.patch ∧ Sliceable exSlices.patch.cm "distance" ∧ 0 < spacingOf exSlices.patch.cm "distance" ∧
    Resolves exSlices.patch.cm "distance" (.count 3) none (some (.count 2)) true 3 (some 1) ∧ 3 ≤ lenDim exSlices.patch.cm "distance" ∧ Storable [1, 2] ∧ SeesAll [1, 2] 1 ∧
    (∀ n ds x, exSlices.patch.cm.ents.get? n = some (ds, x) → "distance" ∉ ds → n ∈ exSlices.patch.cm.dims) ∧
    ∀ i, InRange exSlices.patch.data.shape i → (exSlices.patch.data.get i).im = 0 := by
  refine ⟨exTone_ready, exSlices_distance, by decide +kernel, ⟨_, _, _, rfl, by decide +kernel⟩, by decide +kernel, storable_pair, covers_pair, ?_, ?_⟩
  · intro n ds x h hn
    have := Dict.mem_of_get? h
    simp only [exSlices, exTone, List.mem_cons, Prod.mk.injEq, List.not_mem_nil, or_false] at this
    rcases this with ⟨rfl, rfl, _⟩ | ⟨rfl, rfl, _⟩ | ⟨rfl, rfl, _⟩
    · decide
    · decide
    · simp at hn
  · intro i _
    show (10 * ((i.getD 0 0 : ℕ) : ℂ) + ((i.getD 1 0 : ℕ) : ℂ)).im = 0
    simp

example : (exSlices.stft "distance" (.count 3) (.array [1, 2]) (some (.count 2)) true none).map (fun Q => (Q.patch.cm.dims, Q.patch.data.shape)) =
    .ok (["time", "ft_distance", "distance"], [3, 2, 5]) := by decide +kernel

example : ((exSlices.stft "distance" (.count 3) (.array [1, 2]) (some (.count 2)) true none).bind SPatch.istft).map
    (fun R => (R.patch.cm.dims, R.patch.data.shape, R.isComplex)) = .ok (["time", "distance"], [3, 4], false) := by decide +kernel

/- A window that leaves samples out, for `C83_not_inverted`. -/
example : ¬ SeesAll [1, 0] 2 := by
  intro h
  have := (h.2 0 1 (by decide) (by decide)).1
  revert this
  decide +kernel

/-! ### Where it fails -/

/-- Descending labels. -/
noncomputable def exFalling : SPatch := ⟨exFall.patch, false, none⟩

/-- C83 fails for descending labels: those of the slices ascend from the least one, although the slices follow the samples. -/
theorem C83_descending_violated : ∃ Q, exFalling.stft "distance" (.count 2) (.array [1, 2]) (some (.count 1)) true none = .ok Q ∧
    ∀ first count, ¬ Sliced exFalling.patch Q.patch "distance" [1, 2] 1 2 true first count := by
  have key : (exFalling.stft "distance" (.count 2) (.array [1, 2]) (some (.count 1)) true none).map (fun Q =>
      (label Q.patch "distance" [0, 0], label Q.patch "distance" [0, 1], Q.patch.data.shape)) = .ok (some (some 5), some (some 6), [2, 6]) := by decide +kernel
  obtain ⟨Q, hQ, h⟩ := except_map_ok key
  simp only [Prod.mk.injEq] at h
  refine ⟨Q, hQ, fun first count hs => ?_⟩
  have h0 := hs.time .float ⟨9, 4, -1, 5⟩ rfl [0, 0] (by rw [h.2.2]; exact inRange_iff.2 ⟨rfl, by decide⟩)
  have h1 := hs.time .float ⟨9, 4, -1, 5⟩ rfl [0, 1] (by rw [h.2.2]; exact inRange_iff.2 ⟨rfl, by decide⟩)
  rw [h.1] at h0
  rw [h.2.1] at h1
  simp only [Option.some.injEq] at h0 h1
  have e : exFalling.patch.cm.dims.length = 1 := rfl
  rw [e] at h0 h1
  norm_num at h0 h1
  linarith

/-- C83 fails for the inverse if there is a coordinate which belongs to another dimension, but is not its own: it raises. -/
theorem C83_extra_coordinate_violated : (exSlices.stft "time" (.count 2) (.array [1, 2]) (some (.count 1)) true none).isOk = true ∧
    ((exSlices.stft "time" (.count 2) (.array [1, 2]) (some (.count 1)) true none).bind SPatch.istft).map (fun R => R.patch.data.shape) = .error .coordError := by
  constructor <;> decide +kernel

/-- C83 fails for windows which are nearly evenly spaced: another window is kept, and the inverse would use that one. -/
theorem C83_window_violated : (exSlices.stft "distance" (.count 3) (.array [1, 2, 3001 / 1000]) none true none).map (fun Q =>
    (Q.patch.cm.ents.get? "_stft_window").map fun e => e.2.reals) = .ok (some (.ok [1, 2001 / 1000, 3002 / 1000])) := by decide +kernel

/-- C83 fails for the inverse after the dimensions are transposed: it raises. -/
theorem C83_transposed_violated : ((exSlices.stft "distance" (.count 3) (.array [1, 2]) (some (.count 2)) true none).bind fun Q =>
    ((Q.patch.transpose [.dim "distance", .dim "ft_distance", .dim "time"]).bind fun q => SPatch.istft ⟨q, Q.isComplex, Q.info⟩)).map (fun R => R.patch.data.shape) =
      .error .assertionError := by decide +kernel

end Verif
