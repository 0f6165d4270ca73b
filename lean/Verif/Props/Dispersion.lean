import Verif.Spec.Dispersion
import Verif.Props.TauP
import Verif.Props.PatchShape
import Verif.Proof.Hilbert
/-! # C81: dispersion images -/
namespace Verif
open Spec

theorem expi_wave (x : ℚ) : expi x = wave x := rfl

theorem unitOrZero_phase (z : ℂ) : unitOrZero z = phaseOf z := by
  unfold unitOrZero phaseOf
  split_ifs with h
  · rw [h]; simp
  · rfl

theorem phase_le (z : ℂ) : ‖phaseOf z‖ ≤ 1 := by
  unfold phaseOf
  rw [norm_div, Complex.norm_real, norm_norm]
  exact div_self_le_one _

theorem norm_wave (x : ℚ) : ‖wave x‖ = 1 := by
  unfold wave
  have : -(2 * (Real.pi : ℂ) * (x : ℂ)) * Complex.I = ((-(2 * Real.pi * x) : ℝ) : ℂ) * Complex.I := by push_cast; ring
  rw [this, Complex.norm_exp_ofReal_mul_I]

theorem freqs_get {nf k : ℕ} (fs : ℚ) (h : k < nf) : (dispersionFreqs nf fs)[k]? = some ((k : ℚ) * fs / ((nf : ℚ) - 1)) := by
  unfold dispersionFreqs
  rw [List.getElem?_map, List.getElem?_range h]
  rfl

theorem firstAtLeast_spec {nf : ℕ} {fs x : ℚ} (hfs : 0 < fs) (hn : 2 ≤ nf) (hx : x ≤ fs) (k : ℕ) :
    firstAtLeast (dispersionFreqs nf fs) x < nf ∧ (firstAtLeast (dispersionFreqs nf fs) x ≤ k ↔ x ≤ (k : ℚ) * fs / ((nf : ℚ) - 1)) := by
  have hlen : (dispersionFreqs nf fs).length = nf := by simp [dispersionFreqs]
  have hpos : (0 : ℚ) < (nf : ℚ) - 1 := by
    have : (2 : ℚ) ≤ nf := by exact_mod_cast hn
    linarith
  have hget : ∀ k (h : k < (dispersionFreqs nf fs).length), (dispersionFreqs nf fs)[k] = (k : ℚ) * fs / ((nf : ℚ) - 1) := by
    intro k h
    have := freqs_get fs (hlen ▸ h)
    rw [List.getElem?_eq_getElem h] at this
    simpa using this
  have hany : (dispersionFreqs nf fs).any (fun y => decide (x ≤ y)) = true := by
    rw [List.any_eq_true]
    refine ⟨(dispersionFreqs nf fs)[nf - 1]'(by omega), List.getElem_mem _, ?_⟩
    rw [hget, Nat.cast_sub (by omega), Nat.cast_one, mul_div_assoc, mul_div_cancel₀ _ hpos.ne']
    simpa using hx
  have hfa : firstAtLeast (dispersionFreqs nf fs) x = (dispersionFreqs nf fs).findIdx fun y => decide (x ≤ y) := if_pos hany
  rw [hfa]
  have hlt : (dispersionFreqs nf fs).findIdx (fun y => decide (x ≤ y)) < nf := by
    refine lt_of_lt_of_eq (List.findIdx_lt_length.2 ?_) hlen
    exact List.any_eq_true.1 hany
  refine ⟨hlt, fun h => ?_, fun h => ?_⟩
  · have h1 := List.findIdx_getElem (xs := dispersionFreqs nf fs) (p := fun y => decide (x ≤ y)) (w := by rw [hlen]; exact hlt)
    rw [hget] at h1
    refine (of_decide_eq_true h1).trans ?_
    have : (((dispersionFreqs nf fs).findIdx fun y => decide (x ≤ y) : ℕ) : ℚ) ≤ k := by exact_mod_cast h
    gcongr
  · by_contra hcon
    push Not at hcon
    have := List.not_of_lt_findIdx hcon
    rw [hget] at this
    simp [h] at this

theorem live_eq {nf a b : ℕ} (fs : ℚ) (hb : b ≤ nf) : ((dispersionFreqs nf fs).take b).drop a =
    (List.range (b - a)).map fun j : ℕ => ((a + j : ℕ) : ℚ) * fs / ((nf : ℚ) - 1) := by
  apply List.ext_getElem?
  intro j
  rw [List.getElem?_drop, List.getElem?_take, List.getElem?_map]
  by_cases h : a + j < b
  · rw [if_pos h, freqs_get fs (by omega), List.getElem?_range (by omega)]
    rfl
  · rw [if_neg h, List.getElem?_eq_none (by simp; omega)]
    rfl

theorem live_storable {nf : ℕ} {fs : ℚ} (hfs : 0 < fs) (hn : 2 ≤ nf) (a m : ℕ) :
    Storable ((List.range m).map fun j : ℕ => ((a + j : ℕ) : ℚ) * fs / ((nf : ℚ) - 1)) := by
  have hpos : (0 : ℚ) < (nf : ℚ) - 1 := by
    have : (2 : ℚ) ≤ nf := by exact_mod_cast hn
    linarith
  refine Or.inr (Or.inl ⟨(a : ℚ) * fs / ((nf : ℚ) - 1), fs / ((nf : ℚ) - 1), m, (by positivity), ?_⟩)
  unfold progression
  refine List.map_congr_left fun j _ => ?_
  push_cast
  ring

theorem limits_eq {dt : ℚ} (hdt : 0 < dt) {vs : List ℚ} {res : Option ℚ} {lim : Option (ℚ × ℚ)} (h : DispersionArgs dt vs res lim) :
    dispersionLimits dt lim = .ok (limitsFor dt lim) ∧ 0 ≤ (limitsFor dt lim).1 ∧ (limitsFor dt lim).1 ≤ 1 / dt ∧ 0 < (limitsFor dt lim).2 ∧ (limitsFor dt lim).2 ≤ 1 / dt := by
  have hn : 1 / 2 / dt = 1 / (2 * dt) := by rw [div_div]
  have hle : 1 / (2 * dt) ≤ 1 / dt := by
    apply one_div_le_one_div_of_le hdt
    linarith
  have hp : 0 < 1 / (2 * dt) := by positivity
  match lim, h with
  | none, h =>
    refine ⟨by simp only [dispersionLimits, limitsFor, hn], le_refl _, ?_, hp, hle⟩
    exact (one_div_pos.2 hdt).le
  | some (a, b), h =>
    obtain ⟨h1, h2, h3⟩ := h.lim a b rfl
    refine ⟨?_, h1.le, ?_, h1.trans h2, (h3.trans_le hle).le⟩
    · simp only [dispersionLimits, limitsFor, hn]
      rw [if_neg (by push Not; exact ⟨h1, h1.trans h2⟩), if_neg (not_le.2 h2), if_neg (by push Not; exact ⟨h2.trans h3, h3⟩)]
    · exact ((h2.trans h3).trans_le hle).le

theorem count_eq {nt : ℕ} {dt : ℚ} (hdt : 0 < dt) (hnt : nt ≠ 0) (res : Option ℚ) (hr : ∀ r, res = some r → 0 < r) :
    dispersionCount nt (1 / dt) res = frequencyCount nt dt res := by
  cases res with
  | none => rfl
  | some r =>
    have h0 : 0 < r := hr r rfl
    have hq : (nt : ℚ) ≠ 0 := by exact_mod_cast hnt
    simp only [dispersionCount, frequencyCount, truncZ]
    rw [mul_div_cancel₀ _ hq, if_pos (by positivity)]

section
variable {p : PatchM ℂ} {nx nt : ℕ} {x : ℕ → ℚ} {dt : ℚ} {vs : List ℚ} {res : Option ℚ} {lim : Option (ℚ × ℚ)}

theorem gather_transpose (hm : Regular p.cm) (hsh : p.cm.shape = p.data.shape) (hg : Gather p nx x nt dt) :
    ∃ t, p.transpose [.dim "distance", .dim "time"] = .ok t ∧ t.cm.ents = p.cm.ents ∧ ∀ i j, t.data.get [i, j] = sampleOf p i j := by
  have hne : p.cm.dims ≠ [] := by
    intro h
    have := hg.dims.length_eq
    rw [h] at this
    cases this
  obtain ⟨t, h1, h2⟩ := (C18_dims p hm.wf hm.distinct hne hsh [.dim "distance", .dim "time"] ["distance", "time"]).2
    ⟨Or.inr (Or.inl ⟨by simp, rfl⟩), hg.dims.symm⟩
  obtain ⟨-, h3, -, -, -, h4⟩ := transpose_data hm.wf hm.distinct hne hsh h1
  refine ⟨t, h1, by rw [h3], fun i j => ?_⟩
  rw [h4, h2]
  unfold sampleOf untranspose
  congr 1
  refine List.map_congr_left fun d hd => ?_
  have : d = "distance" ∨ d = "time" := by simpa using hg.dims.mem_iff.1 hd
  rcases this with rfl | rfl <;> rfl

theorem labels_given {c : Coord} {n : ℕ} {f : ℕ → ℚ} (h : c.labels = (List.range n).map fun i => some (f i)) : c.vals = (List.range n).map f := by
  have hinj : ∀ l m : List ℚ, l.map some = m.map some → l = m := fun l m h => (List.map_injective_iff.2 (Option.some_injective ℚ)) h
  have h' : c.labels = ((List.range n).map f).map some := by rw [h, List.map_map]; rfl
  cases c with
  | part m =>
    cases m with
    | zero =>
      have := congrArg List.length h'
      simp [Coord.labels] at this
      rw [← this]
      rfl
    | succ m =>
      simp only [Coord.labels, List.replicate_succ] at h'
      cases n with
      | zero => simp at h'
      | succ n => simp [List.range_succ_eq_map] at h'
  | range r => exact hinj _ _ h'
  | mono l => exact hinj _ _ h'
  | arr l => exact hinj _ _ h'

theorem dispersion_start (hm : Regular p.cm) (hsh : p.cm.shape = p.data.shape) (hg : Gather p nx x nt dt) (hnt : 2 ≤ nt) :
    ∃ (data : Nd ℂ) (t0 t1 : ℚ) (rest : List ℚ), (∀ i j, data.get [i, j] = sampleOf p i j) ∧ (t1 - t0) / 1000000000 = dt ∧ (t0 :: t1 :: rest).length = nt ∧
      p.dispersion vs res lim = dispersionOf data ((List.range nx).map x) (t0 :: t1 :: rest) vs res lim := by
  obtain ⟨t, h1, h2, h3⟩ := gather_transpose hm hsh hg
  obtain ⟨kd, c, hc, hl⟩ := hg.distance
  obtain ⟨t₀, hin, stop, ht⟩ := id hg.time
  have hv : (RangeCoord.mk t₀ stop (dt * 1000000000) nt).Valid := hm.classes _ _ _ _ (Dict.mem_of_get? ht)
  have hdd : "distance" ∈ p.cm.dims := hg.dims.mem_iff.2 (by simp)
  have hvals : (Coord.range ⟨t₀, stop, dt * 1000000000, nt⟩).vals = (List.range nt).map fun i : ℕ => t₀ + (i : ℚ) * (dt * 1000000000) := by
    apply List.ext_getElem?
    intro i
    change (RangeCoord.mk t₀ stop (dt * 1000000000) nt).values[i]? = _
    rw [hv.getElem?_values, List.getElem?_map]
    split_ifs with hi
    · rw [List.getElem?_range hi]; rfl
    · rw [List.getElem?_eq_none (by simpa using hi)]; rfl
  obtain ⟨m, rfl⟩ : ∃ m, nt = m + 2 := ⟨nt - 2, by omega⟩
  have hlist : (List.range (m + 2)).map (fun i : ℕ => t₀ + (i : ℚ) * (dt * 1000000000)) =
      (t₀ + ((0 : ℕ) : ℚ) * (dt * 1000000000)) :: (t₀ + ((1 : ℕ) : ℚ) * (dt * 1000000000)) ::
        ((List.range m).map fun i : ℕ => t₀ + ((i + 1 + 1 : ℕ) : ℚ) * (dt * 1000000000)) := by
    rw [List.range_succ_eq_map, List.range_succ_eq_map]
    simp [List.map_map, Function.comp_def]
  refine ⟨t.data, t₀ + ((0 : ℕ) : ℚ) * (dt * 1000000000), t₀ + ((1 : ℕ) : ℚ) * (dt * 1000000000),
    (List.range m).map fun i : ℕ => t₀ + ((i + 1 + 1 : ℕ) : ℚ) * (dt * 1000000000), h3, ?_, ?_, ?_⟩
  · push_cast; field_simp; ring
  · simp
  · unfold PatchM.dispersion
    rw [if_neg (by push Not; exact ⟨hin, hdd⟩)]
    simp only [bind, Except.bind, h1, h2, hc, ht]
    rw [hvals, labels_given hl, hlist]

theorem dispersion_run (hm : Regular p.cm) (hsh : p.cm.shape = p.data.shape) (hg : Gather p nx x nt dt) (hdt : 0 < dt) (hnt : 2 ≤ nt)
    (ha : DispersionArgs dt vs res lim) : ∃ data : Nd ℂ, (∀ i j, data.get [i, j] = sampleOf p i j) ∧
      p.dispersion vs res lim = if frequencyCount nt dt res = 0 then .error .valueError
        else dispersionPatch data nx nt (frequencyCount nt dt res) (1 / dt) ((List.range nx).map x) vs (limitsFor dt lim) := by
  obtain ⟨data, t0, t1, rest, h3, e1, hlen, hrun⟩ := dispersion_start (vs := vs) (res := res) (lim := lim) hm hsh hg hnt
  refine ⟨data, h3, ?_⟩
  rw [hrun]
  obtain ⟨l1, -, -, -, -⟩ := limits_eq hdt ha
  have hok := (velocities_iff vs).2 ⟨ha.positive, ha.increase⟩
  unfold velocitiesOk at hok
  rw [Bool.and_eq_true] at hok
  unfold dispersionOf
  simp only
  rw [e1, hok.2]
  have e2 : vs.any (fun v => decide (v ≤ 0)) = false := by
    rw [List.any_eq_false]
    intro v hv
    simpa using ha.positive v hv
  have e3 : res.any (fun r => decide (r ≤ 0)) = false := by
    cases hres : res with
    | none => rfl
    | some r => simpa using ha.res r hres
  simp only [Bool.not_true, Bool.false_eq_true, if_false, ha.some, e2, e3, bind, Except.bind, l1, hlen, List.length_map, List.length_range]
  rw [count_eq hdt (by omega) res ha.res]

theorem args_given {data : Nd ℂ} {xs rest : List ℚ} {t0 t1 : ℚ} {q : PatchM ℝ} (he : (t1 - t0) / 1000000000 = dt)
    (h : dispersionOf data xs (t0 :: t1 :: rest) vs res lim = .ok q) : DispersionArgs dt vs res lim := by
  have hn : 1 / 2 / dt = 1 / (2 * dt) := by rw [div_div]
  unfold dispersionOf at h
  simp only at h
  rw [he] at h
  split_ifs at h with a1 a2 a3 a4 a5
  · obtain ⟨l, -, h⟩ := bind_split h
    cases h
  obtain ⟨l, hl, -⟩ := bind_split h
  have hp : ∀ v ∈ vs, 0 < v := by
    intro v hv
    by_contra hc
    exact a3 (List.any_eq_true.2 ⟨v, hv, by simpa using hc⟩)
  have hok : velocitiesOk vs = true := by
    unfold velocitiesOk
    rw [Bool.and_eq_true]
    exact ⟨by simpa using hp, by simpa using a1⟩
  refine ⟨a2, hp, ((velocities_iff vs).1 hok).2, ?_, ?_⟩
  · intro r hr
    rw [hr] at a4
    simpa using a4
  · rintro a b rfl
    unfold dispersionLimits at hl
    simp only [hn] at hl
    split_ifs at hl with b1 b2 b3
    push Not at b1 b2 b3
    exact ⟨b1.1, b2, b3.2⟩

theorem fftTo_sum (data : Nd ℂ) (hd : ∀ i j, data.get [i, j] = sampleOf p i j) {n : ℕ} (hn : n ≠ 0) (hdt : 0 < dt) (c k : ℕ) :
    fftTo (fun j => data.get [c, j]) nt n k = channelSpectrum p nt n dt c ((k : ℚ) / (n * dt)) := by
  unfold fftTo channelSpectrum
  rw [list_sum_range]
  have h1 : ∀ j ∈ Finset.range n, (if j < nt then data.get [c, j] else 0) * expi ((j : ℚ) * k / n) =
      if j < nt then sampleOf p c j * wave ((k : ℚ) / (n * dt) * (j * dt)) else 0 := by
    intro j _
    have hnq : (n : ℚ) ≠ 0 := by exact_mod_cast hn
    split_ifs with h
    · rw [hd, expi_wave]
      congr 2
      field_simp
    · rw [zero_mul]
  rw [Finset.sum_congr rfl h1, ← Finset.sum_filter]
  refine Finset.sum_congr ?_ fun _ _ => rfl
  ext j
  simp [and_comm]

theorem image_eq (data : Nd ℂ) (hd : ∀ i j, data.get [i, j] = sampleOf p i j) {n : ℕ} (hn : n ≠ 0) (hdt : 0 < dt) (first : ℕ) (fs : List ℚ) (i : List ℕ) :
    (dispersionImage data nx nt n first ((List.range nx).map x) vs fs).get i =
      coherence nx x (fun c => phaseOf (channelSpectrum p nt n dt c (((first + i.getD 1 0 : ℕ) : ℚ) / (n * dt)))) (fs.getD (i.getD 1 0) 0) (vs.getD (i.getD 0 0) 0) := by
  unfold dispersionImage coherence
  simp only
  rw [list_sum_range, norm_div, Complex.norm_natCast]
  congr 2
  refine Finset.sum_congr rfl fun c hc => ?_
  have hc : c < nx := Finset.mem_range.1 hc
  rw [unitOrZero_phase, fftTo_sum data hd hn hdt, mul_comm, expi_wave]
  congr 2
  rw [List.getD_eq_getElem?_getD, List.getElem?_map, List.getElem?_range hc]
  simp only [Option.map_some, Option.getD_some]
  ring

/-- **C81**: the image of a gather. Of `n` frequencies from zero to the sampling rate it has those inside the limits; every velocity that was asked for has
a row; and a sample says how well the phases of the channels agree after they were shifted for a wave of the frequency and velocity of its labels. If no
frequency is inside the limits there is no image. Missing: the phases are those of the frequency `k / (n dt)`, and not those of the label
`k / ((n - 1) dt)` (`C81_velocity_violated`). -/
theorem C81_image_partial (hm : Regular p.cm) (hsh : p.cm.shape = p.data.shape) (hg : Gather p nx x nt dt) (hdt : 0 < dt) (hnt : 2 ≤ nt)
    (ha : DispersionArgs dt vs res lim) (hv : Storable vs) {n : ℕ} (hn : n = frequencyCount nt dt res) (h2 : 2 ≤ n) :
    ∃ k₀ k₁ : ℕ, k₁ < n ∧
      (∀ k : ℕ, (k₀ ≤ k ∧ k < k₁) ↔ (limitsFor dt lim).1 ≤ (k : ℚ) / ((n - 1) * dt) ∧ (k : ℚ) / ((n - 1) * dt) < (limitsFor dt lim).2) ∧
      (k₁ ≤ k₀ → p.dispersion vs res lim = .error .parameterError) ∧
      (k₀ < k₁ → ∃ q : PatchM ℝ, p.dispersion vs res lim = .ok q ∧ q.cm.dims = ["velocity", "frequency"] ∧ q.data.shape = [vs.length, k₁ - k₀] ∧
        ∀ i j, i < vs.length → j < k₁ - k₀ → ∃ v f : ℚ, vs[i]? = some v ∧ f = ((k₀ + j : ℕ) : ℚ) / ((n - 1) * dt) ∧
          label q "velocity" [i, j] = some (some v) ∧ label q "frequency" [i, j] = some (some f) ∧
          q.data.get [i, j] = coherence nx x (fun c => phaseOf (channelSpectrum p nt n dt c (((k₀ + j : ℕ) : ℚ) / (n * dt)))) f v) := by
  obtain ⟨data, hdata, hrun⟩ := dispersion_run hm hsh hg hdt hnt ha
  obtain ⟨-, l0, l1, l2, l3⟩ := limits_eq hdt ha
  have hfs : 0 < 1 / dt := one_div_pos.2 hdt
  rw [← hn, if_neg (by omega : ¬ n = 0)] at hrun
  have f1 := firstAtLeast_spec hfs h2 l1
  have f2 := firstAtLeast_spec hfs h2 l3
  have hlab : ∀ k : ℕ, (k : ℚ) * (1 / dt) / ((n : ℚ) - 1) = (k : ℚ) / ((n - 1) * dt) := by
    intro k
    rw [mul_one_div, div_div, mul_comm dt]
  simp only [hlab] at f1 f2
  unfold dispersionPatch at hrun
  simp only at hrun
  rw [live_eq _ (f2 0).1.le] at hrun
  simp only [hlab] at hrun
  refine ⟨firstAtLeast (dispersionFreqs n (1 / dt)) (limitsFor dt lim).1, firstAtLeast (dispersionFreqs n (1 / dt)) (limitsFor dt lim).2,
    (f2 0).1, fun k => ?_, fun h => ?_, fun h => ?_⟩
  · rw [(f1 k).2, ← not_le, (f2 k).2, not_le]
  · rw [hrun, if_pos h]
  · have hst := live_storable (nf := n) hfs h2 (firstAtLeast (dispersionFreqs n (1 / dt)) (limitsFor dt lim).1)
      (firstAtLeast (dispersionFreqs n (1 / dt)) (limitsFor dt lim).2 - firstAtLeast (dispersionFreqs n (1 / dt)) (limitsFor dt lim).1)
    simp only [hlab] at hst
    revert hrun hst h
    generalize firstAtLeast (dispersionFreqs n (1 / dt)) (limitsFor dt lim).1 = k₀
    generalize firstAtLeast (dispersionFreqs n (1 / dt)) (limitsFor dt lim).2 = k₁
    intro hrun h hst
    rw [if_neg (not_le.2 h)] at hrun
    obtain ⟨cv, a1, a2, a3⟩ := C14_represents_partial .float vs hv
    obtain ⟨cf, b1, b2, b3⟩ := C14_represents_partial .float _ hst
    simp only [bind, Except.bind, a1, b1] at hrun
    let ents : Ents := [("velocity", (["velocity"], .one .float cv)), ("frequency", (["frequency"], .one .float cf))]
    have hmk : CM.mk? ["velocity", "frequency"] ents = .ok ⟨["velocity", "frequency"], ents⟩ := by
      unfold CM.mk?
      rw [if_pos]
      simp [ents, dimOk, entryOk, Dict.get?, Ents.lenOf, one_shape, MCoord.len]
    simp only [ents] at hmk
    simp only [hmk] at hrun
    unfold PatchM.new at hrun
    rw [if_pos] at hrun
    · refine ⟨_, hrun, rfl, by simp [dispersionImage], fun i j hi hj => ?_⟩
      have e1 : vs[i]? = some vs[i] := List.getElem?_eq_getElem hi
      refine ⟨vs[i], _, e1, rfl, ?_, ?_, ?_⟩
      · rw [label_dim (c := cv) (k := .float) rfl]
        congr 1
        change cv.labels.getD i none = _
        rw [a2, List.getD_eq_getElem?_getD, List.getElem?_map, e1]
        rfl
      · rw [label_dim (c := cf) (k := .float) rfl]
        congr 1
        change cf.labels.getD j none = _
        rw [b2, List.getD_eq_getElem?_getD, List.getElem?_map, List.getElem?_map, List.getElem?_range hj]
        rfl
      · change (dispersionImage _ _ _ _ _ _ _ _).get [i, j] = _
        rw [image_eq data hdata (by omega) hdt]
        congr 1
        · change ((List.range (k₁ - k₀)).map _).getD j 0 = _
          rw [List.getD_eq_getElem?_getD, List.getElem?_map, List.getElem?_range hj]
          rfl
        · change vs.getD i 0 = _
          rw [List.getD_eq_getElem?_getD, e1]
          rfl
    · simp [CM.shape, Dict.get?, Ents.lenOf, MCoord.len, one_shape, a3, b3, dispersionImage]

theorem dispersion_data {q : PatchM ℝ} (h : p.dispersion vs res lim = .ok q) : ∃ (data : Nd ℂ) (nx nt nf first : ℕ) (xs fs : List ℚ),
    q.data = dispersionImage data nx nt nf first xs vs fs := by
  unfold PatchM.dispersion at h
  split_ifs at h with h0
  obtain ⟨t, -, h⟩ := bind_split h
  split at h
  · rename_i c ct _ _
    unfold dispersionOf at h
    split at h
    · simp only at h
      split_ifs at h
      · obtain ⟨l, -, h⟩ := bind_split h
        cases h
      obtain ⟨l, -, h⟩ := bind_split h
      unfold dispersionPatch at h
      simp only at h
      split_ifs at h
      obtain ⟨v, -, h⟩ := bind_split h
      obtain ⟨f, -, h⟩ := bind_split h
      obtain ⟨cm, -, h⟩ := bind_split h
      unfold PatchM.new at h
      split_ifs at h
      cases h
      exact ⟨_, _, _, _, _, _, _, rfl⟩
    · cases h
  · cases h

/-- **C81**: whatever the patch, the samples of an image are at least zero and at most one. -/
theorem C81_bounded {q : PatchM ℝ} (h : p.dispersion vs res lim = .ok q) (i : List ℕ) : 0 ≤ q.data.get i ∧ q.data.get i ≤ 1 := by
  obtain ⟨data, nx, nt, nf, first, xs, fs, hq⟩ := dispersion_data h
  rw [hq]
  unfold dispersionImage
  simp only
  refine ⟨by positivity, div_le_one_of_le₀ ?_ (by positivity)⟩
  rw [list_sum_range]
  refine (norm_sum_le _ _).trans ?_
  refine (Finset.sum_le_card_nsmul _ _ 1 fun c _ => ?_).trans (by simp)
  rw [norm_mul, expi_wave, norm_wave, one_mul, unitOrZero_phase]
  exact phase_le _

theorem phase_gain {g : ℝ} (hg : 0 < g) (z : ℂ) : phaseOf (g * z) = phaseOf z := by
  unfold phaseOf
  have : (g : ℂ) ≠ 0 := by exact_mod_cast hg.ne'
  rw [norm_mul, Complex.norm_real, Real.norm_of_nonneg hg.le, Complex.ofReal_mul, mul_div_mul_left _ _ this]

/-- **C81**: the image does not depend on how strong the channels are: if every channel is multiplied by a positive number (one for each channel), the
result is the same. -/
theorem C81_gain (hm : Regular p.cm) (hsh : p.cm.shape = p.data.shape) (hg : Gather p nx x nt dt) (hdt : 0 < dt) (hnt : 2 ≤ nt)
    (ha : DispersionArgs dt vs res lim) {p' : PatchM ℂ} (hcm : p'.cm = p.cm) (hs : p'.data.shape = p.data.shape) {g : ℕ → ℝ} (hpos : ∀ i, 0 < g i)
    (hscale : ∀ i j, sampleOf p' i j = g i * sampleOf p i j) : p'.dispersion vs res lim = p.dispersion vs res lim := by
  obtain ⟨data, h1, h2⟩ := dispersion_run hm hsh hg hdt hnt ha
  obtain ⟨data', h1', h2'⟩ := dispersion_run (p := p') (by rw [hcm]; exact hm) (by rw [hcm, hs]; exact hsh)
    (⟨by rw [hcm]; exact hg.dims, by rw [hcm]; exact hg.distance, by rw [hcm]; exact hg.time⟩ : Gather p' nx x nt dt) hdt hnt ha
  rw [h2, h2']
  split_ifs with h0
  · rfl
  have : ∀ nf first fs, nf ≠ 0 → dispersionImage data' nx nt nf first ((List.range nx).map x) vs fs = dispersionImage data nx nt nf first ((List.range nx).map x) vs fs := by
    intro nf first fs hnf
    have hgv : (dispersionImage data' nx nt nf first ((List.range nx).map x) vs fs).get = (dispersionImage data nx nt nf first ((List.range nx).map x) vs fs).get := by
      funext i
      rw [image_eq data h1 hnf hdt, image_eq data' h1' hnf hdt]
      congr 1
      funext c
      have : ∀ y, channelSpectrum p' nt nf dt c y = g c * channelSpectrum p nt nf dt c y := by
        intro y
        unfold channelSpectrum
        rw [Finset.mul_sum]
        refine Finset.sum_congr rfl fun j _ => ?_
        rw [hscale, mul_assoc]
      rw [this, phase_gain (hpos c)]
    unfold dispersionImage at hgv ⊢
    simp only at hgv ⊢
    rw [hgv]
  unfold dispersionPatch
  simp only [this _ _ _ h0]

theorem coherence_shift (x : ℕ → ℚ) (φ : ℕ → ℂ) (f v s : ℚ) : coherence nx (fun i => x i + s) φ f v = coherence nx x φ f v := by
  unfold coherence
  have : ∀ i ∈ Finset.range nx, φ i * wave (-(f * (x i + s) / v)) = wave (-(f * s / v)) * (φ i * wave (-(f * x i / v))) := by
    intro i _
    rw [show -(f * (x i + s) / v) = -(f * s / v) + -(f * x i / v) by ring, ← expi_wave, expi_add, expi_wave, expi_wave]
    ring
  rw [Finset.sum_congr rfl this, ← Finset.mul_sum, mul_div_assoc, norm_mul, norm_wave, one_mul]

/-- **C81**: the image does not depend on where distances are counted from. -/
theorem C81_origin (hm : Regular p.cm) (hsh : p.cm.shape = p.data.shape) (hg : Gather p nx x nt dt) (hdt : 0 < dt) (hnt : 2 ≤ nt)
    (ha : DispersionArgs dt vs res lim) {p' : PatchM ℂ} (hm' : Regular p'.cm) (hsh' : p'.cm.shape = p'.data.shape) {s : ℚ}
    (hg' : Gather p' nx (fun i => x i + s) nt dt) (hsame : ∀ i j, sampleOf p' i j = sampleOf p i j) :
    p'.dispersion vs res lim = p.dispersion vs res lim := by
  obtain ⟨data, h1, h2⟩ := dispersion_run hm hsh hg hdt hnt ha
  obtain ⟨data', h1', h2'⟩ := dispersion_run hm' hsh' hg' hdt hnt ha
  rw [h2, h2']
  split_ifs with h0
  · rfl
  have : ∀ nf first fs, nf ≠ 0 → dispersionImage data' nx nt nf first ((List.range nx).map fun i => x i + s) vs fs =
      dispersionImage data nx nt nf first ((List.range nx).map x) vs fs := by
    intro nf first fs hnf
    have hgv : (dispersionImage data' nx nt nf first ((List.range nx).map fun i => x i + s) vs fs).get =
        (dispersionImage data nx nt nf first ((List.range nx).map x) vs fs).get := by
      funext i
      rw [image_eq data h1 hnf hdt, image_eq data' h1' hnf hdt, coherence_shift]
      congr 1
      funext c
      congr 1
      unfold channelSpectrum
      exact Finset.sum_congr rfl fun j _ => by rw [hsame]
    unfold dispersionImage at hgv ⊢
    simp only at hgv ⊢
    rw [hgv]
  unfold dispersionPatch
  simp only [this _ _ _ h0]

/-- The Fourier sum of a tone that has `k` whole periods. -/
theorem tone_sum {n k : ℕ} (h0 : 0 < k) (h2 : 2 * k < n) (B : ℂ) :
    ∑ j ∈ Finset.range n, (B * expi (-((j : ℚ) * k / n)) + star B * expi ((j : ℚ) * k / n)) * expi ((j : ℚ) * k / n) = B * n := by
  have e : ∀ j ∈ Finset.range n, (B * expi (-((j : ℚ) * k / n)) + star B * expi ((j : ℚ) * k / n)) * expi ((j : ℚ) * k / n) =
      B * (expi ((k : ℚ) * j / n) * expi (-((j : ℚ) * k / n))) + star B * (expi ((k : ℚ) * j / n) * expi (-((j : ℚ) * (n - k : ℕ) / n))) := by
    intro j _
    have : expi (-((j : ℚ) * (n - k : ℕ) / n)) = expi ((j : ℚ) * k / n) := by
      rw [← star_expi, expi_flip (by omega : k < n), star_expi, neg_neg]
    rw [this, mul_comm (k : ℚ) j]
    ring
  rw [Finset.sum_congr rfl e, Finset.sum_add_distrib, ← Finset.mul_sum, ← Finset.mul_sum, wave_sum (by omega) (by omega), wave_sum (by omega) (by omega),
    if_pos rfl, if_neg (by omega), mul_zero, add_zero]

theorem cos_waves (y : ℚ) (φ : ℝ) : ((Real.cos (2 * Real.pi * y + φ) : ℝ) : ℂ) =
    Complex.exp (φ * Complex.I) / 2 * expi (-y) + star (Complex.exp (φ * Complex.I) / 2) * expi y := by
  have e1 : Complex.exp (φ * Complex.I) * expi (-y) = Complex.exp (((2 * Real.pi * y + φ : ℝ) : ℂ) * Complex.I) := by
    unfold expi
    rw [← Complex.exp_add]
    congr 1
    push_cast
    ring
  have e2 : star (Complex.exp (φ * Complex.I)) * expi y = Complex.exp (-(((2 * Real.pi * y + φ : ℝ) : ℂ)) * Complex.I) := by
    have : star (Complex.exp (φ * Complex.I)) = Complex.exp (-(φ : ℂ) * Complex.I) := by
      rw [show star (Complex.exp (φ * Complex.I)) = (starRingEnd ℂ) (Complex.exp (φ * Complex.I)) from rfl, ← Complex.exp_conj]
      congr 1
      simp
    rw [this]
    unfold expi
    rw [← Complex.exp_add]
    congr 1
    push_cast
    ring
  rw [star_div₀, div_mul_eq_mul_div, div_mul_eq_mul_div, e1, e2, Complex.ofReal_cos, Complex.cos]
  simp
  ring

/-- **C81**: a plane wave of the velocity `v₀` whose frequency is `k` periods in the whole record shows with the largest value that there is, in column
number `k`. Missing: this is not at its own velocity, but at one that is larger by `n / (n - 1)`, nor at its frequency (`C81_velocity_violated`). -/
theorem C81_plane_partial (hm : Regular p.cm) (hsh : p.cm.shape = p.data.shape) (hg : Gather p nx x nt dt) (hdt : 0 < dt)
    (ha : DispersionArgs dt vs none lim) (hv : Storable vs) (hnx : nx ≠ 0) {k : ℕ} (h0 : 0 < k) (h2 : 2 * k < nt) {v₀ : ℚ} {φ : ℝ} {A : ℕ → ℝ}
    (hA : ∀ c, 0 < A c)
    (hwave : ∀ c < nx, ∀ j < nt, sampleOf p c j = ((A c * Real.cos (2 * Real.pi * (((k : ℚ) / (nt * dt) * (j * dt - x c / v₀) : ℚ) : ℝ) + φ) : ℝ) : ℂ))
    {q : PatchM ℝ} (hq : p.dispersion vs none lim = .ok q) {i j : ℕ} (hr : InRange q.data.shape [i, j])
    (hvel : label q "velocity" [i, j] = some (some (v₀ * (nt / (nt - 1))))) (hfr : label q "frequency" [i, j] = some (some ((k : ℚ) / ((nt - 1) * dt)))) :
    q.data.get [i, j] = 1 := by
  obtain ⟨k₀, k₁, -, -, hno, hyes⟩ := C81_image_partial hm hsh hg hdt (by omega) ha hv (n := nt) rfl (by omega)
  have hlt : k₀ < k₁ := by
    by_contra hcon
    rw [hno (by omega)] at hq
    cases hq
  obtain ⟨q', hq', -, hshape, hall⟩ := hyes hlt
  cases hq.symm.trans hq'
  rw [hshape, inRange_two] at hr
  obtain ⟨v, f, -, hf, hlv, hlf, hval⟩ := hall i j hr.1 hr.2
  have hntq : (2 : ℚ) < nt := by exact_mod_cast (by omega : 2 < nt)
  have hn0 : (nt : ℚ) ≠ 0 := by linarith
  have hn1 : (nt : ℚ) - 1 ≠ 0 := by linarith
  rw [hvel] at hlv
  rw [hfr] at hlf
  have hlv : v₀ * (nt / (nt - 1)) = v := by simpa using hlv
  have hlf : (k : ℚ) / ((nt - 1) * dt) = f := by simpa using hlf
  have hk : k₀ + j = k := by
    rw [hf, div_left_inj' (mul_ne_zero hn1 hdt.ne')] at hlf
    exact_mod_cast hlf.symm
  rw [hval, hk]
  have hspec : ∀ c < nx, channelSpectrum p nt nt dt c ((k : ℚ) / (nt * dt)) = ((A c * nt : ℝ) : ℂ) * (Complex.exp (φ * Complex.I) / 2 * expi ((k : ℚ) / (nt * dt) * (x c / v₀))) := by
    intro c hc
    unfold channelSpectrum
    rw [min_self]
    have := tone_sum h0 h2 (A c * (Complex.exp (φ * Complex.I) / 2 * expi ((k : ℚ) / (nt * dt) * (x c / v₀))))
    have e : ∀ j ∈ Finset.range nt, sampleOf p c j * wave ((k : ℚ) / (nt * dt) * (j * dt)) =
        ((A c * (Complex.exp (φ * Complex.I) / 2 * expi ((k : ℚ) / (nt * dt) * (x c / v₀)))) * expi (-((j : ℚ) * k / nt)) +
          star ((A c : ℂ) * (Complex.exp (φ * Complex.I) / 2 * expi ((k : ℚ) / (nt * dt) * (x c / v₀)))) * expi ((j : ℚ) * k / nt)) * expi ((j : ℚ) * k / nt) := by
      intro j hj
      have e1 : (k : ℚ) / (nt * dt) * (j * dt) = (j : ℚ) * k / nt := by field_simp
      have e2 : (k : ℚ) / (nt * dt) * (j * dt - x c / v₀) = (j : ℚ) * k / nt + -((k : ℚ) / (nt * dt) * (x c / v₀)) := by rw [← e1]; ring
      rw [hwave c hc j (Finset.mem_range.1 hj), e1, ← expi_wave, e2, Complex.ofReal_mul, cos_waves, neg_add, neg_neg, expi_add, expi_add, star_mul', star_mul', star_expi]
      have : star (A c : ℂ) = A c := Complex.conj_ofReal _
      rw [this]
      ring
    rw [Finset.sum_congr rfl e, this]
    push_cast
    ring
  have hnorm : ‖Complex.exp ((φ : ℂ) * Complex.I)‖ = 1 := Complex.norm_exp_ofReal_mul_I φ
  have hphase : ∀ c < nx, phaseOf (channelSpectrum p nt nt dt c ((k : ℚ) / (nt * dt))) = Complex.exp (φ * Complex.I) * expi ((k : ℚ) / (nt * dt) * (x c / v₀)) := by
    intro c hc
    have hpos : (0 : ℝ) < nt := by exact_mod_cast (by omega : 0 < nt)
    rw [hspec c hc, phase_gain (mul_pos (hA c) hpos)]
    unfold phaseOf
    rw [norm_mul, norm_div, hnorm, expi_wave, norm_wave]
    simp
    ring
  unfold coherence
  have e : ∀ c ∈ Finset.range nx, phaseOf (channelSpectrum p nt nt dt c ((k : ℚ) / (nt * dt))) * wave (-(f * x c / v)) = Complex.exp (φ * Complex.I) := by
    intro c hc
    have : f * x c / v = (k : ℚ) / (nt * dt) * (x c / v₀) := by
      rw [← hlv, ← hlf]
      by_cases hz : v₀ = 0
      · simp [hz]
      · field_simp
    rw [hphase c (Finset.mem_range.1 hc), this, ← expi_wave, mul_assoc, ← expi_add, add_neg_cancel, expi_zero, mul_one]
  rw [Finset.sum_congr rfl e, Finset.sum_const, Finset.card_range, nsmul_eq_mul, mul_div_cancel_left₀ _ (by exact_mod_cast hnx), hnorm]

/-- **C81**: what is refused: a patch without distances or times; for a gather, velocities that do not increase or are not positive, a resolution that is not
positive, limits that are not positive, not in order or not below the Nyquist frequency, and a resolution that leaves no more than one frequency. -/
theorem C81_refused :
    ("time" ∉ p.cm.dims ∨ "distance" ∉ p.cm.dims → p.dispersion vs res lim = .error .patchDimError) ∧
    (Regular p.cm → p.cm.shape = p.data.shape → Gather p nx x nt dt → 0 < dt → 2 ≤ nt →
      (¬ DispersionArgs dt vs res lim → ∃ e, p.dispersion vs res lim = .error e) ∧
      (DispersionArgs dt vs res lim → frequencyCount nt dt res ≤ 1 → ∃ e, p.dispersion vs res lim = .error e)) := by
  refine ⟨fun h => if_pos h, fun hm hsh hg hdt hnt => ⟨fun ha => ?_, fun ha h0 => ?_⟩⟩
  · obtain ⟨data, t0, t1, rest, -, e1, -, hrun⟩ := dispersion_start (vs := vs) (res := res) (lim := lim) hm hsh hg hnt
    rw [hrun]
    cases hd : dispersionOf data ((List.range nx).map x) (t0 :: t1 :: rest) vs res lim with
    | error e => exact ⟨e, rfl⟩
    | ok q => exact absurd (args_given e1 hd) ha
  · obtain ⟨data, -, hrun⟩ := dispersion_run hm hsh hg hdt hnt ha
    rw [hrun]
    split_ifs with hz
    · exact ⟨_, rfl⟩
    · obtain ⟨-, -, -, l2, -⟩ := limits_eq hdt ha
      have h1 : frequencyCount nt dt res = 1 := by omega
      rw [h1]
      unfold dispersionPatch
      simp only
      rw [if_pos]
      · exact ⟨_, rfl⟩
      · have : firstAtLeast (dispersionFreqs 1 (1 / dt)) (limitsFor dt lim).2 = 0 := by
          unfold firstAtLeast
          rw [if_neg]
          simp [dispersionFreqs, l2]
        rw [this]
        exact Nat.zero_le _

end

/-! ## The hypotheses are met -/

/-- A shot with channels at 0 m and 36 m and one sample a second: a wave of four seconds and 6 m/s. -/
def exSurvey : PatchM ℂ where
  cm := ⟨["distance", "time"], [("distance", (["distance"], .one .float (.mono [0, 36]))),
    ("time", (["time"], .one .time (.range ⟨0, 4000000000, 1000000000, 4⟩)))]⟩
  data := ⟨[2, 4], fun i => ((([[1, 0, -1, 0], [-1, 0, 1, 0]] : List (List ℤ)).getD (i.getD 0 0) []).getD (i.getD 1 0) 0 : ℤ)⟩

theorem exSurvey_regular : Regular exSurvey.cm where
  wf := by
    refine CM.mk?_wf (m := exSurvey.cm) (if_pos ?_) ?_
    · decide +kernel
    · exact (by decide +kernel : ["distance", "time"].Nodup)
  distinct := (by decide +kernel : ["distance", "time"].Nodup)
  coordDims := by
    intro name ds c h
    simp only [exSurvey, List.mem_cons, Prod.mk.injEq, List.not_mem_nil, or_false] at h
    rcases h with ⟨_, rfl, _⟩ | ⟨_, rfl, _⟩ <;> decide
  classes := by
    intro name ds k c' h
    simp only [exSurvey, List.mem_cons, Prod.mk.injEq, MCoord.one.injEq, List.not_mem_nil, or_false] at h
    rcases h with ⟨_, _, _, rfl⟩ | ⟨_, _, _, rfl⟩
    · exact ⟨Or.inl (by norm_num [List.pairwise_cons]), by simp⟩
    · exact ⟨by norm_num, by norm_num, by norm_num⟩
  plain := (by decide +kernel : ∀ name ∈ ["distance", "time"], matchesPrefixSuffix ["distance", "time"] name = false)

theorem exSurvey_shape : exSurvey.cm.shape = exSurvey.data.shape := (by decide +kernel : exSurvey.cm.shape = [2, 4])

theorem exSurvey_gather : Gather exSurvey 2 (fun i => 36 * i) 4 1 where
  dims := List.Perm.refl _
  distance := ⟨.float, .mono [0, 36], rfl, by simp [Coord.labels, List.range_succ]⟩
  time := ⟨0, by simp [exSurvey], 4000000000, by norm_num; rfl⟩

theorem exSurvey_args : DispersionArgs 1 [6, 8] none none where
  some := by simp
  positive := by simp
  increase := by norm_num [List.pairwise_cons]
  res := by simp
  lim := by simp

theorem exSurvey_storable : Storable [6, 8] := Or.inr (Or.inl ⟨6, 2, 2, by norm_num, by norm_num [progression, List.range_succ]⟩)

theorem exSurvey_wave : ∀ c < 2, ∀ j < 4, sampleOf exSurvey c j =
    (((1 : ℝ) * Real.cos (2 * Real.pi * ((((1 : ℕ) : ℚ) / ((4 : ℕ) * 1) * (j * 1 - 36 * c / 6) : ℚ) : ℝ) + 0) : ℝ) : ℂ) := by
  have c0 : Real.cos 0 = 1 := Real.cos_zero
  intro c hc j hj
  obtain rfl | rfl : c = 0 ∨ c = 1 := by omega
  · obtain rfl | rfl | rfl | rfl : j = 0 ∨ j = 1 ∨ j = 2 ∨ j = 3 := by omega
    · simp [sampleOf, exSurvey]
    · have : 2 * Real.pi * ((((1 : ℕ) : ℚ) / ((4 : ℕ) * 1) * ((1 : ℕ) * 1 - 36 * (0 : ℕ) / 6) : ℚ) : ℝ) + 0 = Real.pi / 2 := by push_cast; ring
      rw [this, Real.cos_pi_div_two]
      simp [sampleOf, exSurvey]
    · have : 2 * Real.pi * ((((1 : ℕ) : ℚ) / ((4 : ℕ) * 1) * ((2 : ℕ) * 1 - 36 * (0 : ℕ) / 6) : ℚ) : ℝ) + 0 = Real.pi := by push_cast; ring
      rw [this, Real.cos_pi]
      simp [sampleOf, exSurvey]
    · have : 2 * Real.pi * ((((1 : ℕ) : ℚ) / ((4 : ℕ) * 1) * ((3 : ℕ) * 1 - 36 * (0 : ℕ) / 6) : ℚ) : ℝ) + 0 = Real.pi / 2 + Real.pi := by push_cast; ring
      rw [this, Real.cos_add_pi, Real.cos_pi_div_two]
      simp [sampleOf, exSurvey]
  · obtain rfl | rfl | rfl | rfl : j = 0 ∨ j = 1 ∨ j = 2 ∨ j = 3 := by omega
    · have : 2 * Real.pi * ((((1 : ℕ) : ℚ) / ((4 : ℕ) * 1) * ((0 : ℕ) * 1 - 36 * (1 : ℕ) / 6) : ℚ) : ℝ) + 0 = 0 - Real.pi - 2 * Real.pi := by push_cast; ring
      rw [this, Real.cos_sub_two_pi, Real.cos_sub_pi, c0]
      simp [sampleOf, exSurvey]
    · have : 2 * Real.pi * ((((1 : ℕ) : ℚ) / ((4 : ℕ) * 1) * ((1 : ℕ) * 1 - 36 * (1 : ℕ) / 6) : ℚ) : ℝ) + 0 = Real.pi / 2 - Real.pi - 2 * Real.pi := by push_cast; ring
      rw [this, Real.cos_sub_two_pi, Real.cos_sub_pi, Real.cos_pi_div_two]
      simp [sampleOf, exSurvey]
    · have : 2 * Real.pi * ((((1 : ℕ) : ℚ) / ((4 : ℕ) * 1) * ((2 : ℕ) * 1 - 36 * (1 : ℕ) / 6) : ℚ) : ℝ) + 0 = 0 - 2 * Real.pi := by push_cast; ring
      rw [this, Real.cos_sub_two_pi, c0]
      simp [sampleOf, exSurvey]
    · have : 2 * Real.pi * ((((1 : ℕ) : ℚ) / ((4 : ℕ) * 1) * ((3 : ℕ) * 1 - 36 * (1 : ℕ) / 6) : ℚ) : ℝ) + 0 = Real.pi / 2 - 2 * Real.pi := by push_cast; ring
      rw [this, Real.cos_sub_two_pi, Real.cos_pi_div_two]
      simp [sampleOf, exSurvey]

theorem exSurvey_run : ∃ q : PatchM ℝ, exSurvey.dispersion [6, 8] none none = .ok q ∧ q.data.shape = [2, 2] ∧
    label q "velocity" [0, 1] = some (some 6) ∧ label q "velocity" [1, 1] = some (some 8) ∧
    label q "frequency" [0, 1] = some (some (1 / 3)) ∧ label q "frequency" [1, 1] = some (some (1 / 3)) ∧
    q.data.get [0, 1] = coherence 2 (fun i => 36 * i) (fun c => phaseOf (channelSpectrum exSurvey 4 4 1 c (1 / 4))) (1 / 3) 6 := by
  obtain ⟨k₀, k₁, -, hk, -, hyes⟩ := C81_image_partial exSurvey_regular exSurvey_shape exSurvey_gather (by norm_num) (by norm_num) exSurvey_args exSurvey_storable
    (n := 4) rfl (by norm_num)
  simp only [limitsFor] at hk
  have a0 := (hk 0).2 (by norm_num)
  have a1 := (hk 1).2 (by norm_num)
  have a2 : k₁ = 2 := by
    have := hk 2
    norm_num at this
    omega
  have a3 : k₀ = 0 := by omega
  subst a2 a3
  obtain ⟨q, h1, -, h2, h3⟩ := hyes (by norm_num)
  obtain ⟨v, f, b1, b2, b3, b4, b5⟩ := h3 0 1 (by norm_num) (by norm_num)
  obtain ⟨v', f', d1, d2, d3, d4, -⟩ := h3 1 1 (by norm_num) (by norm_num)
  simp at b1 d1
  norm_num at b2 d2
  subst b1 b2 d1 d2
  refine ⟨q, h1, by simpa using h2, b3, d3, by simpa using b4, by simpa using d4, ?_⟩
  rw [b5]
  norm_num

example : ∃ q : PatchM ℝ, exSurvey.dispersion [6, 8] none none = .ok q ∧ 0 ≤ q.data.get [0, 1] ∧ q.data.get [0, 1] ≤ 1 := by
  obtain ⟨q, h1, -⟩ := exSurvey_run
  exact ⟨q, h1, C81_bounded h1 _⟩

example : DispersionArgs 1 [6, 8] (some (1 / 10)) (some (1 / 10, 2 / 5)) :=
  ⟨by simp, by simp, by norm_num [List.pairwise_cons], by simp, by simp; norm_num⟩

/-- The same shot, the second channel three times as strong. -/
def exSurveyGain : PatchM ℂ := { exSurvey with data := ⟨[2, 4], fun i => (((i.getD 0 0 : ℕ) * 2 + 1 : ℝ) : ℂ) * exSurvey.data.get i⟩ }

example : exSurveyGain.dispersion [6, 8] none none = exSurvey.dispersion [6, 8] none none :=
  C81_gain (g := fun c => (c : ℝ) * 2 + 1) exSurvey_regular exSurvey_shape exSurvey_gather (by norm_num) (by norm_num) exSurvey_args rfl rfl (fun i => by positivity)
    (fun i j => by simp [sampleOf, exSurveyGain, exSurvey])

/-- The same shot, with distances counted from elsewhere. -/
def exSurveyMoved : PatchM ℂ := { exSurvey with cm := ⟨["distance", "time"], [("distance", (["distance"], .one .float (.mono [100, 136]))),
    ("time", (["time"], .one .time (.range ⟨0, 4000000000, 1000000000, 4⟩)))]⟩ }

theorem exSurveyMoved_regular : Regular exSurveyMoved.cm where
  wf := by
    refine CM.mk?_wf (m := exSurveyMoved.cm) (if_pos ?_) ?_
    · decide +kernel
    · exact (by decide +kernel : ["distance", "time"].Nodup)
  distinct := (by decide +kernel : ["distance", "time"].Nodup)
  coordDims := by
    intro name ds c h
    simp only [exSurveyMoved, List.mem_cons, Prod.mk.injEq, List.not_mem_nil, or_false] at h
    rcases h with ⟨_, rfl, _⟩ | ⟨_, rfl, _⟩ <;> decide
  classes := by
    intro name ds k c' h
    simp only [exSurveyMoved, List.mem_cons, Prod.mk.injEq, MCoord.one.injEq, List.not_mem_nil, or_false] at h
    rcases h with ⟨_, _, _, rfl⟩ | ⟨_, _, _, rfl⟩
    · exact ⟨Or.inl (by norm_num [List.pairwise_cons]), by simp⟩
    · exact ⟨by norm_num, by norm_num, by norm_num⟩
  plain := (by decide +kernel : ∀ name ∈ ["distance", "time"], matchesPrefixSuffix ["distance", "time"] name = false)

example : exSurveyMoved.dispersion [6, 8] none none = exSurvey.dispersion [6, 8] none none :=
  C81_origin (s := 100) exSurvey_regular exSurvey_shape exSurvey_gather (by norm_num) (by norm_num) exSurvey_args exSurveyMoved_regular
    (by exact (by decide +kernel : exSurveyMoved.cm.shape = [2, 4]))
    ⟨List.Perm.refl _, ⟨.float, .mono [100, 136], rfl, by simp [Coord.labels, List.range_succ]; norm_num⟩, ⟨0, by simp [exSurveyMoved], 4000000000, by norm_num; rfl⟩⟩
    (fun i j => rfl)

/-- **C81**, violated: the shot is a plane wave of 6 m/s and 1/4 Hz, but in its column the image is zero at 6 m/s and one at 8 m/s; and the label of this
column is 1/3 Hz. -/
theorem C81_velocity_violated :
    (∀ c < 2, ∀ j < 4, sampleOf exSurvey c j = (Real.cos (2 * Real.pi * (((1 / 4 : ℚ) * (j - 36 * c / 6) : ℚ) : ℝ)) : ℂ)) ∧
    ∃ q : PatchM ℝ, exSurvey.dispersion [6, 8] none none = .ok q ∧
      label q "velocity" [0, 1] = some (some 6) ∧ q.data.get [0, 1] = 0 ∧ label q "velocity" [1, 1] = some (some 8) ∧ q.data.get [1, 1] = 1 ∧
      label q "frequency" [0, 1] = some (some (1 / 3)) := by
  constructor
  · intro c hc j hj
    rw [exSurvey_wave c hc j hj]
    simp
  · obtain ⟨q, h1, h2, h3, h4, h5, h6, h7⟩ := exSurvey_run
    refine ⟨q, h1, h3, ?_, h4, ?_, h5⟩
    · rw [h7]
      have w2 : wave (1 / 2) = -1 := by
        unfold wave
        rw [show -(2 * (Real.pi : ℂ) * ((1 / 2 : ℚ) : ℂ)) * Complex.I = -(Real.pi * Complex.I) by push_cast; ring, Complex.exp_neg, Complex.exp_pi_mul_I]
        norm_num
      have w0 : wave 0 = 1 := expi_zero
      have w12 : wave (-2) = 1 := by rw [← expi_wave]; simpa using expi_int (-2)
      have s0 : channelSpectrum exSurvey 4 4 1 0 (1 / 4) = 2 := by
        simp [channelSpectrum, Finset.sum_range_succ, sampleOf, exSurvey, w0]
        rw [show (4⁻¹ * 2 : ℚ) = 1 / 2 by norm_num, w2]
        norm_num
      have s1 : channelSpectrum exSurvey 4 4 1 1 (1 / 4) = -2 := by
        simp [channelSpectrum, Finset.sum_range_succ, sampleOf, exSurvey, w0]
        rw [show (4⁻¹ * 2 : ℚ) = 1 / 2 by norm_num, w2]
        norm_num
      simp [coherence, Finset.sum_range_succ, phaseOf, w0]
      rw [show (-(3⁻¹ * 36 / 6) : ℚ) = -2 by norm_num, w12]
      simp only [one_div] at s0 s1
      rw [s0, s1]
      norm_num
    · refine C81_plane_partial (A := fun _ => 1) (φ := 0) (v₀ := 6) (k := 1) exSurvey_regular exSurvey_shape exSurvey_gather (by norm_num) exSurvey_args exSurvey_storable
        (by norm_num) (by norm_num) (by norm_num) (fun _ => by norm_num) exSurvey_wave h1 (by rw [h2, inRange_two]; norm_num) (by rw [h4]; norm_num) (by rw [h6]; norm_num)

end Verif
