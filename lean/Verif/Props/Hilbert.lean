import Verif.Proof.Hilbert
import Verif.Props.Aggregate
import Verif.Props.PassFilter
import Verif.Props.Fourier
import Mathlib.Data.List.InsertIdx
/-! # C80: the Hilbert transform, envelopes and phase weighted stacks -/
namespace Verif
open Spec

section
variable {p : PatchM ℝ} {d : String} {k : Kind} {s₀ s : ℚ} {n : ℕ}

theorem evenAxis_ok {m : CM} (hd : EvenAlong m d k s₀ s n) : evenAxis m d = .ok (m.dims.idxOf d) := by
  obtain ⟨hdd, stop, hc⟩ := hd
  unfold evenAxis
  rw [hc]
  simp only
  rw [if_pos hdd]

theorem hilbert_ok (hsh : p.cm.shape = p.data.shape) (hd : EvenAlong p.cm d k s₀ s n) :
    p.hilbert d = .ok ⟨p.cm, p.data.analytic (p.cm.dims.idxOf d)⟩ := by
  unfold PatchM.hilbert
  rw [evenAxis_ok hd]
  simp only [bind, Except.bind, PatchM.new]
  exact if_pos hsh

theorem axis_lt {α : Type} {p : PatchM α} (hsh : p.cm.shape = p.data.shape) (hd : d ∈ p.cm.dims) : p.cm.dims.idxOf d < p.data.shape.length := by
  rw [shape_dims hsh hd, List.length_map]
  exact List.idxOf_lt_length_of_mem hd

theorem hilbert_along (hm : Regular p.cm) (hsh : p.cm.shape = p.data.shape) (hd : EvenAlong p.cm d k s₀ s n) {i : List ℕ} (hi : InRange p.data.shape i) (j : ℕ) :
    (p.data.analytic (p.cm.dims.idxOf d)).get (i.set (p.cm.dims.idxOf d) j) = lineAnalytic n (traceOn p.data (p.cm.dims.idxOf d) i) j := by
  have hl : p.cm.dims.idxOf d < i.length := by rw [inRange_length hi]; exact axis_lt hsh hd.1
  rw [analytic_line (by simpa using hl), even_shape hm hsh hd, getD_set_self hl]
  congr 1
  funext t
  simp [traceOn]

/-- The Hilbert transform of a patch has the same coordinates, and is the analytic signal of every line along the dimension. -/
theorem C80_hilbert (hm : Regular p.cm) (hsh : p.cm.shape = p.data.shape) (hd : EvenAlong p.cm d k s₀ s n) :
    ∃ q, p.hilbert d = .ok q ∧ q.cm = p.cm ∧ q.data.shape = p.data.shape ∧
      ∀ i, InRange p.data.shape i → Analytic n (traceOn p.data (p.cm.dims.idxOf d) i) (traceOn q.data (p.cm.dims.idxOf d) i) := by
  refine ⟨_, hilbert_ok hsh hd, rfl, rfl, fun i hi => ?_⟩
  have : traceOn (p.data.analytic (p.cm.dims.idxOf d)) (p.cm.dims.idxOf d) i = lineAnalytic n (traceOn p.data (p.cm.dims.idxOf d) i) :=
    funext fun j => hilbert_along hm hsh hd hi j
  show Analytic n _ (traceOn (p.data.analytic (p.cm.dims.idxOf d)) _ i)
  rw [this]
  exact lineAnalytic_spec _

/-- A signal has only one analytic signal. -/
theorem C80_unique {n : ℕ} {x : ℕ → ℝ} {a b : ℕ → ℂ} (ha : Analytic n x a) (hb : Analytic n x b) : ∀ j < n, a j = b j := fun _ hj => analytic_unique ha hb hj

/-- The real part of the transform is the data. -/
theorem C80_real (hm : Regular p.cm) (hsh : p.cm.shape = p.data.shape) (hd : EvenAlong p.cm d k s₀ s n) {q : PatchM ℂ} (hq : p.hilbert d = .ok q)
    {i : List ℕ} (hi : InRange p.data.shape i) : (q.data.get i).re = p.data.get i := by
  obtain ⟨q', h1, -, -, h2⟩ := C80_hilbert hm hsh hd
  cases hq.symm.trans h1
  have hlt : i.getD (p.cm.dims.idxOf d) 0 < n := by
    rw [← even_shape hm hsh hd]
    exact inRange_axis hi (axis_lt hsh hd.1)
  have := (h2 i hi).real _ hlt
  simpa only [traceOn, set_self_getD] using this

/-- The envelope is the absolute value of the Hilbert transform: nowhere less than that of the data. -/
theorem C80_envelope (hm : Regular p.cm) (hsh : p.cm.shape = p.data.shape) (hd : EvenAlong p.cm d k s₀ s n) :
    ∃ h q, p.hilbert d = .ok h ∧ p.envelope d = .ok q ∧ q.cm = p.cm ∧ q.data.shape = p.data.shape ∧
      ∀ i, InRange p.data.shape i → 0 ≤ q.data.get i ∧ q.data.get i ^ 2 = p.data.get i ^ 2 + (h.data.get i).im ^ 2 ∧ |p.data.get i| ≤ q.data.get i := by
  have hh := hilbert_ok hsh hd
  refine ⟨_, ⟨p.cm, p.data.shape, fun i => ‖(p.data.analytic (p.cm.dims.idxOf d)).get i‖⟩, hh, ?_, rfl, rfl, fun i hi => ?_⟩
  · unfold PatchM.envelope
    rw [evenAxis_ok hd]
    simp only [bind, Except.bind, PatchM.new]
    rw [if_pos hsh]
  · have hre := C80_real hm hsh hd hh hi
    simp only at hre ⊢
    have h2 : ‖(p.data.analytic (p.cm.dims.idxOf d)).get i‖ ^ 2 =
        p.data.get i ^ 2 + ((p.data.analytic (p.cm.dims.idxOf d)).get i).im ^ 2 := by
      rw [Complex.sq_norm, Complex.normSq_apply, hre]
      ring
    refine ⟨norm_nonneg _, h2, ?_⟩
    refine abs_le_of_sq_le_sq ?_ (norm_nonneg _)
    rw [h2]
    nlinarith [sq_nonneg ((p.data.analytic (p.cm.dims.idxOf d)).get i).im]

theorem analytic_combination {n : ℕ} {x y : ℕ → ℝ} {a b : ℕ → ℂ} (ha : Analytic n x a) (hb : Analytic n y b) (u v : ℝ) :
    Analytic n (fun j => u * x j + v * y j) (fun j => u * a j + v * b j) := by
  refine ⟨fun j hj => ?_, fun k hk h2 => ?_, ?_, fun he => ?_⟩
  · simp [ha.real j hj, hb.real j hj]
  · have h3 := ha.positive k hk h2
    have h4 := hb.positive k hk h2
    simp only [add_mul, mul_assoc, Finset.sum_add_distrib, ← Finset.mul_sum, h3, h4, mul_zero, add_zero]
  · have : ∀ j, (u * a j + v * b j : ℂ).im = u * (a j).im + v * (b j).im := fun j => by simp
    simp only [this, Finset.sum_add_distrib, ← Finset.mul_sum, ha.constant, hb.constant, mul_zero, add_zero]
  · have : ∀ j : ℕ, (-1 : ℝ) ^ j * (u * a j + v * b j : ℂ).im = u * ((-1) ^ j * (a j).im) + v * ((-1) ^ j * (b j).im) := fun j => by simp; ring
    simp only [this, Finset.sum_add_distrib, ← Finset.mul_sum, ha.alternating he, hb.alternating he, mul_zero, add_zero]

/-- The transform of a linear combination is that of the transforms. -/
theorem C80_linear (hm : Regular p.cm) (hsh : p.cm.shape = p.data.shape) (hd : EvenAlong p.cm d k s₀ s n) {p' r : PatchM ℝ} (hp' : p'.cm = p.cm)
    (hsh' : p'.data.shape = p.data.shape) (u v : ℝ) (hr : r.cm = p.cm) (hrs : r.data.shape = p.data.shape)
    (hv : ∀ i, InRange p.data.shape i → r.data.get i = u * p.data.get i + v * p'.data.get i) :
    ∃ q q' t, p.hilbert d = .ok q ∧ p'.hilbert d = .ok q' ∧ r.hilbert d = .ok t ∧
      ∀ i, InRange p.data.shape i → t.data.get i = u * q.data.get i + v * q'.data.get i := by
  obtain ⟨q, h1, -, -, h2⟩ := C80_hilbert hm hsh hd
  obtain ⟨q', h1', -, -, h2'⟩ := C80_hilbert (p := p') (hp' ▸ hm) (by rw [hp', hsh', hsh]) (hp' ▸ hd)
  obtain ⟨t, ht, -, -, ht2⟩ := C80_hilbert (p := r) (hr ▸ hm) (by rw [hr, hrs, hsh]) (hr ▸ hd)
  refine ⟨q, q', t, h1, h1', ht, fun i hi => ?_⟩
  have hlt : i.getD (p.cm.dims.idxOf d) 0 < n := by
    rw [← even_shape hm hsh hd]
    exact inRange_axis hi (axis_lt hsh hd.1)
  have e1 := ht2 i (hrs ▸ hi)
  rw [hr] at e1
  have e2 := h2' i (hsh' ▸ hi)
  rw [hp'] at e2
  have e3 := analytic_combination (h2 i hi) e2 u v
  have e4 : Analytic n (traceOn r.data (p.cm.dims.idxOf d) i) (fun j => u * traceOn q.data (p.cm.dims.idxOf d) i j + v * traceOn q'.data (p.cm.dims.idxOf d) i j) := by
    refine ⟨fun j hj => ?_, e3.positive, e3.constant, e3.alternating⟩
    rw [e3.real j hj]
    refine (hv _ ?_).symm
    rw [← even_shape hm hsh hd] at hj
    exact inRange_set hi hj
  have := analytic_unique e1 e4 hlt
  simpa only [traceOn, set_self_getD] using this

theorem tone_analytic {n m : ℕ} (h0 : 0 < m) (h2 : 2 * m < n) (A φ : ℝ) :
    Analytic n (fun j => A * Real.cos (2 * Real.pi * m * j / n + φ)) (fun j => A * Complex.exp (((2 * Real.pi * m * j / n + φ : ℝ) : ℂ) * Complex.I)) := by
  have hform : ∀ j : ℕ, (A : ℂ) * Complex.exp (((2 * Real.pi * m * j / n + φ : ℝ) : ℂ) * Complex.I) =
      A * Complex.exp ((φ : ℂ) * Complex.I) * expi (-((j : ℚ) * m / n)) := by
    intro j
    rw [mul_assoc (A : ℂ), expi, ← Complex.exp_add]
    congr 2
    push_cast
    ring
  have hz : ∀ q < n, q ≠ m → lineSum n (fun j => A * Complex.exp (((2 * Real.pi * m * j / n + φ : ℝ) : ℂ) * Complex.I)) q = 0 := by
    intro q hq hqm
    unfold lineSum
    simp only [hform]
    have : ∀ j ∈ Finset.range n, (A : ℂ) * Complex.exp ((φ : ℂ) * Complex.I) * expi (-((j : ℚ) * m / n)) * expi ((j : ℚ) * q / n) =
        A * Complex.exp ((φ : ℂ) * Complex.I) * (expi ((q : ℚ) * j / n) * expi (-((j : ℚ) * m / n))) := by
      intro j _
      rw [mul_comm (q : ℚ) j]
      ring
    rw [Finset.sum_congr rfl this, ← Finset.mul_sum, wave_sum hq (by omega), if_neg hqm, mul_zero]
  refine ⟨fun j _ => ?_, fun k hk hk2 => hz k hk (by omega), ?_, fun he => ?_⟩
  · rw [Complex.re_ofReal_mul, Complex.exp_ofReal_mul_I_re]
  · have := hz 0 (by omega) (by omega)
    unfold lineSum at this
    simp only [Nat.cast_zero, mul_zero, zero_div, expi_zero, mul_one] at this
    rw [← Complex.im_sum, this, Complex.zero_im]
  · have := hz (n / 2) (by omega) (by omega)
    unfold lineSum at this
    simp only [half_wave (show 2 * (n / 2) = n by omega) (show n ≠ 0 by omega)] at this
    have him := congrArg Complex.im this
    rw [Complex.im_sum, Complex.zero_im] at him
    rw [← him]
    refine Finset.sum_congr rfl fun j _ => ?_
    rcases Nat.even_or_odd j with h | h
    · simp [h.neg_one_pow]
    · simp [h.neg_one_pow]

/-- Where the signal is a tone that has a whole number of periods (and at least two samples in each), the transform is the circular motion with that phase,
and the envelope is its amplitude. -/
theorem C80_tone (hm : Regular p.cm) (hsh : p.cm.shape = p.data.shape) (hd : EvenAlong p.cm d k s₀ s n) {m : ℕ} (h0 : 0 < m) (h2 : 2 * m < n) {A φ : ℝ}
    {i : List ℕ} (hi : InRange p.data.shape i) (hv : ∀ j < n, traceOn p.data (p.cm.dims.idxOf d) i j = A * Real.cos (2 * Real.pi * m * j / n + φ)) :
    ∃ h q, p.hilbert d = .ok h ∧ p.envelope d = .ok q ∧ q.data.get i = |A| ∧
      h.data.get i = A * Complex.exp (((2 * Real.pi * m * (i.getD (p.cm.dims.idxOf d) 0 : ℕ) / n + φ : ℝ) : ℂ) * Complex.I) := by
  have hh := hilbert_ok hsh hd
  obtain ⟨h, h1, -, -, h3⟩ := C80_hilbert hm hsh hd
  cases h1.symm.trans hh
  have ht := tone_analytic h0 h2 A φ
  have ht' : Analytic n (traceOn p.data (p.cm.dims.idxOf d) i) (fun j => A * Complex.exp (((2 * Real.pi * m * j / n + φ : ℝ) : ℂ) * Complex.I)) :=
    ⟨fun j hj => by rw [ht.real j hj, hv j hj], ht.positive, ht.constant, ht.alternating⟩
  have hlt : i.getD (p.cm.dims.idxOf d) 0 < n := by
    rw [← even_shape hm hsh hd]
    exact inRange_axis hi (axis_lt hsh hd.1)
  have hval := analytic_unique (h3 i hi) ht' hlt
  simp only [traceOn, set_self_getD] at hval
  refine ⟨_, ⟨p.cm, p.data.shape, fun i => ‖(p.data.analytic (p.cm.dims.idxOf d)).get i‖⟩, hh, ?_, ?_, hval⟩
  · unfold PatchM.envelope
    rw [evenAxis_ok hd]
    simp only [bind, Except.bind, PatchM.new]
    rw [if_pos hsh]
  · simp only
    rw [hval, norm_mul, Complex.norm_exp_ofReal_mul_I, mul_one, Complex.norm_real, Real.norm_eq_abs]

/-- What is no dimension or not evenly sampled is refused. -/
theorem C80_refused (h : d ∉ p.cm.dims ∨ ∀ ds k c, p.cm.ents.get? d ≠ some (ds, .one k (.range c))) :
    p.hilbert d = .error .coordError ∧ p.envelope d = .error .coordError := by
  have : evenAxis p.cm d = .error .coordError := by
    unfold evenAxis
    split
    · rename_i hc
      rcases h with h | h
      · rw [if_neg h]
      · exact absurd hc (h _ _ _)
    · rfl
  unfold PatchM.hilbert PatchM.envelope
  rw [this]
  exact ⟨rfl, rfl⟩

end

/-! ### Phase weighted stacks -/

theorem collapsed_fst {α β : Type} {f : List α → β} {g : β → ℝ} {P : PatchM α} {Q : PatchM β} {q : PatchM ℝ} {names : List String} (h : Collapsed f P Q names)
    (hcm : q.cm = Q.cm) (hsh : q.data.shape = Q.data.shape) (hg : ∀ i, q.data.get i = g (Q.data.get i)) : Collapsed (fun l => g (f l)) P q names := by
  obtain ⟨cm, a⟩ := q
  obtain ⟨cm', a'⟩ := Q
  obtain rfl : cm = cm' := hcm
  refine ⟨h.dims, hsh.trans h.shape, fun i hi => ?_, fun name ds c h1 h2 h3 h4 i hi => ?_, h.lost, h.none⟩
  · obtain ⟨js, h1, h2⟩ := h.data i (hsh ▸ hi)
    exact ⟨js, by rw [hg, h1], h2⟩
  · exact h.labels name ds c h1 h2 h3 h4 i (hsh ▸ hi)

section
variable {eps : ℝ} {p : PatchM ℝ} {d t : String} {k : Kind} {s₀ s : ℚ} {n : ℕ} {power : ℝ}

theorem stack_run (hp : Ready p) (hd : d ∈ p.cm.dims) (ht : EvenAlong p.cm t k s₀ s n) :
    ∃ cm, p.cm.update [(d, .simple (emptyOf p.cm d))] = .ok cm ∧ Shrunk p.cm cm [d] (emptyOf p.cm) ∧
      p.phaseStack eps d (some t) power .empty = .ok ⟨cm, stackData eps power p.data (p.cm.dims.idxOf t) (p.cm.dims.idxOf d)⟩ ∧
      p.aggregate meanOf .empty (some [d]) = .ok ⟨cm, (p.data.reduceAxis meanOf (p.cm.dims.idxOf d)).expandDims (p.cm.dims.idxOf d)⟩ := by
  have hsub : ∀ e ∈ [d], e ∈ p.cm.dims := by simpa using hd
  obtain ⟨k', c, hc⟩ := hp.listed d hd
  obtain ⟨cm, h1, h2, h3, h4, h5⟩ := step_collapse (meanOf : List ℝ → ℝ) hp hd (emptyOf_short hp.regular hp.readable hp.listed hsub)
  refine ⟨cm, h1, h2, ?_, ?_⟩
  · unfold PatchM.phaseStack
    simp only [Option.elim_some, bind, Except.bind, evenAxis_ok ht, hc]
    rw [if_pos hd]
    simp only [reduceCoord, stackPatch]
    rw [emptyOf_eq hc] at h1
    simp only [bind, Except.bind, h1, PatchM.new]
    exact if_pos h4.shape
  · unfold PatchM.aggregate
    simp only [Option.getD_some, List.any_cons, List.any_nil, List.all_cons, List.all_nil, List.contains_iff_mem.2 hd, Bool.or_false,
      Bool.and_true, not_true_eq_false, if_false, PatchM.squeezes, Bool.false_and, Bool.false_eq_true, List.foldlM_cons, List.foldlM_nil]
    rw [aggStep_run hd hc]
    simp only [reduceCoord, Except.bind]
    rw [emptyOf_eq hc] at h1
    rw [h1]
    simp only
    rw [h3]
    rfl

/-- The stack over a dimension: every sample is the mean of the samples along that dimension, times the power of the absolute value of the mean of their
phases, those of the Hilbert transform. Coordinates are those of an aggregation. -/
theorem C80_stack (hp : Ready p) (hd : d ∈ p.cm.dims) (ht : EvenAlong p.cm t k s₀ s n) :
    ∃ h q, p.hilbert t = .ok h ∧ p.phaseStack eps d (some t) power .empty = .ok q ∧ Collapsed (weightedMean power) (withPhases eps p h) q [d] ∧ LabelsEmptied p q d := by
  have hsub : ∀ e ∈ [d], e ∈ p.cm.dims := by simpa using hd
  obtain ⟨cm, h1, h2, h3, h4⟩ := stack_run (eps := eps) (power := power) hp hd ht
  set h : PatchM ℂ := ⟨p.cm, p.data.analytic (p.cm.dims.idxOf t)⟩ with hh
  refine ⟨h, _, hilbert_ok hp.shape ht, h3, ?_, labels_emptied hp.regular hp.listed (List.nodup_singleton d) hsub h2 (by simp)⟩
  have hP : Ready (withPhases eps p h) := ⟨hp.regular, hp.readable, hp.listed, hp.ne, hp.shape⟩
  obtain ⟨cm', h1', h2', h3', h4', h5'⟩ := step_collapse (fun l : List (ℝ × ℂ) => (weightedMean power l, (0 : ℂ))) hP hd
    (emptyOf_short hp.regular hp.readable hp.listed hsub)
  have hcm : cm' = cm := by
    have : Except.ok cm' = (Except.ok cm : Except Err CM) := h1'.symm.trans h1
    cases this
    rfl
  subst hcm
  refine collapsed_fst (g := Prod.fst) h5' rfl rfl fun i => ?_
  simp only [stackData, Nd.expandDims, Nd.reduceAxis, weightedMean, withPhases, List.map_map, unitPhasors, hh]
  rfl

/-- Without `transform_dim`, a patch with two dimensions is transformed along the other one; with more or fewer, it is refused. -/
theorem C80_infer (r : DimReduce) : (p.cm.dims.filter (fun e => e ≠ d) = [t] → p.phaseStack eps d none power r = p.phaseStack eps d (some t) power r) ∧
    ((∀ t, p.cm.dims.filter (fun e => e ≠ d) ≠ [t]) → p.phaseStack eps d none power r = .error .parameterError) := by
  constructor
  · intro h
    have : inferDim p.cm d = .ok t := by unfold inferDim; rw [h]
    unfold PatchM.phaseStack
    simp only [Option.elim_none, Option.elim_some, this]
  · intro h
    have : inferDim p.cm d = .error .parameterError := by
      unfold inferDim
      split
      · exact absurd ‹_› (h _)
      · rfl
    unfold PatchM.phaseStack
    simp only [Option.elim_none, this]
    rfl

theorem expand_at {α β : Type} (f : List α → β) (a : Nd α) {axis : ℕ} {i : List ℕ} (h : axis < i.length) :
    ((a.reduceAxis f axis).expandDims axis).get i = f ((List.range (a.shape.getD axis 0)).map (traceOn a axis i)) := by
  simp only [Nd.expandDims, Nd.reduceAxis]
  congr 1
  refine List.map_congr_left fun j _ => ?_
  rw [List.insertIdx_eraseIdx_self (by omega)]
  rfl

theorem sum_norm_le {l : List ℂ} (h : ∀ z ∈ l, ‖z‖ ≤ 1) : ‖l.sum‖ ≤ l.length := by
  induction l with
  | nil => simp
  | cons z l ih =>
    have h1 := ih fun z hz => h z (by simp [hz])
    have h2 := h z (by simp)
    rw [List.sum_cons, List.length_cons]
    push_cast
    linarith [norm_add_le z l.sum]

theorem coherence_le {l : List ℂ} (h : ∀ z ∈ l, ‖z‖ ≤ 1) : ‖npMean l‖ ≤ 1 := by
  unfold npMean
  rw [norm_div, Complex.norm_natCast]
  by_cases h0 : l.length = 0
  · simp [h0]
  · have : (0 : ℝ) < l.length := by exact_mod_cast Nat.pos_of_ne_zero h0
    rw [div_le_one this]
    exact sum_norm_le h

/-- The stack is nowhere larger than the mean over the dimension; with a power of zero it is the mean. -/
theorem C80_weight (heps : 0 < eps) (hp : Ready p) (hd : d ∈ p.cm.dims) (ht : EvenAlong p.cm t k s₀ s n) (hpow : 0 ≤ power) :
    ∃ q r, p.phaseStack eps d (some t) power .empty = .ok q ∧ p.aggregate meanOf .empty (some [d]) = .ok r ∧
      ∀ i, InRange q.data.shape i → |q.data.get i| ≤ |r.data.get i| ∧ (power = 0 → q.data.get i = r.data.get i) := by
  obtain ⟨cm, -, -, h3, h4⟩ := stack_run (eps := eps) (power := power) hp hd ht
  refine ⟨_, _, h3, h4, fun i hi => ?_⟩
  have hmean : (npMean : List ℝ → ℝ) = meanOf := rfl
  simp only [stackData, hmean]
  refine ⟨?_, fun h0 => by rw [h0, Real.rpow_zero, mul_one]⟩
  rw [abs_mul]
  refine mul_le_of_le_one_right (abs_nonneg _) ?_
  rw [abs_of_nonneg (Real.rpow_nonneg (norm_nonneg _) _)]
  refine Real.rpow_le_one (norm_nonneg _) ?_ hpow
  simp only [Nd.expandDims, Nd.reduceAxis]
  refine coherence_le fun z hz => ?_
  obtain ⟨j, -, rfl⟩ := List.mem_map.1 hz
  simp only [unitPhasors]
  rw [norm_div, Complex.norm_real, Real.norm_of_nonneg (le_max_of_le_right heps.le), div_le_one (lt_max_of_lt_right heps)]
  exact le_max_left _ _

/-- Traces that are all alike, with an envelope that is nowhere smaller than `eps`, make the stack that is one of them. -/
theorem C80_coherent_partial (heps : 0 < eps) (hp : Ready p) (hd : d ∈ p.cm.dims) (ht : EvenAlong p.cm t k s₀ s n) (htd : t ≠ d) (hlen : lenDim p.cm d ≠ 0)
    (hsame : ∀ i j, InRange p.data.shape i → j < lenDim p.cm d → traceOn p.data (p.cm.dims.idxOf d) i j = p.data.get i) {e : PatchM ℝ} (he : p.envelope t = .ok e)
    (hbig : ∀ i, InRange p.data.shape i → eps ≤ e.data.get i) :
    ∃ q, p.phaseStack eps d (some t) power .empty = .ok q ∧ ∀ i, InRange q.data.shape i → q.data.get i = p.data.get i := by
  obtain ⟨cm, -, -, h3, -⟩ := stack_run (eps := eps) (power := power) hp hd ht
  refine ⟨_, h3, fun i hi => ?_⟩
  set dx := p.cm.dims.idxOf d with hdx
  set tx := p.cm.dims.idxOf t with htx
  have hshape : p.data.shape.getD dx 0 = lenDim p.cm d := shape_getD hp.shape hd
  have hdt : dx < p.data.shape.length := axis_lt hp.shape hd
  have hshq : (stackData eps power p.data tx dx).shape = p.data.shape.set dx 1 := by
    simp only [stackData, Nd.expandDims, Nd.reduceAxis]
    exact List.insertIdx_eraseIdx_self (l := p.data.shape) (n := dx) (by omega) 1
  have hip : InRange p.data.shape i := by
    rw [inRange_iff] at hi ⊢
    simp only [hshq, List.length_set] at hi
    refine ⟨hi.1, fun u hu => ?_⟩
    have := hi.2 u hu
    by_cases hud : u = dx
    · subst hud
      rw [getD_set_self hdt] at this
      omega
    · rwa [getD_set_ne (Ne.symm hud)] at this
  have hil : dx < i.length := by rw [inRange_length hip]; exact hdt
  have hne : tx ≠ dx := fun h => htd ((List.idxOf_inj ht.1).1 h)
  have hh := hilbert_ok hp.shape ht
  obtain ⟨h, e', hh', he', -, -, hval⟩ := C80_envelope hp.regular hp.shape ht
  obtain ⟨h2, hh2, -, -, han⟩ := C80_hilbert hp.regular hp.shape ht
  cases hh.symm.trans hh'
  cases hh.symm.trans hh2
  cases he.symm.trans he'
  have hlt : i.getD tx 0 < n := by
    rw [← even_shape hp.regular hp.shape ht]
    exact inRange_axis hip (axis_lt hp.shape ht.1)
  have hph : ∀ j < lenDim p.cm d, (p.data.analytic tx).get (i.set dx j) = (p.data.analytic tx).get i := by
    intro j hj
    have hij : InRange p.data.shape (i.set dx j) := inRange_set hip (by rw [hshape]; exact hj)
    have a1 := han _ hij
    have a2 := han _ hip
    have a3 : Analytic n (traceOn p.data tx i) (traceOn (p.data.analytic tx) tx (i.set dx j)) := by
      refine ⟨fun u hu => ?_, a1.positive, a1.constant, a1.alternating⟩
      rw [a1.real u hu]
      have hu' : InRange p.data.shape (i.set tx u) := inRange_set hip (by rw [even_shape hp.regular hp.shape ht]; exact hu)
      have := hsame _ j hu' hj
      simp only [traceOn] at this ⊢
      rw [← this, List.set_comm _ _ hne.symm]
    have := analytic_unique a3 a2 hlt
    simp only [traceOn, ← htx, set_self_getD] at this
    rw [← this]
    congr 1
    conv_lhs => rw [← set_self_getD (i := i.set dx j) (axis := tx)]
    rw [getD_set_ne hne.symm]
  have hnorm : eps ≤ ‖(p.data.analytic tx).get i‖ := by
    have h1 := hbig i hip
    have h2 : e.data.get i = ‖(p.data.analytic tx).get i‖ := by
      have := he
      unfold PatchM.envelope at this
      rw [evenAxis_ok ht] at this
      simp only [bind, Except.bind, PatchM.new] at this
      rw [if_pos hp.shape] at this
      cases this
      rfl
    rwa [h2] at h1
  simp only [stackData]
  rw [expand_at _ _ hil, expand_at _ _ hil]
  have hm1 : (List.range (p.data.shape.getD dx 0)).map (traceOn p.data dx i) = List.replicate (lenDim p.cm d) (p.data.get i) := by
    rw [hshape, List.eq_replicate_iff]
    refine ⟨by simp, fun b hb => ?_⟩
    obtain ⟨j, hj, rfl⟩ := List.mem_map.1 hb
    exact hsame i j hip (List.mem_range.1 hj)
  have hm2 : (List.range ((unitPhasors eps p.data tx).shape.getD dx 0)).map (traceOn (unitPhasors eps p.data tx) dx i) =
      List.replicate (lenDim p.cm d) ((unitPhasors eps p.data tx).get i) := by
    rw [List.eq_replicate_iff]
    refine ⟨by simp only [List.length_map, List.length_range]; exact hshape, fun b hb => ?_⟩
    obtain ⟨j, hj, rfl⟩ := List.mem_map.1 hb
    have hj' : j < lenDim p.cm d := by rw [← hshape]; exact List.mem_range.1 hj
    simp only [traceOn, unitPhasors]
    rw [hph j hj']
  have hmean : ∀ {K : Type} [Field K] [CharZero K] (z : K), npMean (List.replicate (lenDim p.cm d) z) = z := by
    intro K _ _ z
    have : (lenDim p.cm d : K) ≠ 0 := by exact_mod_cast hlen
    simp only [npMean, List.sum_replicate, List.length_replicate, nsmul_eq_mul]
    field_simp
  rw [hm1, hm2, hmean, hmean]
  simp only [unitPhasors]
  rw [max_eq_left hnorm, norm_div, Complex.norm_real, norm_norm, div_self (by linarith), Real.one_rpow, mul_one]


/-- Dropping a dimension by giving it no coordinate: as `drop_coords`, and the other coordinates are read again. -/
theorem update_drop {m m₁ : CM} (hm : Regular m) (hd : d ∈ m.dims) (h1 : m.dropCoords [d] = .ok m₁) (hr : Readable m₁) :
    ∃ m₂, m.update [(d, .drop)] = .ok m₂ ∧ m₂.dims = m₁.dims ∧ (∀ name, m₁.ents.get? name = none → m₂.ents.get? name = none) ∧
      ∀ name ds c, m₁.ents.get? name = some (ds, c) → ∃ x, c.canon = .ok x ∧ m₂.ents.get? name = some (ds, x) := by
  have hplain : matchesPrefixSuffix m.dims d = false := hm.plain d (mem_ents_keys hm.wf hd)
  obtain ⟨hw, hdist⟩ := CM.dropCoords_wf h1 hm.wf
  obtain ⟨m₁', h1', hD⟩ := dropCoords_spec hm.wf [d]
  cases h1.symm.trans h1'
  have hdims : m.dims.filter (fun e => !decide (e = d)) = m₁.dims := by
    rw [hD.dims]
    exact List.filter_congr fun e _ => by simp
  have hkeys : (CM.nested m₁.ents).keys = m₁.ents.keys := CM.nested_keys _
  obtain ⟨m₂, h2, h3, h4, h5⟩ := getCoordManager_total (coords := CM.nested m₁.ents) (dims := m₁.dims) (by rw [hkeys]; exact hw.names) (lenDim m₁)
    (fun name a ha => by
      rw [get?_nested] at ha
      cases hc : m₁.ents.get? name with
      | none => rw [hc] at ha; cases ha
      | some v =>
        obtain ⟨ds, c⟩ := v
        rw [hc] at ha
        cases ha
        obtain ⟨x, hx⟩ := hr name ds c hc
        refine ⟨ds, c, x, rfl, hx, hw.attached name ds c (Dict.mem_of_get? hc), fun hn => ?_, ?_⟩
        · obtain ⟨c', n', hc', -, -⟩ := CM.WellFormed.get_dim hw hn
          rw [hc] at hc'
          cases hc'
          rfl
        · by_cases h0 : ds = []
          · exact Or.inl h0
          · exact Or.inr (CM.WellFormed.shape_eq hw (Dict.mem_of_get? hc) h0).symm)
    (fun e he => by rw [hkeys]; exact mem_ents_keys hw he)
  refine ⟨m₂, ?_, h3, fun name hn => ?_, fun name ds c hc => ?_⟩
  · unfold CM.update
    simp [hplain, coordDimMap, CArg.isDrop, bind, Except.bind, h1, Dict.update, hdims, h2, pure, Except.pure]
  · by_contra hne
    obtain ⟨v, hv⟩ := Option.ne_none_iff_exists'.1 hne
    have : name ∈ m₁.ents.keys := by rw [← hkeys, ← h4]; exact Dict.mem_keys.2 ⟨_, hv⟩
    obtain ⟨v', hv'⟩ := Dict.mem_keys.1 this
    rw [hn] at hv'
    cases hv'
  · exact h5 name (.nested ds c) ds c (by rw [get?_nested, hc]; rfl) rfl

theorem squeeze_expand {α β : Type} (f : List α → β) (a : Nd α) (axis : ℕ) :
    (((a.reduceAxis f axis).expandDims axis).squeezeAxis axis).shape = (a.reduceAxis f axis).shape := by
  simp only [Nd.squeezeAxis, Nd.expandDims, Nd.reduceAxis]
  exact List.eraseIdx_insertIdx_self _

/-- With `dim_reduce="squeeze"` the dimension and its coordinates are gone, as for an aggregation, and the samples are the same. -/
theorem C80_squeezed (hp : Ready p) (hd : d ∈ p.cm.dims) (ht : EvenAlong p.cm t k s₀ s n) (htd : t ≠ d) :
    ∃ q q₀ r, p.phaseStack eps d (some t) power .squeeze = .ok q ∧ p.phaseStack eps d (some t) power .empty = .ok q₀ ∧
      p.aggregate meanOf .squeeze (some [d]) = .ok r ∧ q.cm.dims = r.cm.dims ∧ q.data.shape = r.data.shape ∧
      (∀ i, InRange q.data.shape i → q.data.get i = q₀.data.get (i.insertIdx (p.cm.dims.idxOf d) 0)) ∧
      (∀ name ds c, r.cm.ents.get? name = some (ds, c) → ∃ c', q.cm.ents.get? name = some (ds, c') ∧ SameValues c c') ∧
      ∀ name, r.cm.ents.get? name = none → q.cm.ents.get? name = none := by
  obtain ⟨cm₀, -, -, h3, -⟩ := stack_run (eps := eps) (power := power) hp hd ht
  obtain ⟨r, hr, hready, hrem⟩ := step_squeeze (meanOf : List ℝ → ℝ) hp hd ⟨t, ht.1, htd⟩
  obtain ⟨k', c, hc⟩ := hp.listed d hd
  obtain ⟨m₁, h1, hD⟩ := dropCoords_spec hp.regular.wf [d]
  have hr' := hr
  rw [aggStep_run hd hc] at hr'
  simp only [reduceCoord, Except.bind, h1] at hr'
  have hrd : r = ⟨m₁, p.data.reduceAxis meanOf (p.cm.dims.idxOf d)⟩ := by
    unfold PatchM.new at hr'
    split_ifs at hr'
    cases hr'
    rfl
  subst hrd
  obtain ⟨m₂, h4, h5, h6, h7⟩ := update_drop hp.regular hd h1 hready.readable
  have hshape : m₂.shape = m₁.shape := by
    have hne : m₁.dims ≠ [] := hready.ne
    rw [cm_shape hne, cm_shape (by rw [h5]; exact hne), h5]
    refine List.map_congr_left fun e he => ?_
    obtain ⟨ke, ce, hce⟩ := hready.listed e he
    obtain ⟨x, hx1, hx2⟩ := h7 e _ _ hce
    unfold lenDim Ents.lenOf
    rw [hx2, hce]
    exact SameValues.len (canon_same hx1)
  have hsq : m₂.shape = ((stackData eps power p.data (p.cm.dims.idxOf t) (p.cm.dims.idxOf d)).squeezeAxis (p.cm.dims.idxOf d)).shape :=
    hshape.trans (hready.shape.trans (squeeze_expand npMean p.data _).symm)
  refine ⟨⟨m₂, (stackData eps power p.data (p.cm.dims.idxOf t) (p.cm.dims.idxOf d)).squeezeAxis (p.cm.dims.idxOf d)⟩, _, ⟨m₁, p.data.reduceAxis meanOf (p.cm.dims.idxOf d)⟩, ?_, h3, ?_, h5,
    (squeeze_expand npMean p.data _), fun i _ => rfl, fun name ds c hc => ?_, h6⟩
  · unfold PatchM.phaseStack
    simp only [Option.elim_some, bind, Except.bind, evenAxis_ok ht, hc]
    rw [if_pos hd]
    simp only [reduceCoord, stackPatch, bind, Except.bind, h4, PatchM.new]
    exact if_pos hsq
  · unfold PatchM.aggregate
    have hall : p.cm.dims.all [d].contains = false := by
      rw [List.all_eq_false]
      exact ⟨t, ht.1, by simpa using htd⟩
    simp only [Option.getD_some, List.any_cons, List.any_nil, List.all_cons, List.all_nil, List.contains_iff_mem.2 hd, Bool.or_false,
      Bool.and_true, not_true_eq_false, if_false, hall, Bool.and_false, Bool.false_eq_true, List.foldlM_cons, List.foldlM_nil]
    rw [hr]
    rfl
  · obtain ⟨x, hx1, hx2⟩ := h7 name ds c hc
    exact ⟨x, hx2, canon_same hx1⟩

/-- A stack over what is no dimension, or along what is no even dimension, is refused. -/
theorem C80_stack_refused (r : DimReduce) (h : d ∉ p.cm.dims ∨ t ∉ p.cm.dims ∨ ∀ ds k c, p.cm.ents.get? t ≠ some (ds, .one k (.range c))) :
    p.phaseStack eps d (some t) power r = .error .coordError := by
  have hcases : (d ∉ p.cm.dims ∧ ∃ a, evenAxis p.cm t = .ok a) ∨ evenAxis p.cm t = .error .coordError := by
    unfold evenAxis
    split
    · rename_i hc
      split_ifs with ht
      · rcases h with h | h | h
        · exact Or.inl ⟨h, _, rfl⟩
        · exact absurd ht h
        · exact absurd hc (h _ _ _)
      · exact Or.inr rfl
    · exact Or.inr rfl
  unfold PatchM.phaseStack
  simp only [Option.elim_some, bind, Except.bind]
  rcases hcases with ⟨h1, a, h2⟩ | h2
  · rw [h2]
    simp only
    split
    · rw [if_neg h1]
    · rfl
  · rw [h2]

end

/-! ### Examples -/

/-- Every channel records one period of the same tone. -/
noncomputable def exHum : PatchM ℝ := ⟨exTone.patch.cm, [3, 4], fun i => Real.cos (2 * Real.pi * (1 : ℕ) * (i.getD 0 0 : ℕ) / (3 : ℕ) + 0)⟩

theorem exHum_ready : Ready exHum := ⟨exTone_ready.regular, exTone_ready.readable, exTone_ready.listed, exTone_ready.ne, exTone_ready.shape⟩

theorem exHum_even : EvenAlong exHum.cm "time" .time 0 500000000 3 := ⟨by decide, _, rfl⟩

theorem exHum_line {i : List ℕ} (hi : InRange exHum.data.shape i) (j : ℕ) :
    traceOn exHum.data (exHum.cm.dims.idxOf "time") i j = 1 * Real.cos (2 * Real.pi * (1 : ℕ) * j / (3 : ℕ) + 0) := by
  have : (i.set 0 j).getD 0 0 = j := getD_set_self (by rw [inRange_length hi]; decide)
  have e : exHum.cm.dims.idxOf "time" = 0 := by decide
  rw [e]
  simp only [traceOn, exHum, this, one_mul]

/-- The hypotheses of the theorems on `hilbert` and `envelope`: the tone has an envelope of one. -/
example : Regular exHum.cm ∧ exHum.cm.shape = exHum.data.shape ∧ EvenAlong exHum.cm "time" .time 0 500000000 3 ∧ InRange exHum.data.shape [2, 1] ∧
    ∃ q, exHum.envelope "time" = .ok q ∧ q.data.get [2, 1] = |1| := by
  have hi : InRange exHum.data.shape [2, 1] := List.Forall₂.cons (by decide) (List.Forall₂.cons (by decide) List.Forall₂.nil)
  obtain ⟨h, q, -, h2, h3, -⟩ := C80_tone exHum_ready.regular exHum_ready.shape exHum_even (m := 1) (by norm_num) (by norm_num) hi
    (fun j _ => exHum_line hi j)
  exact ⟨exHum_ready.regular, exHum_ready.shape, exHum_even, hi, q, h2, h3⟩

/-- The hypotheses of `C80_coherent_partial` and of the other theorems on stacks: the stack of four such channels is one of them. -/
example : Ready exHum ∧ EvenAlong exHum.cm "time" .time 0 500000000 3 ∧ exHum.cm.dims.filter (fun e => e ≠ "distance") = ["time"] ∧
    ∃ q, exHum.phaseStack (1 / 2) "distance" none 2 .empty = .ok q ∧ ∀ i, InRange q.data.shape i → q.data.get i = exHum.data.get i := by
  refine ⟨exHum_ready, exHum_even, by decide, ?_⟩
  rw [(C80_infer (t := "time") .empty).1 (by decide)]
  obtain ⟨h, q, h1, h2, -⟩ := C80_envelope exHum_ready.regular exHum_ready.shape exHum_even
  refine C80_coherent_partial (e := q) (by norm_num) exHum_ready (by decide) exHum_even (by decide) (by decide +kernel) ?_ h2 ?_
  · intro i j hi hj
    have e : exHum.cm.dims.idxOf "distance" = 1 := by decide
    rw [e]
    simp only [traceOn, exHum]
    rw [getD_set_ne (by decide)]
  · intro i hi
    obtain ⟨h', q', -, h2', h3, -⟩ := C80_tone exHum_ready.regular exHum_ready.shape exHum_even (m := 1) (by norm_num) (by norm_num) hi
      (fun j _ => exHum_line hi j)
    cases h2.symm.trans h2'
    rw [h3]
    norm_num

/-- A refused dimension: the depths are neither even nor a dimension. -/
example : "depth" ∉ exHum.cm.dims ∧ exHum.hilbert "depth" = .error .coordError :=
  ⟨by decide, (C80_refused (Or.inl (by decide))).1⟩

/-- Every channel records the same constant. -/
noncomputable def exFaint (x : ℝ) : PatchM ℝ := ⟨exTone.patch.cm, [3, 4], fun _ => x⟩

theorem constant_analytic {n : ℕ} (x : ℝ) : Analytic n (fun _ => x) (fun _ => x) := by
  refine ⟨fun _ _ => rfl, fun k hk h2 => ?_, by simp, by simp⟩
  have := wave_sum (n := n) (j := k) (m := 0) hk (by omega)
  rw [if_neg (by omega)] at this
  rw [← Finset.mul_sum]
  have e : ∑ j ∈ Finset.range n, wave ((j : ℚ) * k / n) = ∑ j ∈ Finset.range n, expi ((k : ℚ) * j / n) * expi (-((j : ℚ) * (0 : ℕ) / n)) := by
    refine Finset.sum_congr rfl fun j _ => ?_
    rw [Nat.cast_zero, mul_zero, zero_div, neg_zero, expi_zero, mul_one, mul_comm (k : ℚ)]
    exact wave_expi _
  rw [e, this, mul_zero]

/-- Without the limit on amplitudes C80 fails: four equal channels of a signal that is weaker than the limit make a stack that is not one of them. -/
theorem C80_faint_violated {eps : ℝ} (heps : 0 < eps) : ∃ p q : PatchM ℝ, Ready p ∧ (∀ i, p.data.get i = eps / 2) ∧
    p.phaseStack eps "distance" (some "time") 2 .empty = .ok q ∧ q.data.get [0, 0] = eps / 8 := by
  have hp : Ready (exFaint (eps / 2)) := ⟨exTone_ready.regular, exTone_ready.readable, exTone_ready.listed, exTone_ready.ne, exTone_ready.shape⟩
  have he : EvenAlong (exFaint (eps / 2)).cm "time" .time 0 500000000 3 := exHum_even
  have hdist : "distance" ∈ exTone.patch.cm.dims := by decide
  have e0 : exTone.patch.cm.dims.idxOf "time" = 0 := by decide
  have e1 : exTone.patch.cm.dims.idxOf "distance" = 1 := by decide
  obtain ⟨cm, -, -, h3, -⟩ := stack_run (eps := eps) (power := 2) hp (d := "distance") hdist he
  refine ⟨_, _, hp, fun _ => rfl, h3, ?_⟩
  have hval : ∀ i, InRange [3, 4] i → ((exFaint (eps / 2)).data.analytic 0).get i = ((eps / 2 : ℝ) : ℂ) := by
    intro i hi
    obtain ⟨h, h1, -, -, h2⟩ := C80_hilbert hp.regular hp.shape he
    cases h1.symm.trans (hilbert_ok hp.shape he)
    have hlt : i.getD 0 0 < 3 := inRange_axis hi (by decide)
    have := analytic_unique (h2 i hi) (constant_analytic (eps / 2)) hlt
    change traceOn ((exFaint (eps / 2)).data.analytic (exTone.patch.cm.dims.idxOf "time")) (exTone.patch.cm.dims.idxOf "time") i _ = _ at this
    rw [e0] at this
    simpa only [traceOn, set_self_getD] using this
  change (stackData eps 2 (exFaint (eps / 2)).data (exTone.patch.cm.dims.idxOf "time") (exTone.patch.cm.dims.idxOf "distance")).get [0, 0] = _
  rw [e0, e1]
  simp only [stackData]
  rw [expand_at _ _ (by decide), expand_at _ _ (by decide)]
  have hph : ∀ j < 4, traceOn (unitPhasors eps (exFaint (eps / 2)).data 0) 1 [0, 0] j = ((1 / 2 : ℝ) : ℂ) := by
    intro j hj
    simp only [traceOn, unitPhasors]
    rw [show [0, 0].set 1 j = [0, j] from rfl, hval [0, j] (List.Forall₂.cons (by decide) (List.Forall₂.cons hj List.Forall₂.nil)), Complex.norm_real, Real.norm_of_nonneg (by linarith),
      max_eq_right (by linarith), ← Complex.ofReal_div]
    congr 1
    field_simp
  have hr : (unitPhasors eps (exFaint (eps / 2)).data 0).shape.getD 1 0 = 4 := rfl
  have hr' : (exFaint (eps / 2)).data.shape.getD 1 0 = 4 := rfl
  rw [hr, hr']
  have r4 : List.range 4 = [0, 1, 2, 3] := rfl
  rw [r4]
  simp only [List.map_cons, List.map_nil, hph 0 (by norm_num), hph 1 (by norm_num), hph 2 (by norm_num), hph 3 (by norm_num)]
  have ha : npMean [((1 / 2 : ℝ) : ℂ), ((1 / 2 : ℝ) : ℂ), ((1 / 2 : ℝ) : ℂ), ((1 / 2 : ℝ) : ℂ)] = ((1 / 2 : ℝ) : ℂ) := by
    simp only [npMean, List.sum_cons, List.sum_nil, List.length_cons, List.length_nil]
    push_cast
    norm_num
  rw [ha, Complex.norm_real]
  simp only [traceOn, exFaint, npMean, List.sum_cons, List.sum_nil, List.length_cons, List.length_nil]
  rw [Real.norm_of_nonneg (by norm_num), show (2 : ℝ) = ((2 : ℕ) : ℝ) by norm_num, Real.rpow_natCast]
  push_cast
  ring

end Verif
