import Verif.Proof.Trigger
import Verif.Props.WindowFilter
import Verif.Props.Arith
/-! # C79: kurtosis and STA/LTA -/
namespace Verif
open Spec

section
variable {p : PatchM ℚ} {d : String} {k : Kind} {s₀ s : ℚ} {n : ℕ} {samples : Bool} {r : WinReq}

theorem kurtosis_ok (hm : Regular p.cm) (hd : EvenAlong p.cm d k s₀ s n) {w : ℤ} (hr : AsksFor |s| samples r w) (hw : 2 ≤ w) (rec : Bool) :
    p.kurtosis rec [(d, r)] samples =
      .ok ⟨p.cm, p.data.overLines (if rec then recursiveKurtosis w.toNat else windowedKurtosis w.toNat) (p.cm.dims.idxOf d)⟩ := by
  obtain ⟨hdd, stop, hc⟩ := hd
  unfold PatchM.kurtosis
  rw [oneDim_single hdd]
  simp only [bind, Except.bind, hc]
  rw [kurtosisWindow_asks (hm.classes _ _ _ _ (Dict.mem_of_get? hc)) hr, if_neg (by omega)]
  rfl

/-- The windowed kurtosis is the kurtosis of the samples in the window around each sample, as far as there are any; the coordinates are kept. The labels may
ascend or descend. -/
theorem C79_windowed (hm : Regular p.cm) (hsh : p.cm.shape = p.data.shape) (hd : EvenAlong p.cm d k s₀ s n) {w : ℤ} (hr : AsksFor |s| samples r w) (hw : 2 ≤ w) :
    ∃ q, p.kurtosis false [(d, r)] samples = .ok q ∧ q.cm = p.cm ∧ q.data.shape = p.data.shape ∧ ∀ i, InRange p.data.shape i →
      q.data.get i = kurtosisOf (windowAround (lineAt p.data (p.cm.dims.idxOf d) i) w.toNat (i.getD (p.cm.dims.idxOf d) 0)) := by
  refine ⟨_, kurtosis_ok hm hd hr hw false, rfl, rfl, fun i hi => ?_⟩
  have haxl : p.cm.dims.idxOf d < p.data.shape.length := by
    rw [data_dims hsh hd.1]
    exact List.idxOf_lt_length_of_mem hd.1
  simp only [Nd.overLines, Bool.false_eq_true, if_false]
  exact windowedKurtosis_get (x := lineAt p.data (p.cm.dims.idxOf d) i) (by omega) (by rw [lineAt_length]; exact inRange_axis hi haxl)

/-- The recursive kurtosis is the running kurtosis with weights that fade by `1 - 1 / w`, and nan for a line of zeros. -/
theorem C79_recursive (hm : Regular p.cm) (hsh : p.cm.shape = p.data.shape) (hd : EvenAlong p.cm d k s₀ s n) {w : ℤ} (hr : AsksFor |s| samples r w) (hw : 2 ≤ w) :
    ∃ q, p.kurtosis true [(d, r)] samples = .ok q ∧ q.cm = p.cm ∧ q.data.shape = p.data.shape ∧ ∀ i, InRange p.data.shape i →
      q.data.get i = if ∃ x ∈ lineAt p.data (p.cm.dims.idxOf d) i, x ≠ 0 then
        some (runningKurtosis (1 - 1 / w) (lineAt p.data (p.cm.dims.idxOf d) i) (i.getD (p.cm.dims.idxOf d) 0)) else none := by
  refine ⟨_, kurtosis_ok hm hd hr hw true, rfl, rfl, fun i hi => ?_⟩
  have haxl : p.cm.dims.idxOf d < p.data.shape.length := by
    rw [data_dims hsh hd.1]
    exact List.idxOf_lt_length_of_mem hd.1
  have h0 := recursiveKurtosis_get (n := w.toNat) (l := lineAt p.data (p.cm.dims.idxOf d) i) (i := i.getD (p.cm.dims.idxOf d) 0) (by omega)
    (by rw [lineAt_length]; exact inRange_axis hi haxl)
  have hc : ((w.toNat : ℕ) : ℚ) = (w : ℚ) := by
    have : ((w.toNat : ℕ) : ℤ) = w := Int.toNat_of_nonneg (by omega)
    exact_mod_cast congrArg (Int.cast : ℤ → ℚ) this
  rw [hc] at h0
  simp only [Nd.overLines, if_true]
  exact h0

/-- A patch with every sample changed. -/
def PatchM.each {α β : Type} (p : PatchM α) (f : α → β) : PatchM β := ⟨p.cm, p.data.shape, fun i => f (p.data.get i)⟩

theorem lineAt_each (p : PatchM ℚ) (f : ℚ → ℚ) (axis : ℕ) (i : List ℕ) : lineAt (p.each f).data axis i = (lineAt p.data axis i).map f := by
  simp [lineAt, PatchM.each]

/-- Scaling the data and adding a constant leaves the windowed kurtosis as it is. -/
theorem C79_affine (hm : Regular p.cm) (hsh : p.cm.shape = p.data.shape) (hd : EvenAlong p.cm d k s₀ s n) {w : ℤ} (hr : AsksFor |s| samples r w) (hw : 2 ≤ w)
    {a : ℚ} (ha : a ≠ 0) (b : ℚ) :
    ∃ q q', p.kurtosis false [(d, r)] samples = .ok q ∧ (p.each fun x => a * x + b).kurtosis false [(d, r)] samples = .ok q' ∧
      ∀ i, InRange p.data.shape i → q'.data.get i = q.data.get i := by
  obtain ⟨q, h1, -, -, h2⟩ := C79_windowed hm hsh hd hr hw
  obtain ⟨q', h1', -, -, h2'⟩ := C79_windowed (p := p.each fun x => a * x + b) hm hsh hd hr hw
  refine ⟨q, q', h1, h1', fun i hi => ?_⟩
  rw [h2 i hi, h2' i hi, lineAt_each, windowAround_map, kurtosis_affine ha]
  rfl

/-- The windowed kurtosis is at least one. -/
theorem C79_least (hm : Regular p.cm) (hsh : p.cm.shape = p.data.shape) (hd : EvenAlong p.cm d k s₀ s n) {w : ℤ} (hr : AsksFor |s| samples r w) (hw : 2 ≤ w)
    {q : PatchM (Option ℚ)} (hq : p.kurtosis false [(d, r)] samples = .ok q) {i : List ℕ} (hi : InRange p.data.shape i) {x : ℚ} (hx : q.data.get i = some x) : 1 ≤ x := by
  obtain ⟨q', h1, -, -, h2⟩ := C79_windowed hm hsh hd hr hw
  cases hq.symm.trans h1
  rw [h2 i hi] at hx
  exact kurtosis_least hx

theorem fading_mul (c a : ℚ) (x : ℕ → ℚ) (i : ℕ) : fading c (fun j => a * x j) i = a * fading c x i := by
  unfold fading
  rw [← List.sum_map_mul_left]
  congr 1
  exact List.map_congr_left fun j _ => by ring

theorem fading_congr {c : ℚ} {x y : ℕ → ℚ} (h : ∀ j, x j = y j) (i : ℕ) : fading c x i = fading c y i := by rw [funext h]

theorem runningKurtosis_scale {c a : ℚ} (ha : a ≠ 0) (l : List ℚ) (i : ℕ) : runningKurtosis c (l.map fun x => a * x) i = runningKurtosis c l i := by
  have hx : ∀ j, (l.map fun x => a * x).getD j 0 = a * l.getD j 0 := by
    intro j
    simp only [List.getD_eq_getElem?_getD, List.getElem?_map]
    cases l[j]? <;> simp
  have hmom : centralMoment 2 (l.map fun x => a * x) = a ^ 2 * centralMoment 2 l := by simpa using moment_affine 2 a 0 l
  have h2 : (0 : ℚ) ≤ a ^ 2 := sq_nonneg a
  simp only [runningKurtosis, hx, fading_mul, hmom]
  refine fading_congr (fun j => ?_) i
  have hv : fading c (fun j => (a * l.getD j 0 - a * fading c (fun j => l.getD j 0) j) ^ 2) j =
      a ^ 2 * fading c (fun j => (l.getD j 0 - fading c (fun j => l.getD j 0) j) ^ 2) j := by
    rw [← fading_mul]
    exact fading_congr (fun j => by ring) j
  rw [hv, ← mul_max_of_nonneg _ _ h2]
  rw [show (a * l.getD j 0 - a * fading c (fun j => l.getD j 0) j) ^ 4 = a ^ 4 * (l.getD j 0 - fading c (fun j => l.getD j 0) j) ^ 4 by ring, mul_pow,
    show (a ^ 2) ^ 2 = a ^ 4 by ring, mul_div_mul_left _ _ (pow_ne_zero 4 ha)]

/-- Scaling the data leaves the recursive kurtosis as it is. Adding a constant does not, see `C79_offset_violated`. -/
theorem C79_scale (hm : Regular p.cm) (hsh : p.cm.shape = p.data.shape) (hd : EvenAlong p.cm d k s₀ s n) {w : ℤ} (hr : AsksFor |s| samples r w) (hw : 2 ≤ w)
    {a : ℚ} (ha : a ≠ 0) :
    ∃ q q', p.kurtosis true [(d, r)] samples = .ok q ∧ (p.each fun x => a * x).kurtosis true [(d, r)] samples = .ok q' ∧
      ∀ i, InRange p.data.shape i → q'.data.get i = q.data.get i := by
  obtain ⟨q, h1, -, -, h2⟩ := C79_recursive hm hsh hd hr hw
  obtain ⟨q', h1', -, -, h2'⟩ := C79_recursive (p := p.each fun x => a * x) hm hsh hd hr hw
  refine ⟨q, q', h1, h1', fun i hi => ?_⟩
  rw [h2 i hi, h2' i hi, lineAt_each, runningKurtosis_scale ha]
  refine if_congr ?_ rfl rfl
  simp [ha, PatchM.each]

/-- The recursive kurtosis is never negative. -/
theorem C79_nonneg (hm : Regular p.cm) (hsh : p.cm.shape = p.data.shape) (hd : EvenAlong p.cm d k s₀ s n) {w : ℤ} (hr : AsksFor |s| samples r w) (hw : 2 ≤ w)
    {q : PatchM (Option ℚ)} (hq : p.kurtosis true [(d, r)] samples = .ok q) {i : List ℕ} (hi : InRange p.data.shape i) {x : ℚ} (hx : q.data.get i = some x) : 0 ≤ x := by
  obtain ⟨q', h1, -, -, h2⟩ := C79_recursive hm hsh hd hr hw
  cases hq.symm.trans h1
  rw [h2 i hi] at hx
  split_ifs at hx
  cases hx
  have hw' : (2 : ℚ) ≤ w := by exact_mod_cast hw
  have hc : (1 : ℚ) / w ≤ 1 := by rw [div_le_one (by linarith)]; linarith
  have hc' : (0 : ℚ) ≤ 1 / w := by positivity
  exact fading_nonneg (by linarith) (by linarith) (fun j => by positivity) _

/-- A window of less than two samples is refused, for both methods; and so are other than one keyword, one that is not a dimension, and a dimension whose labels
are not evenly spaced. -/
theorem C79_refused (rec : Bool) (kw : Dict WinReq) :
    (∀ v w, kw = [v] → Regular p.cm → EvenAlong p.cm v.1 k s₀ s n → AsksFor |s| samples v.2 w → w < 2 → p.kurtosis rec kw samples = .error .parameterError) ∧
    ((∀ v, kw ≠ [v]) → ∃ e, p.kurtosis rec kw samples = .error e) ∧
    ((∃ v ∈ kw, v.1 ∉ p.cm.dims) → ∃ e, p.kurtosis rec kw samples = .error e) ∧
    (∀ v, kw = [v] → v.1 ∈ p.cm.dims → (∀ ds k c, p.cm.ents.get? v.1 ≠ some (ds, .one k (.range c))) → p.kurtosis rec kw samples = .error .coordError) := by
  have hone : (∀ v, kw = [v] → v.1 ∉ p.cm.dims) → ∃ e, p.kurtosis rec kw samples = .error e := by
    intro h
    unfold PatchM.kurtosis
    cases h1 : oneDim p.cm kw with
    | error e => exact ⟨e, rfl⟩
    | ok v => exact absurd (oneDim_mem h1).1 (h v (oneDim_mem h1).2)
  refine ⟨?_, fun h => hone fun v hv => absurd hv (h v), fun ⟨v, hv, hn⟩ => hone fun v' hv' => ?_, ?_⟩
  · rintro v w rfl hm ⟨hdd, stop, hc⟩ hr hw
    unfold PatchM.kurtosis
    rw [oneDim_single (d := v.1) hdd v.2]
    simp only [bind, Except.bind, hc]
    rw [kurtosisWindow_asks (hm.classes _ _ _ _ (Dict.mem_of_get? hc)) hr, if_pos hw]
  · subst hv'
    rw [List.mem_singleton] at hv
    exact hv ▸ hn
  · rintro v rfl hd h
    unfold PatchM.kurtosis
    rw [oneDim_single (d := v.1) hd v.2]
    simp only [bind, Except.bind]

/-! ### STA/LTA -/

/-- The ratio is that of the means of the last `a` and the last `b` samples. It is nan while there are fewer than `b`, and where the second mean is zero. The
coordinates keep their values. -/
theorem C79_stalta (argsort : List ℚ → List ℕ) (hm : Regular p.cm) (hread : Readable p.cm) (hl : DimsListed p.cm) (hsh : p.cm.shape = p.data.shape)
    (hd : EvenAlong p.cm d k s₀ s n) (hs : 0 < s) {sta lta : WinReq} (hlt : sta.magnitude < lta.magnitude) {a b : ℕ} (ha : AsksFor s samples sta a) (hb : AsksFor s samples lta b)
    (ha1 : 1 ≤ a) (hab : a ≤ b) (hbn : b ≤ n) :
    ∃ q, p.stalta argsort [(d, [sta, lta])] samples = .ok q ∧ q.cm.dims = p.cm.dims ∧ q.data.shape = p.data.shape ∧
      (∀ i, InRange p.data.shape i → q.data.get i =
        let line := lineAt p.data (p.cm.dims.idxOf d) i
        let j := i.getD (p.cm.dims.idxOf d) 0
        if b ≤ j + 1 ∧ average (lastSamples line b j) ≠ 0 then some (average (lastSamples line a j) / average (lastSamples line b j)) else none) ∧
      (∀ name ds c, p.cm.ents.get? name = some (ds, c) → ∃ c', SameValues c c' ∧ q.cm.ents.get? name = some (ds, c')) ∧
      (∀ name, p.cm.ents.get? name = none → q.cm.ents.get? name = none) := by
  obtain ⟨u, hu, hucm, hush, hug⟩ := roll_every windowMean none hm hsh hd hs ha ha1 (by omega)
  obtain ⟨v, hv, hvcm, hvsh, hvg⟩ := roll_every windowMean none hm hsh hd hs hb (by omega) hbn
  obtain ⟨q, hq, h1, h2, h3, h4, h5⟩ := C60_same argsort nanDiv u v (hucm ▸ hm) (hucm ▸ hread) (hucm ▸ hl) (by rw [hucm, hush, hsh]) (by rw [hucm, hvcm])
    (by rw [hvcm, hvsh, hsh])
  refine ⟨q, ?_, by rw [h1, hucm], by rw [h2, hush], fun i hi => ?_, fun name ds c h => h4 name ds c (hucm ▸ h), fun name h => h5 name (hucm ▸ h)⟩
  · unfold PatchM.stalta
    simp only
    rw [if_neg (not_le.2 hlt), hu]
    simp only [bind, Except.bind, hv]
    exact hq
  · rw [h3 i (by rwa [hush]), hug i hi, hvg i hi]
    have hmean : ∀ l, windowMean l = some (average l) := fun _ => rfl
    simp only [hmean]
    generalize average (lastSamples (lineAt p.data (p.cm.dims.idxOf d) i) a (i.getD (p.cm.dims.idxOf d) 0)) = x
    generalize average (lastSamples (lineAt p.data (p.cm.dims.idxOf d) i) b (i.getD (p.cm.dims.idxOf d) 0)) = y
    by_cases hj : b ≤ i.getD (p.cm.dims.idxOf d) 0 + 1
    · rw [if_pos hj, if_pos (by omega)]
      by_cases h0 : y = 0
      · exact (if_pos h0).trans (if_neg (fun h => h.2 h0)).symm
      · exact (if_neg h0).trans (if_pos ⟨hj, h0⟩).symm
    · rw [if_neg hj, if_neg (show ¬(_ ∧ _) from fun h => hj h.1)]
      have : ∀ z, nanDiv z none = none := fun z => by cases z <;> rfl
      exact this _

theorem lastSamples_length {l : List ℚ} {n i : ℕ} (hi : i < l.length) (hn : n ≤ i + 1) : (lastSamples l n i).length = n := by
  simp only [lastSamples, List.length_drop, List.length_take]
  omega

theorem lastSamples_mem {l : List ℚ} {n i : ℕ} {x : ℚ} (h : x ∈ lastSamples l n i) : x ∈ l := List.mem_of_mem_take (List.mem_of_mem_drop h)

theorem lastSamples_split {l : List ℚ} {a b i : ℕ} (hab : a ≤ b) : ∃ m, lastSamples l b i = m ++ lastSamples l a i ∧ ∀ x ∈ m, x ∈ l := by
  refine ⟨((l.take (i + 1)).drop (i + 1 - b)).take ((i + 1 - a) - (i + 1 - b)), ?_, fun x h => List.mem_of_mem_take (List.mem_of_mem_drop (List.mem_of_mem_take h))⟩
  unfold lastSamples
  have : i + 1 - a = (i + 1 - b) + ((i + 1 - a) - (i + 1 - b)) := by omega
  conv_lhs => rw [← List.take_append_drop ((i + 1 - a) - (i + 1 - b)) ((l.take (i + 1)).drop (i + 1 - b))]
  rw [List.drop_drop, ← this]

/-- Samples that are not negative have ratios between 0 and `b / a`; where the signal is constant and not zero, the ratio is one; and scaling the data leaves the
ratios as they are. -/
theorem C79_ratio (argsort : List ℚ → List ℕ) (hm : Regular p.cm) (hread : Readable p.cm) (hl : DimsListed p.cm) (hsh : p.cm.shape = p.data.shape)
    (hd : EvenAlong p.cm d k s₀ s n) (hs : 0 < s) {sta lta : WinReq} (hlt : sta.magnitude < lta.magnitude) {a b : ℕ} (ha : AsksFor s samples sta a) (hb : AsksFor s samples lta b)
    (ha1 : 1 ≤ a) (hab : a ≤ b) (hbn : b ≤ n) {q : PatchM (Option ℚ)} (hq : p.stalta argsort [(d, [sta, lta])] samples = .ok q) {i : List ℕ} (hi : InRange p.data.shape i) :
    ((∀ x ∈ lineAt p.data (p.cm.dims.idxOf d) i, 0 ≤ x) → ∀ x, q.data.get i = some x → 0 ≤ x ∧ x ≤ (b : ℚ) / a) ∧
    (∀ c, c ≠ 0 → b ≤ i.getD (p.cm.dims.idxOf d) 0 + 1 → (∀ x ∈ lineAt p.data (p.cm.dims.idxOf d) i, x = c) → q.data.get i = some 1) ∧
    (∀ c, c ≠ 0 → ∃ q', (p.each fun x => c * x).stalta argsort [(d, [sta, lta])] samples = .ok q' ∧ q'.data.get i = q.data.get i) := by
  obtain ⟨q₀, h1, -, -, h2, -⟩ := C79_stalta argsort hm hread hl hsh hd hs hlt ha hb ha1 hab hbn
  cases hq.symm.trans h1
  have haxl : p.cm.dims.idxOf d < p.data.shape.length := by
    rw [data_dims hsh hd.1]
    exact List.idxOf_lt_length_of_mem hd.1
  have hin : i.getD (p.cm.dims.idxOf d) 0 < (lineAt p.data (p.cm.dims.idxOf d) i).length := by rw [lineAt_length]; exact inRange_axis hi haxl
  have ha0 : (0 : ℚ) < a := by exact_mod_cast ha1
  have hb0 : (0 : ℚ) < b := by exact_mod_cast (by omega : 0 < b)
  have hval := h2 i hi
  refine ⟨fun hpos x hx => ?_, fun c hc hj hall => ?_, fun c hc => ?_⟩
  · rw [hx] at hval
    simp only at hval
    split_ifs at hval with h
    obtain ⟨hj, h0⟩ := h
    cases hval
    obtain ⟨m, hm1, hm2⟩ := lastSamples_split (l := lineAt p.data (p.cm.dims.idxOf d) i) (i := i.getD (p.cm.dims.idxOf d) 0) hab
    have s1 : 0 ≤ (lastSamples (lineAt p.data (p.cm.dims.idxOf d) i) a (i.getD (p.cm.dims.idxOf d) 0)).sum := List.sum_nonneg fun x hx => hpos x (lastSamples_mem hx)
    have s2 : 0 ≤ m.sum := List.sum_nonneg fun x hx => hpos x (hm2 x hx)
    simp only [average, lastSamples_length hin hj, lastSamples_length hin (by omega : a ≤ _)] at h0 ⊢
    rw [hm1, List.sum_append] at h0 ⊢
    set A := (lastSamples (lineAt p.data (p.cm.dims.idxOf d) i) a (i.getD (p.cm.dims.idxOf d) 0)).sum
    have hne : m.sum + A ≠ 0 := fun h => h0 (by rw [h, zero_div])
    have hB : 0 < m.sum + A := lt_of_le_of_ne (by linarith) hne.symm
    refine ⟨by positivity, ?_⟩
    rw [div_le_iff₀ (by positivity)]
    have : (b : ℚ) / a * ((m.sum + A) / b) = (m.sum + A) / a := by field_simp
    rw [this, div_le_div_iff_of_pos_right ha0]
    linarith
  · have hav : ∀ t : ℕ, 1 ≤ t → t ≤ i.getD (p.cm.dims.idxOf d) 0 + 1 →
        average (lastSamples (lineAt p.data (p.cm.dims.idxOf d) i) t (i.getD (p.cm.dims.idxOf d) 0)) = c := by
      intro t ht1 ht2
      have hrep := List.eq_replicate_of_mem (a := c) (l := lastSamples (lineAt p.data (p.cm.dims.idxOf d) i) t (i.getD (p.cm.dims.idxOf d) 0))
        fun x hx => hall x (lastSamples_mem hx)
      rw [lastSamples_length hin ht2] at hrep
      have ht0 : (t : ℚ) ≠ 0 := by exact_mod_cast (by omega : t ≠ 0)
      rw [hrep, average, List.sum_replicate, List.length_replicate, nsmul_eq_mul]
      field_simp
    rw [hval]
    simp only [hav a ha1 (by omega), hav b (by omega) hj]
    rw [if_pos ⟨hj, hc⟩, div_self hc]
  · obtain ⟨q', h1', -, -, h2', -⟩ := C79_stalta (p := p.each fun x => c * x) argsort hm hread hl hsh hd hs hlt ha hb ha1 hab hbn
    refine ⟨q', h1', ?_⟩
    rw [hval, h2' i hi]
    have hls : ∀ t j, average (lastSamples (lineAt (p.each fun x => c * x).data (p.cm.dims.idxOf d) i) t j) =
        c * average (lastSamples (lineAt p.data (p.cm.dims.idxOf d) i) t j) := by
      intro t j
      rw [lineAt_each]
      simp only [average, lastSamples, ← List.map_take, ← List.map_drop, List.length_map]
      rw [List.sum_map_mul_left, List.map_id', mul_div_assoc]
    have hcm : (p.each fun x => c * x).cm = p.cm := rfl
    simp only [hcm, hls]
    refine if_congr (and_congr_right fun _ => by simp [hc]) ?_ rfl
    rw [mul_div_mul_left _ _ hc]

/-- A long window that is not longer than the short one is refused, and so are other than one keyword, and other than two windows. -/
theorem C79_stalta_refused (argsort : List ℚ → List ℕ) (kw : Dict (List WinReq)) :
    (∀ d sta lta, kw = [(d, [sta, lta])] → lta.magnitude ≤ sta.magnitude → p.stalta argsort kw samples = .error .parameterError) ∧
    ((∀ d sta lta, kw ≠ [(d, [sta, lta])]) → p.stalta argsort kw samples = .error .filterValueError) := by
  refine ⟨?_, fun h => ?_⟩
  · rintro d sta lta rfl h
    unfold PatchM.stalta
    simp only
    rw [if_pos h]
  · unfold PatchM.stalta
    split
    · exact absurd rfl (h _ _ _)
    · rfl

end

/-! ### Cases -/

/-- Quiet samples and one burst. -/
def exBurst (l : List ℚ) : PatchM ℚ := ⟨⟨["x"], [("x", ["x"], .one .float (.range ⟨0, l.length, 1, l.length⟩))]⟩, [l.length], fun i => l.getD (i.getD 0 0) 0⟩

/-- Six samples, the fifth of them large. -/
def burst : List ℚ := [1, 1, 1, 1, 5, 1]

theorem exBurst_even : EvenAlong (exBurst burst).cm "x" .float 0 1 6 := ⟨by decide, _, rfl⟩

theorem exBurst_regular : Regular (exBurst burst).cm ∧ Readable (exBurst burst).cm ∧ DimsListed (exBurst burst).cm ∧
    (exBurst burst).cm.shape = (exBurst burst).data.shape := by
  have hmem : ∀ name ds c, (name, ds, c) ∈ (exBurst burst).cm.ents → (name = "x" ∧ ds = ["x"] ∧ c = .one .float (.range ⟨0, 6, 1, 6⟩)) := by
    intro name ds c h
    simpa only [exBurst, burst, List.length_cons, List.length_nil, List.mem_cons, Prod.mk.injEq, List.not_mem_nil, or_false, Nat.cast_ofNat, Nat.reduceAdd, Nat.zero_add] using h
  refine ⟨⟨CM.mk?_wf (m := (exBurst burst).cm) (if_pos (by decide +kernel)) (by decide +kernel), by unfold DistinctDims; decide +kernel, ?_, ?_, ?_⟩, ?_, ?_, by decide +kernel⟩
  · intro name ds c h
    obtain ⟨_, rfl, _⟩ := hmem _ _ _ h
    decide
  · intro name ds k c h
    obtain ⟨_, _, h⟩ := hmem _ _ _ h
    cases h
    exact ⟨by norm_num, by norm_num, by norm_num⟩
  · intro name h
    have : name = "x" := by simpa [exBurst, Dict.keys] using h
    subst this
    decide +kernel
  · exact readable_all (by decide +kernel)
  · intro d hd
    have : d = "x" := by simpa [exBurst] using hd
    subst this
    exact ⟨_, _, rfl⟩

/- The hypotheses of the theorems on kurtosis: windows of three samples, asked for as a number of samples and in the units of the labels, ascending or not. -/
example : Regular (exBurst burst).cm ∧ (exBurst burst).cm.shape = (exBurst burst).data.shape ∧ EvenAlong (exBurst burst).cm "x" .float 0 1 6 ∧
    AsksFor |1| true (.count 3) 3 ∧ AsksFor |(-2)| false (.value 5) 3 ∧ AsksFor |1| false (.value (1 / 2)) 1 ∧ InRange (exBurst burst).data.shape [4] := by
  refine ⟨exBurst_regular.1, exBurst_regular.2.2.2, exBurst_even, .count 3, .value 5 3 (by norm_num) (by norm_num) fun m hm => ?_,
    .value (1 / 2) 1 (by norm_num) (by norm_num) fun m hm => ?_, by simp [InRange, exBurst, burst]⟩
  · by_contra hc
    have : (m : ℚ) ≤ 2 := by exact_mod_cast (show m ≤ 2 by omega)
    norm_num at hm
    linarith
  · by_contra hc
    have : (m : ℚ) ≤ 0 := by exact_mod_cast (show m ≤ 0 by omega)
    norm_num at hm
    linarith

/- The windows with the burst have a kurtosis of 3/2, or of 1 at the end, where they have two samples; the other windows are constant. -/
example : ((exBurst burst).kurtosis false [("x", .count 3)] true).map (fun q => (List.range 6).map fun i => q.data.get [i]) =
      .ok [none, none, none, some (3 / 2), some (3 / 2), some 1] ∧
    ((exBurst burst).kurtosis false [("x", .value (1 / 2))] false).map (fun q => q.data.get [0]) = .error .parameterError ∧
    ((exBurst burst).kurtosis false [("y", .count 3)] true).map (fun q => q.data.get [0]) = .error .parameterError ∧
    ((exBurst burst).kurtosis false [] true).map (fun q => q.data.get [0]) = .error .parameterError := by decide +kernel

/- The hypotheses of the theorems on STA/LTA: windows of one and three samples. -/
example : Regular (exBurst burst).cm ∧ Readable (exBurst burst).cm ∧ DimsListed (exBurst burst).cm ∧ EvenAlong (exBurst burst).cm "x" .float 0 1 6 ∧
    WinReq.magnitude (.count 1) < WinReq.magnitude (.count 3) ∧ AsksFor 1 true (.count 1) (1 : ℕ) ∧ AsksFor 1 true (.count 3) (3 : ℕ) :=
  ⟨exBurst_regular.1, exBurst_regular.2.1, exBurst_regular.2.2.1, exBurst_even, by decide +kernel, .count 1, .count 3⟩

example : ((exBurst burst).stalta stableArgsort [("x", [.count 1, .count 3])] true).map (fun q => (List.range 6).map fun i => q.data.get [i]) =
      .ok [none, none, some 1, some 1, some (15 / 7), some (3 / 7)] ∧
    ((exBurst burst).stalta stableArgsort [("x", [.count 3, .count 1])] true).map (fun q => q.data.get [0]) = .error .parameterError := by decide +kernel

/-- The full statement, that the kurtosis does not change if a constant is added to the data, fails for the recursive method, which is the default: the running
mean starts from zero. -/
theorem C79_offset_violated : ∃ q q', (exBurst burst).kurtosis true [("x", .count 2)] true = .ok q ∧
    ((exBurst burst).each (· + 10)).kurtosis true [("x", .count 2)] true = .ok q' ∧ q.data.get [5] ≠ q'.data.get [5] := by
  refine ⟨_, _, rfl, rfl, ?_⟩
  decide +kernel

/-- The recursive kurtosis does not update as the samples come in: a later sample changes the earlier values, by way of the variance of all samples. -/
theorem C79_causal_violated : ∃ q q', (exBurst burst).kurtosis true [("x", .count 2)] true = .ok q ∧
    (exBurst [1, 1, 1, 1, 5, 3]).kurtosis true [("x", .count 2)] true = .ok q' ∧
    (∀ j < 5, (exBurst burst).data.get [j] = (exBurst [1, 1, 1, 1, 5, 3]).data.get [j]) ∧ q.data.get [0] ≠ q'.data.get [0] := by
  refine ⟨_, _, rfl, rfl, ?_, ?_⟩ <;> decide +kernel

/-- A long window that exceeds the short one but has as many samples is accepted: the ratio is then one everywhere, whatever the data. -/
theorem C79_windows_violated : ((exBurst burst).stalta stableArgsort [("x", [.value (5 / 4), .value 2])] false).map
    (fun q => (List.range 6).map fun i => q.data.get [i]) = .ok [none, some 1, some 1, some 1, some 1, some 1] := by decide +kernel

end Verif
