import Verif.Proof.Slope
import Verif.Props.Fourier
/-!
# Filtering by slope (C76)
-/
namespace Verif
open Spec

/-! ### The mask -/

theorem gain_invert (a b c d : ℚ) (s : Option ℚ) : slopeGain a b c d true s = 1 - slopeGain a b c d false s := by
  cases s <;> simp [slopeGain]

theorem quarter_range {x : ℚ} (h0 : 0 ≤ x) (h1 : x ≤ 1) : 0 ≤ Real.pi / 2 * (x : ℝ) ∧ Real.pi / 2 * (x : ℝ) ≤ Real.pi / 2 := by
  have hp := Real.pi_pos
  have h0' : (0 : ℝ) ≤ x := by exact_mod_cast h0
  have h1' : (x : ℝ) ≤ 1 := by exact_mod_cast h1
  constructor
  · positivity
  · nlinarith

theorem quarter_sin {x : ℚ} (h0 : 0 ≤ x) (h1 : x ≤ 1) : 0 ≤ Real.sin (Real.pi / 2 * (x : ℝ)) := by
  have h := quarter_range h0 h1
  exact Real.sin_nonneg_of_nonneg_of_le_pi h.1 (by have := Real.pi_pos; linarith [h.2])

theorem quarter_mono {x y : ℚ} (h0 : 0 ≤ x) (hxy : x ≤ y) (h1 : y ≤ 1) : Real.sin (Real.pi / 2 * (x : ℝ)) ≤ Real.sin (Real.pi / 2 * (y : ℝ)) := by
  have hx := quarter_range h0 (le_trans hxy h1)
  have hy := quarter_range (le_trans h0 hxy) h1
  have hp := Real.pi_pos
  refine Real.sin_le_sin_of_le_of_le_pi_div_two (by linarith [hx.1]) hy.2 ?_
  have : (x : ℝ) ≤ y := by exact_mod_cast hxy
  nlinarith

theorem ratio_range {l u s : ℚ} (hl : l ≤ s) (hu : s ≤ u) : 0 ≤ (s - l) / (u - l) ∧ (s - l) / (u - l) ≤ 1 := by
  have h0 : 0 ≤ u - l := by linarith
  refine ⟨div_nonneg (by linarith) h0, div_le_one_of_le₀ (by linarith) h0⟩

theorem gain_inside {a b c d s : ℚ} (hcd : c < d) (hb : b ≤ s) (hc : s ≤ c) : slopeGain a b c d false (some s) = 1 := by
  unfold slopeGain
  simp only [Bool.false_eq_true, if_false]
  rw [if_pos (show b ≤ s ∧ s ≤ c from ⟨hb, hc⟩)]
  split_ifs with h
  · have : s = c := le_antisymm hc h.1
    subst this
    simp
  · simp

theorem gain_outside {a b c d s : ℚ} (hab : a ≤ b) (hbc : b ≤ c) (hcd : c < d) (h : s < a ∨ d < s) : slopeGain a b c d false (some s) = 0 := by
  unfold slopeGain
  simp only [Bool.false_eq_true, if_false]
  rw [if_neg (by rcases h with h | h <;> intro hc <;> linarith [hc.1, hc.2]), if_neg (by rcases h with h | h <;> intro hc <;> linarith [hc.1, hc.2]),
    if_neg (by rcases h with h | h <;> intro hc <;> linarith [hc.1, hc.2])]
  simp

theorem gain_rise {a b c d s : ℚ} (hbc : b ≤ c) (ha : a ≤ s) (hb : s < b) :
    slopeGain a b c d false (some s) = Real.sin (Real.pi / 2 * ((s - a) / (b - a) : ℚ)) := by
  unfold slopeGain
  simp only [Bool.false_eq_true, if_false]
  rw [if_neg (by intro hc; linarith [hc.1]), if_neg (by intro hc; linarith [hc.1]), if_pos ⟨ha, hb.le⟩]
  ring

theorem gain_fall {a b c d s : ℚ} (hc : c < s) (hd : s ≤ d) :
    slopeGain a b c d false (some s) = 1 - Real.sin (Real.pi / 2 * ((s - c) / (d - c) : ℚ)) := by
  unfold slopeGain
  simp only [Bool.false_eq_true, if_false]
  rw [if_pos ⟨hc.le, hd⟩]

theorem gain_range {a b c d : ℚ} (hab : a ≤ b) (hbc : b ≤ c) (hcd : c < d) (s : ℚ) :
    0 ≤ slopeGain a b c d false (some s) ∧ slopeGain a b c d false (some s) ≤ 1 := by
  rcases lt_or_ge s a with h | ha
  · rw [gain_outside hab hbc hcd (Or.inl h)]; norm_num
  rcases lt_or_ge s b with h | hb
  · rw [gain_rise hbc ha h]
    have := ratio_range ha h.le
    exact ⟨quarter_sin this.1 this.2, Real.sin_le_one _⟩
  rcases le_or_gt s c with h | hc
  · rw [gain_inside hcd hb h]; norm_num
  rcases le_or_gt s d with h | hd
  · rw [gain_fall hc h]
    have := ratio_range hc.le h
    have h1 := quarter_sin this.1 this.2
    have h2 := Real.sin_le_one (Real.pi / 2 * ((s - c) / (d - c) : ℚ))
    constructor <;> linarith
  · rw [gain_outside hab hbc hcd (Or.inr hd)]; norm_num

/-- C76: the mask passes the slopes between the inner limits, stops those outside the outer ones, and rises and falls between them; an inverted one does the
opposite. -/
theorem C76_gain {a b c d : ℚ} (hab : a ≤ b) (hbc : b ≤ c) (hcd : c < d) : Passes a b c d (fun s => slopeGain a b c d false (some s)) ∧
    ∀ s, slopeGain a b c d true (some s) = 1 - slopeGain a b c d false (some s) := by
  refine ⟨⟨gain_range hab hbc hcd, fun s h h' => gain_inside hcd h h', fun s h => gain_outside hab hbc hcd h, fun s h h' => gain_rise hbc h h',
    fun s h h' => gain_fall h h', ?_, ?_⟩, fun s => gain_invert a b c d (some s)⟩
  · intro s t hst htc
    rcases lt_or_ge s a with h | ha
    · simp only [gain_outside hab hbc hcd (Or.inl h)]
      exact (gain_range hab hbc hcd t).1
    rcases lt_or_ge t b with h | hb
    · have hs : s < b := lt_of_le_of_lt hst h
      simp only [gain_rise hbc ha hs, gain_rise hbc (le_trans ha hst) h]
      refine quarter_mono (ratio_range ha hs.le).1 ?_ (ratio_range (le_trans ha hst) h.le).2
      exact div_le_div_of_nonneg_right (by linarith) (by linarith)
    · simp only [gain_inside hcd hb htc]
      exact (gain_range hab hbc hcd s).2
  · intro s t hbs hst
    rcases lt_or_ge d t with h | hd
    · simp only [gain_outside hab hbc hcd (Or.inr h)]
      exact (gain_range hab hbc hcd s).1
    rcases lt_or_ge c s with h | hc
    · have ht : c < t := lt_of_lt_of_le h hst
      simp only [gain_fall h (le_trans hst hd), gain_fall ht hd]
      have := quarter_mono (ratio_range h.le (le_trans hst hd)).1 (div_le_div_of_nonneg_right (by linarith) (by linarith) : (s - c) / (d - c) ≤ (t - c) / (d - c))
        (ratio_range ht.le hd).2
      linarith
    · simp only [gain_inside hcd hbs hc]
      exact (gain_range hab hbc hcd t).2

example : (-3 : ℚ) ≤ -3 ∧ (-3 : ℚ) ≤ 2 ∧ (2 : ℚ) < 5 := by decide +kernel

/-- The mask at a wave. -/
theorem gain_wave (a b c d : ℚ) (directional invert : Bool) (k f : ℚ) :
    slopeGain a b c d invert (slopeOf directional (some f) (some k)) =
      waveGain (fun s => slopeGain a b c d false (some s)) directional invert k f := by
  have e : slopeGain a b c d false (slopeOf directional (some f) (some k)) = waveGain (fun s => slopeGain a b c d false (some s)) directional false k f := by
    unfold waveGain slopeOf
    simp only [Bool.false_eq_true, if_false]
    by_cases h : k + 1 / 2 ^ 52 = 0
    · rw [if_pos h, if_pos (show k + floatEps = 0 from h)]
      rfl
    · rw [if_neg h, if_neg (show ¬ k + floatEps = 0 from h)]
      rfl
  cases invert with
  | false => exact e
  | true =>
    rw [gain_invert, e]
    rfl

theorem not_anyNan {c d : ℚ} (hcd : c < d) (directional : Bool) (fs ks : List (Option ℚ) × ℕ) : anyNan c d directional fs ks = false := by
  unfold anyNan gainNan
  simp [hcd.ne]

theorem filt_check {a b c d : ℚ} (hab : a ≤ b) (hbc : b ≤ c) (hcd : c < d) (array : Bool) : filtSorted array [a, b, c, d] = true := by
  cases array with
  | true => simp [filtSorted, hab, hbc, hcd.le]
  | false =>
    simp only [filtSorted, List.dropLast, List.tail, lexLe]
    rcases lt_or_eq_of_le hab with h | h
    · simp [h]
    · rcases lt_or_eq_of_le hbc with h' | h'
      · simp [h, h']
      · simp [h, h', hcd]

theorem applyGain_eq {Q : FPatch} {a b c d : ℚ} (hcd : c < d) {d1 d2 : String} {k1 k2 : Kind} {c1 c2 : Coord}
    (h1 : Q.patch.cm.ents.get? ("ft_" ++ d1) = some (["ft_" ++ d1], .one k1 c1)) (hd1 : "ft_" ++ d1 ∈ Q.patch.cm.dims)
    (h2 : Q.patch.cm.ents.get? ("ft_" ++ d2) = some (["ft_" ++ d2], .one k2 c2)) (hd2 : "ft_" ++ d2 ∈ Q.patch.cm.dims) (directional invert : Bool) :
    ∃ G : List ℕ → ℝ, Q.applyGain a b c d d1 d2 directional invert =
        .ok ⟨⟨Q.patch.cm, ⟨Q.patch.data.shape, fun i => Q.patch.data.get i * (G i : ℂ)⟩⟩, Q.isComplex, Q.padded⟩ ∧
      ∀ i k f, label Q.patch ("ft_" ++ d1) i = some (some k) → label Q.patch ("ft_" ++ d2) i = some (some f) →
        G i = waveGain (fun s => slopeGain a b c d false (some s)) directional invert k f := by
  refine ⟨fun i => slopeGain a b c d invert (slopeAt directional (c2.labels, Q.patch.cm.dims.idxOf ("ft_" ++ d2)) (c1.labels, Q.patch.cm.dims.idxOf ("ft_" ++ d1)) i),
    ?_, ?_⟩
  · unfold FPatch.applyGain PatchM.axisLabels
    rw [h1, h2]
    simp only [hd1, hd2, if_true, bind, Except.bind, not_anyNan hcd]
    rfl
  · intro i k f hk hf
    rw [label_dim h1] at hk
    rw [label_dim h2] at hf
    simp only [Option.some.injEq] at hk hf
    rw [← gain_wave]
    show slopeGain _ _ _ _ _ (slopeOf directional (c2.labels.getD (posAlong Q.patch ("ft_" ++ d2) i) none) (c1.labels.getD (posAlong Q.patch ("ft_" ++ d1) i) none)) = _
    rw [hk, hf]

/-! ### The filter -/

/-- C76: the filtered patch has the dimensions and labels of the patch, and its data are the real parts of the sums of the waves of the patch (continued with zeros
to a fast length), each multiplied with what the mask has for its slope. Arithmetic is exact. -/
theorem C76_filter_partial {fast : ℕ → ℕ} (hf : ∀ n, n ≤ fast n) {argsort : List ℚ → List ℕ} {P : FPatch} (hp : Ready P.patch) {d1 d2 : String}
    (hD : Transformable P.patch.cm [d1, d2]) (hpos : Ascending P.patch.cm [d1, d2]) (hlong : ∀ d ∈ [d1, d2], 2 ≤ lenDim P.patch.cm d)
    (hback : ∀ d ∈ P.patch.cm.dims, d ∉ [d1, d2] → ¬ "ft_".toList <+: d.toList) {a b c d : ℚ} (hab : a ≤ b) (hbc : b ≤ c) (hcd : c < d)
    (array directional invert : Bool) : ∃ gain R, Passes a b c d gain ∧ P.slopeFilter fast argsort array [a, b, c, d] d1 d2 directional invert = .ok R ∧
      Restored ⟨P.patch.cm, ⟨P.patch.data.shape, fun i => ((weightedWaves P.patch (fun d => fast (lenDim P.patch.cm d))
        (waveGain gain directional invert) d1 d2 i).re : ℂ)⟩⟩ R.patch [d1, d2] ∧ R.isComplex = false ∧ R.padded = none := by
  have hR := FtReady.of hp.regular hD
  obtain ⟨Q, h1, hT, hft, hall⟩ := idft_gain (argsort := argsort) hf hp.regular hp.readable hp.ne hp.shape hR hpos hlong hback
  have hdim : ∀ e ∈ [d1, d2], "ft_" ++ e ∈ Q.patch.cm.dims := by
    intro e he
    rw [hT.dims]
    exact List.mem_map.2 ⟨e, hR.dims e he, if_pos he⟩
  obtain ⟨G, hG, hGv⟩ := applyGain_eq (a := a) (b := b) hcd (hft d1 (by simp)) (hdim d1 (by simp)) (hft d2 (by simp)) (hdim d2 (by simp)) directional invert
  obtain ⟨R, r1, r2, r3, r4⟩ := hall (waveGain (fun s => slopeGain a b c d false (some s)) directional invert) G (fun i _ k f hk hf => hGv i k f hk hf)
  refine ⟨fun s => slopeGain a b c d false (some s), R.realPart, (C76_gain hab hbc hcd).1, ?_, ⟨r2.dims, r2.shape, ?_, r2.labels, r2.lost, r2.none⟩, rfl, r4⟩
  · unfold FPatch.slopeFilter
    rw [filt_check hab hbc hcd]
    simp only [Bool.not_true, Bool.false_eq_true, if_false]
    rw [if_pos]
    · unfold FPatch.slopeOver
      rw [h1, untransformed_self hR.dims]
      simp only [bind, Except.bind, hG, r1, List.isEmpty_cons, Bool.false_eq_true, if_false]
      rfl
    · have hk : ∀ e ∈ [d1, d2], e ∈ P.patch.cm.ents.keys := by
        intro e he
        obtain ⟨k, r, hc⟩ := (hD.even e he).2
        exact Dict.mem_keys.2 ⟨_, hc⟩
      exact ⟨hk d1 (by simp), hk d2 (by simp)⟩
  · intro i hi
    show (((R.patch.data.get i).re : ℝ) : ℂ) = _
    rw [r2.data i hi]

/-- The conditions determine the mask. -/
theorem passes_unique {a b c d : ℚ} {g g' : ℚ → ℝ} (h : Passes a b c d g) (h' : Passes a b c d g') : g = g' := by
  funext s
  rcases lt_or_ge s a with hs | ha
  · rw [h.outside s (Or.inl hs), h'.outside s (Or.inl hs)]
  rcases lt_or_ge s b with hs | hb
  · rw [h.rise s ha hs, h'.rise s ha hs]
  rcases le_or_gt s c with hs | hc
  · rw [h.inside s hb hs, h'.inside s hb hs]
  rcases le_or_gt s d with hs | hd
  · rw [h.fall s hc hs, h'.fall s hc hs]
  · rw [h.outside s (Or.inr hd), h'.outside s (Or.inr hd)]

theorem weightedWaves_congr {p : PatchM ℂ} {N : String → ℕ} {g g' : ℚ → ℚ → ℝ} {d1 d2 : String} {i : List ℕ}
    (h : ∀ j l : ℕ, j < N d1 → l < N d2 → g (frequency (N d1) (spacingOf p.cm d1) j) (frequency (N d2) (spacingOf p.cm d2) l) =
      g' (frequency (N d1) (spacingOf p.cm d1) j) (frequency (N d2) (spacingOf p.cm d2) l)) :
    weightedWaves p N g d1 d2 i = weightedWaves p N g' d1 d2 i := by
  unfold weightedWaves
  congr 1
  apply List.map_congr_left
  intro j hj
  congr 1
  apply List.map_congr_left
  intro l hl
  simp only
  rw [h j l (List.mem_range.1 hj) (List.mem_range.1 hl)]

theorem weightedWaves_add (p : PatchM ℂ) (N : String → ℕ) (g g' : ℚ → ℚ → ℝ) (d1 d2 : String) (i : List ℕ) :
    weightedWaves p N (fun k f => g k f + g' k f) d1 d2 i = weightedWaves p N g d1 d2 i + weightedWaves p N g' d1 d2 i := by
  unfold weightedWaves
  simp only [list_sum_range]
  rw [← Finset.sum_add_distrib]
  refine Finset.sum_congr rfl fun j _ => ?_
  rw [← Finset.sum_add_distrib]
  refine Finset.sum_congr rfl fun l _ => ?_
  push_cast
  ring

/-- All the waves together are the samples. -/
theorem waves_all {fast : ℕ → ℕ} (hf : ∀ n, n ≤ fast n) {argsort : List ℚ → List ℕ} {P : FPatch} (hp : Ready P.patch) {d1 d2 : String}
    (hD : Transformable P.patch.cm [d1, d2]) (hpos : Ascending P.patch.cm [d1, d2]) (hlong : ∀ d ∈ [d1, d2], 2 ≤ lenDim P.patch.cm d)
    (hback : AsksBack P.patch.cm [d1, d2] none) (i : List ℕ) (hi : InRange P.patch.data.shape i) :
    weightedWaves P.patch (fun d => fast (lenDim P.patch.cm d)) (fun _ _ => 1) d1 d2 i = P.patch.data.get i := by
  have hR := FtReady.of hp.regular hD
  let P' : FPatch := ⟨P.patch, true, P.padded⟩
  obtain ⟨Q, h1, hT, hft, hall⟩ := idft_gain (argsort := argsort) (P := P') hf hp.regular hp.readable hp.ne hp.shape hR hpos hlong hback
  obtain ⟨R, r1, r2, _⟩ := hall (fun _ _ => 1) (fun _ => 1) (fun _ _ _ _ _ _ => rfl)
  obtain ⟨R', s1, s2, _⟩ := C64_roundtrip_partial (argsort := argsort) (P := P') hf hp (fun h => by cases h) (dim := some [d1, d2]) (D := [d1, d2]) rfl (by simp)
    hD (real := .no) (fun h => absurd rfl h) (pad := true) (fun _ => hpos) (fun d hd => Or.inr ⟨by simp [realDim], Or.inr ⟨hlong d hd, hpos d hd⟩⟩) h1 hback
  have e : (⟨⟨Q.patch.cm, ⟨Q.patch.data.shape, fun i => Q.patch.data.get i * ((1 : ℝ) : ℂ)⟩⟩, Q.isComplex, Q.padded⟩ : FPatch) = Q := by simp
  rw [e, s1] at r1
  cases r1
  have := s2.data i hi
  rw [r2.data i hi] at this
  exact this

/-- C76: the filtered patch and the one filtered with the inverted mask add up to the patch (of real data). -/
theorem C76_split_partial {fast : ℕ → ℕ} (hf : ∀ n, n ≤ fast n) {argsort : List ℚ → List ℕ} {P : FPatch} (hp : Ready P.patch) {d1 d2 : String}
    (hreal : ∀ i, InRange P.patch.data.shape i → (P.patch.data.get i).im = 0)
    (hD : Transformable P.patch.cm [d1, d2]) (hpos : Ascending P.patch.cm [d1, d2]) (hlong : ∀ d ∈ [d1, d2], 2 ≤ lenDim P.patch.cm d)
    (hback : ∀ d ∈ P.patch.cm.dims, d ∉ [d1, d2] → ¬ "ft_".toList <+: d.toList) {a b c d : ℚ} (hab : a ≤ b) (hbc : b ≤ c) (hcd : c < d)
    (array directional : Bool) : ∃ R S, P.slopeFilter fast argsort array [a, b, c, d] d1 d2 directional false = .ok R ∧
      P.slopeFilter fast argsort array [a, b, c, d] d1 d2 directional true = .ok S ∧
      ∀ i, InRange P.patch.data.shape i → R.patch.data.get i + S.patch.data.get i = P.patch.data.get i := by
  obtain ⟨g, R, hg, r1, r2, _⟩ := C76_filter_partial (argsort := argsort) hf hp hD hpos hlong hback hab hbc hcd array directional false
  obtain ⟨g', S, hg', s1, s2, _⟩ := C76_filter_partial (argsort := argsort) hf hp hD hpos hlong hback hab hbc hcd array directional true
  have he : g = g' := passes_unique hg hg'
  subst he
  refine ⟨R, S, r1, s1, ?_⟩
  intro i hi
  rw [r2.data i hi, s2.data i hi]
  have hone := waves_all (argsort := argsort) hf hp hD hpos hlong hback i hi
  have hadd := weightedWaves_add P.patch (fun d => fast (lenDim P.patch.cm d)) (waveGain g directional false) (waveGain g directional true) d1 d2 i
  have e : (fun k f => waveGain g directional false k f + waveGain g directional true k f) = fun _ _ => (1 : ℝ) := by
    funext k f
    simp [waveGain]
  rw [e, hone] at hadd
  show (((weightedWaves P.patch _ _ d1 d2 i).re : ℝ) : ℂ) + (((weightedWaves P.patch _ _ d1 d2 i).re : ℝ) : ℂ) = _
  rw [← Complex.ofReal_add, ← Complex.add_re, ← hadd]
  apply Complex.ext
  · simp
  · simp [hreal i hi]

/-- C76: a filter that passes the slopes of all the waves gives the patch (of real data) back. -/
theorem C76_pass_all_partial {fast : ℕ → ℕ} (hf : ∀ n, n ≤ fast n) {argsort : List ℚ → List ℕ} {P : FPatch} (hp : Ready P.patch) {d1 d2 : String}
    (hreal : ∀ i, InRange P.patch.data.shape i → (P.patch.data.get i).im = 0)
    (hD : Transformable P.patch.cm [d1, d2]) (hpos : Ascending P.patch.cm [d1, d2]) (hlong : ∀ d ∈ [d1, d2], 2 ≤ lenDim P.patch.cm d)
    (hback : ∀ d ∈ P.patch.cm.dims, d ∉ [d1, d2] → ¬ "ft_".toList <+: d.toList) {a b c d : ℚ} (hab : a ≤ b) (hbc : b ≤ c) (hcd : c < d)
    (array directional : Bool)
    (hall : ∀ j l : ℕ, j < fast (lenDim P.patch.cm d1) → l < fast (lenDim P.patch.cm d2) →
      let k := frequency (fast (lenDim P.patch.cm d1)) (spacingOf P.patch.cm d1) j
      let s := waveSlope directional k (frequency (fast (lenDim P.patch.cm d2)) (spacingOf P.patch.cm d2) l)
      k + 1 / 2 ^ 52 ≠ 0 ∧ b ≤ s ∧ s ≤ c) :
    ∃ R, P.slopeFilter fast argsort array [a, b, c, d] d1 d2 directional false = .ok R ∧ Restored P.patch R.patch [d1, d2] := by
  obtain ⟨g, R, hg, r1, r2, _⟩ := C76_filter_partial (argsort := argsort) hf hp hD hpos hlong hback hab hbc hcd array directional false
  refine ⟨R, r1, ⟨r2.dims, r2.shape, ?_, r2.labels, r2.lost, r2.none⟩⟩
  intro i hi
  rw [r2.data i hi]
  have e : weightedWaves P.patch (fun d => fast (lenDim P.patch.cm d)) (waveGain g directional false) d1 d2 i =
      weightedWaves P.patch (fun d => fast (lenDim P.patch.cm d)) (fun _ _ => 1) d1 d2 i := by
    apply weightedWaves_congr
    intro j l hj hl
    have := hall j l hj hl
    unfold waveGain
    simp only [Bool.false_eq_true, if_false]
    rw [if_neg this.1]
    exact hg.inside _ this.2.1 this.2.2
  show (((weightedWaves P.patch _ _ d1 d2 i).re : ℝ) : ℂ) = _
  rw [e, waves_all (argsort := argsort) hf hp hD hpos hlong hback i hi]
  apply Complex.ext
  · simp
  · simp [hreal i hi]

/-- C76: a patch that is transformed already along both dimensions stays so, and each element is multiplied with what the mask has for the slope that its labels
give. -/
theorem C76_transformed {fast : ℕ → ℕ} {argsort : List ℚ → List ℕ} {P : FPatch} {d1 d2 : String}
    (hd : ∀ d ∈ [d1, d2], d ∈ P.patch.cm.ents.keys ∧ d ∉ P.patch.cm.dims ∧ "ft_" ++ d ∈ P.patch.cm.dims ∧
      ∃ k c, P.patch.cm.ents.get? ("ft_" ++ d) = some (["ft_" ++ d], .one k c)) {a b c d : ℚ} (hab : a ≤ b) (hbc : b ≤ c) (hcd : c < d)
    (array directional invert : Bool) : ∃ gain R, Passes a b c d gain ∧ P.slopeFilter fast argsort array [a, b, c, d] d1 d2 directional invert = .ok R ∧
      R.patch.cm = P.patch.cm ∧ R.patch.data.shape = P.patch.data.shape ∧ R.isComplex = P.isComplex ∧ R.padded = P.padded ∧
      ∀ i k f, label P.patch ("ft_" ++ d1) i = some (some k) → label P.patch ("ft_" ++ d2) i = some (some f) →
        R.patch.data.get i = P.patch.data.get i * (waveGain gain directional invert k f : ℂ) := by
  obtain ⟨_, _, hm1, k1, c1, h1⟩ := hd d1 (by simp)
  obtain ⟨_, _, hm2, k2, c2, h2⟩ := hd d2 (by simp)
  obtain ⟨G, hG, hGv⟩ := applyGain_eq (Q := P) (a := a) (b := b) hcd h1 hm1 h2 hm2 directional invert
  refine ⟨fun s => slopeGain a b c d false (some s),
    ⟨⟨P.patch.cm, ⟨P.patch.data.shape, fun i => P.patch.data.get i * (G i : ℂ)⟩⟩, P.isComplex, P.padded⟩,
    (C76_gain hab hbc hcd).1, ?_, rfl, rfl, rfl, rfl, ?_⟩
  rotate_left
  · intro i k f hk hf
    show P.patch.data.get i * (G i : ℂ) = _
    rw [hGv i k f hk hf]
  · unfold FPatch.slopeFilter
    rw [filt_check hab hbc hcd]
    simp only [Bool.not_true, Bool.false_eq_true, if_false]
    rw [if_pos ⟨(hd d1 (by simp)).1, (hd d2 (by simp)).1⟩]
    unfold FPatch.slopeOver
    have hu : P.patch.cm.untransformed [d1, d2] = [] := by
      unfold CM.untransformed
      rw [List.filter_eq_nil_iff]
      intro d hd'
      simp [(hd d hd').2.1, (hd d hd').2.2.1]
    rw [C63_again (by simp) (fun d hd' => ⟨(hd d hd').1, (hd d hd').2.1, (hd d hd').2.2.1⟩)]
    simp only [bind, Except.bind, hG, hu, List.isEmpty_nil, if_true]
    rfl

/-- C76: limits that are not four, arrays of limits that do not ascend, and dimensions the patch lacks are refused. -/
theorem C76_refused {fast : ℕ → ℕ} {argsort : List ℚ → List ℕ} {P : FPatch} {d1 d2 : String} {array : Bool} {filt : List ℚ}
    (h : filt.length ≠ 4 ∨ (array = true ∧ ¬ filt.Pairwise (· ≤ ·)) ∨ d1 ∉ P.patch.cm.ents.keys ∨ d2 ∉ P.patch.cm.ents.keys) (directional invert : Bool) :
    P.slopeFilter fast argsort array filt d1 d2 directional invert = .error .parameterError := by
  unfold FPatch.slopeFilter
  split
  · rfl
  · rename_i hs
    split
    · rename_i a b c d
      rw [if_neg]
      rintro ⟨h1, h2⟩
      rcases h with h | ⟨rfl, h⟩ | h | h
      · exact h rfl
      · apply h
        simp only [filtSorted, if_true, Bool.not_eq_true', List.dropLast, List.tail, List.zip_cons_cons, List.zip_nil_right, List.all_cons, List.all_nil,
          Bool.and_true, Bool.not_eq_false, Bool.and_eq_true, decide_eq_true_eq] at hs
        obtain ⟨hab, hbc, hcd⟩ := hs
        have := le_trans hab hbc
        have := le_trans hbc hcd
        have := le_trans hab this
        simp_all
      · exact h h1
      · exact h h2
    · rfl

/-! ### Cases -/

theorem exTone_turned : Transformable exTone.patch.cm ["distance", "time"] := by
  refine ⟨by decide, ?_, ?_, ?_, ?_⟩
  · intro d hd
    simp only [List.mem_cons, List.not_mem_nil, or_false] at hd
    rcases hd with rfl | rfl
    · exact ⟨by decide, _, _, rfl⟩
    · exact ⟨by decide, _, _, rfl⟩
  · intro d hd
    simp only [List.mem_cons, List.not_mem_nil, or_false] at hd
    rcases hd with rfl | rfl <;> exact ⟨rfl, rfl⟩
  · intro d hd
    simp only [List.mem_cons, List.not_mem_nil, or_false] at hd
    rcases hd with rfl | rfl <;> decide
  · intro d hd
    simp only [List.mem_cons, List.not_mem_nil, or_false] at hd
    rcases hd with rfl | rfl <;> decide

theorem exTone_ask : ∀ d ∈ exTone.patch.cm.dims, d ∉ ["distance", "time"] → ¬ "ft_".toList <+: d.toList := by
  intro d hd hn
  have : d = "time" ∨ d = "distance" := by simpa [exTone] using hd
  rcases this with rfl | rfl <;> simp at hn

theorem exTone_im : ∀ i, InRange exTone.patch.data.shape i → (exTone.patch.data.get i).im = 0 := by
  intro i _
  simp [exTone]

/- The hypotheses of `C76_filter_partial`, `C76_split_partial` and `C76_pass_all_partial`. -/
example : Ready exTone.patch ∧ Transformable exTone.patch.cm ["distance", "time"] ∧ Ascending exTone.patch.cm ["distance", "time"] ∧
    (∀ d ∈ ["distance", "time"], 2 ≤ lenDim exTone.patch.cm d) ∧
    (∀ d ∈ exTone.patch.cm.dims, d ∉ ["distance", "time"] → ¬ "ft_".toList <+: d.toList) ∧
    (∀ i, InRange exTone.patch.data.shape i → (exTone.patch.data.get i).im = 0) :=
  ⟨exTone_ready, exTone_turned, by unfold Ascending; decide +kernel, by decide +kernel, exTone_ask, exTone_im⟩

theorem exTone_slopes : ∀ j l : ℕ, j < fast8 (lenDim exTone.patch.cm "distance") → l < fast8 (lenDim exTone.patch.cm "time") →
      let k := frequency (fast8 (lenDim exTone.patch.cm "distance")) (spacingOf exTone.patch.cm "distance") j
      let s := waveSlope false k (frequency (fast8 (lenDim exTone.patch.cm "time")) (spacingOf exTone.patch.cm "time") l)
      k + 1 / 2 ^ 52 ≠ 0 ∧ 0 ≤ s ∧ s ≤ 10 ^ 17 := by
  have h : ∀ j : ℕ, j < 8 → ∀ l : ℕ, l < 8 →
      let k := frequency (fast8 (lenDim exTone.patch.cm "distance")) (spacingOf exTone.patch.cm "distance") j
      let s := waveSlope false k (frequency (fast8 (lenDim exTone.patch.cm "time")) (spacingOf exTone.patch.cm "time") l)
      k + 1 / 2 ^ 52 ≠ 0 ∧ 0 ≤ s ∧ s ≤ 10 ^ 17 := by decide +kernel
  intro j l hj hl
  exact h j hj l hl

example : (exTone.slopeFilter fast8 stableArgsort false [1, 2, 3, 4] "distance" "time" false true).map
    (fun R => (R.patch.cm.dims, R.patch.data.shape, R.isComplex)) = .ok (["time", "distance"], [3, 4], false) := by decide +kernel

/- The hypothesis of `C76_transformed`. -/
example : (exTone.dft fast8 none .no true).map (fun Q => (["distance", "time"].all fun d =>
    decide (d ∈ Q.patch.cm.ents.keys ∧ d ∉ Q.patch.cm.dims ∧ "ft_" ++ d ∈ Q.patch.cm.dims) &&
    match Q.patch.cm.ents.get? ("ft_" ++ d) with
    | some (ds, .one _ _) => decide (ds = ["ft_" ++ d])
    | _ => false)) = .ok true := by decide +kernel

/-! ### Where the filter fails -/

/-- C76 fails: limits that do not ascend are accepted when they are a list, because two lists are compared by their first difference. -/
theorem C76_unsorted_violated : (exTone.slopeFilter fast8 stableArgsort false [1, 3, 2, 4] "distance" "time" false false).isOk = true ∧
    (exTone.slopeFilter fast8 stableArgsort true [1, 3, 2, 4] "distance" "time" false false).map (fun R => R.patch.data.shape) = .error .parameterError :=
  ⟨by decide +kernel, by decide +kernel⟩

/-- C76 fails: the last two of four ascending limits may be equal, and then the mask is nan (zero divided by zero) for waves with this slope, here
those of frequency zero: all the samples of the patch become nan. -/
theorem C76_nan_violated : filtSorted true [-2, -1, 0, 0] = true ∧
    ((exTone.dft fast8 (some ["distance", "time"]) .no true).bind fun Q => (Q.patch.axisLabels "ft_time").bind fun fs =>
      (Q.patch.axisLabels "ft_distance").map fun ks => anyNan 0 0 true fs ks) = .ok true :=
  ⟨by decide +kernel, by decide +kernel⟩

/-- C76 fails: of a patch that was transformed along one of the dimensions only, the filter also returns this one transformed back. -/
theorem C76_half_violated : ((exTone.dft fast8 (some ["time"]) .no true).map fun Q => (Q.patch.cm.dims, Q.patch.data.shape)) =
      .ok (["ft_time", "distance"], [8, 4]) ∧
    ((exTone.dft fast8 (some ["time"]) .no true).bind fun Q => Q.slopeFilter fast8 stableArgsort true [1, 2, 3, 4] "distance" "time" false false).map
      (fun R => R.patch.cm.dims) = .ok ["time", "distance"] :=
  ⟨by decide +kernel, by decide +kernel⟩

/-- The coordinates of `exTone` with complex data. -/
noncomputable def exBeat : FPatch := ⟨⟨exTone.patch.cm, ⟨[3, 4], fun _ => Complex.I⟩⟩, true, none⟩

/-- C76 fails for complex data: a filter that passes the slopes of all the waves loses the imaginary part. -/
theorem C76_complex_violated : ∃ R, exBeat.slopeFilter fast8 stableArgsort true [0, 0, 10 ^ 17, 10 ^ 18] "distance" "time" false false = .ok R ∧
    exBeat.patch.data.get [0, 0] = Complex.I ∧ R.patch.data.get [0, 0] = 0 := by
  have hp : Ready exBeat.patch := ⟨exTone_ready.regular, exTone_ready.readable, exTone_ready.listed, exTone_ready.ne, exTone_ready.shape⟩
  have hpos : Ascending exBeat.patch.cm ["distance", "time"] := by unfold Ascending; decide +kernel
  have hlong : ∀ d ∈ ["distance", "time"], 2 ≤ lenDim exBeat.patch.cm d := by decide +kernel
  obtain ⟨g, R, hg, r1, r2, _⟩ := C76_filter_partial (argsort := stableArgsort) (P := exBeat) fast8_le hp exTone_turned hpos hlong exTone_ask
    (a := 0) (b := 0) (c := 10 ^ 17) (d := 10 ^ 18) (by norm_num) (by norm_num) (by norm_num) true false false
  have hi : InRange exBeat.patch.data.shape [0, 0] := List.Forall₂.cons (by decide) (List.Forall₂.cons (by decide) List.Forall₂.nil)
  refine ⟨R, r1, rfl, ?_⟩
  rw [r2.data [0, 0] hi]
  have e : weightedWaves exBeat.patch (fun d => fast8 (lenDim exBeat.patch.cm d)) (waveGain g false false) "distance" "time" [0, 0] =
      weightedWaves exBeat.patch (fun d => fast8 (lenDim exBeat.patch.cm d)) (fun _ _ => 1) "distance" "time" [0, 0] := by
    apply weightedWaves_congr
    intro j l hj hl
    have := exTone_slopes j l hj hl
    unfold waveGain
    simp only [Bool.false_eq_true, if_false]
    refine (if_neg this.1).trans ?_
    exact hg.inside _ this.2.1 this.2.2
  show (((weightedWaves exBeat.patch _ _ "distance" "time" [0, 0]).re : ℝ) : ℂ) = 0
  rw [e, waves_all (argsort := stableArgsort) (P := exBeat) fast8_le hp exTone_turned hpos hlong exTone_ask [0, 0] hi]
  simp [exBeat]

end Verif
