import Verif.Proof.Resample
import Verif.Proof.Time
import Verif.Props.Interpolate
import Verif.Props.FilterUnits
/-!
# C69: resampling
-/
namespace Verif
open Spec

variable {p q : PatchM ℚ} {d : String} {k : Kind} {s₀ s : ℚ} {n : ℕ} {rs : LineResampler}

private theorem close_self (x : ℚ) : isClose x x = true := by
  unfold isClose
  rw [decide_eq_true_eq, sub_self, absQ_abs, absQ_abs, abs_zero]
  positivity

/-- **C69, number of samples.** `resample(dim=num, samples=True)` gives `num` samples at even labels, from the old first label, which together
cover the same length `n·s`; the other coordinates are those of the patch. -/
theorem C69_number_partial (hm : Regular p.cm) (hsh : p.cm.shape = p.data.shape) (hd : EvenAlong p.cm d k s₀ s n) {num : ℤ}
    (ht : EvenTimes k (s * n / num)) (h : p.resampleTo rs d num = .ok q) :
    0 < num ∧ Regridded p q d (progression s₀ (s * n / num) num.toNat) ∧ Storable (progression s₀ (s * n / num) num.toNat) ∧ FromLines rs p q d := by
  obtain ⟨hd, stop, hc⟩ := hd
  obtain ⟨h1, h2, cm, _, _, hR, hF⟩ := resampleTo_spec hm hsh hd hc h
  have hv : (⟨s₀, stop, s, n⟩ : RangeCoord).Valid := hm.classes _ _ _ _ (Dict.mem_of_get? hc)
  have hnum : ((num.toNat : ℕ) : ℚ) = num := by
    rw [show (num : ℚ) = ((num.toNat : ℤ) : ℚ) by rw [Int.toNat_of_nonneg h2.le]]; norm_cast
  have e := resampledLabels_eq (k := k) (r := ⟨s₀, stop, s, n⟩) (num := num.toNat) (by rw [hnum]; exact ht)
  simp only [hnum] at e
  rw [e] at hR
  have hs : s ≠ 0 := hv.1
  have hn : (n : ℚ) ≠ 0 := by have : 2 ≤ n := h1; norm_cast; omega
  refine ⟨h2, hR, storable_progression (div_ne_zero (mul_ne_zero hs hn) ?_) _, hF⟩
  norm_cast; omega

/-- **C69, kind of labels.** The resampled patch is evenly sampled along the dimension again: times stay times, and numbers become floats. -/
theorem C69_kind (hm : Regular p.cm) (hsh : p.cm.shape = p.data.shape) (hd : EvenAlong p.cm d k s₀ s n) {num : ℤ} (hn : 2 ≤ num)
    (ht : EvenTimes k (s * n / num)) (h : p.resampleTo rs d num = .ok q) :
    EvenAlong q.cm d (if k = .time then .time else .float) s₀ (s * n / num) num.toNat := by
  obtain ⟨hdd, stop, hc⟩ := id hd
  have hnum : ((num.toNat : ℕ) : ℚ) = num := by
    rw [show (num : ℚ) = ((num.toNat : ℤ) : ℚ) by rw [Int.toNat_of_nonneg (by omega)]]; norm_cast
  obtain ⟨_, _, _, g⟩ := resampleTo_even hm hsh hdd hc h (by rw [hnum]; exact ht) hn
  cases k <;> exact g

/-- **C69, a step that fits.** Where the length `n·s` of the patch is a whole number `m` of the steps `h` asked for, `resample(dim=h)` gives the
labels `s₀, s₀ + h, …`, `m` of them. -/
theorem C69_step (hm : Regular p.cm) (hsh : p.cm.shape = p.data.shape) (hd : EvenAlong p.cm d k s₀ s n) {kind : InterpKind} {h : ℚ}
    {m : ℕ} (hfit : n * s = m * h) (ht : EvenTimes k h) (hq : p.resample rs kind d h = .ok q) :
    Regridded p q d (progression s₀ h m) ∧ Storable (progression s₀ h m) ∧ FromLines rs p q d := by
  obtain ⟨hdd, stop, hc⟩ := id hd
  have hl : lenDim p.cm d = n := by
    have hv : (⟨s₀, stop, s, n⟩ : RangeCoord).Valid := hm.classes _ _ _ _ (Dict.mem_of_get? hc)
    rw [← dim_vals_length hm hdd hc (by rintro n ⟨⟩)]; exact hv.length_values
  unfold PatchM.resample at hq
  obtain ⟨x, hx, hq⟩ := bind_split hq
  have hh : h ≠ 0 ∧ x = m := by
    unfold resampledLength at hx
    rw [if_neg (not_not.2 hdd), hc] at hx
    simp only at hx
    split_ifs at hx with h0
    cases hx
    refine ⟨h0, ?_⟩
    rw [shape_getD hsh hdd, hl, ← mul_div_assoc, hfit, mul_div_assoc, div_self h0, mul_one]
  obtain ⟨hh, rfl⟩ := hh
  rw [show ((m : ℕ) : ℚ) = ((m : ℤ) : ℚ) by norm_cast, rint_int] at hq
  obtain ⟨out, hout, hq⟩ := bind_split hq
  rw [if_pos (close_self _)] at hq
  cases hq
  have hm0 : (m : ℚ) ≠ 0 := by
    have := (resampleTo_spec hm hsh hdd hc hout).2.1
    norm_cast; omega
  have e : s * n / ((m : ℤ) : ℚ) = h := by
    push_cast; rw [mul_comm, hfit, mul_comm, mul_div_assoc, div_self hm0, mul_one]
  obtain ⟨_, h2, h3, h4⟩ := C69_number_partial hm hsh hd (num := m) (e ▸ ht) hout
  rw [e] at h2 h3
  exact ⟨h2, h3, h4⟩

/-- **C69, a step that does not fit.** Otherwise, and if it is not taken to fit, the patch is first resampled to the nearest number `num` of
samples over the same length, and then interpolated to the labels `s₀, s₀ + h, …` up to the last label of these. -/
theorem C69_between_partial (hm : Regular p.cm) (hsh : p.cm.shape = p.data.shape) (hd : EvenAlong p.cm d k s₀ s n) (hs : 0 < s) {h : ℚ} (hh : 0 < h)
    {num : ℤ} (hn : 2 ≤ num) (hnear : |n * s / h - num| < 1 / 2) (hfar : 1 / 10 ^ 8 + num / 10 ^ 5 < |n * s / h - num|)
    (ht : EvenTimes k (s * n / num)) (hq : p.resample rs .linear d h = .ok q) :
    ∃ out m, Regridded p out d (progression s₀ (s * n / num) num.toNat) ∧ FromLines rs p out d ∧ EvenAlong out.cm d (if k = .time then .time else .float) s₀ (s * n / num) num.toNat ∧
      Regridded out q d (progression s₀ h m) ∧ OnSegments out q d (progression s₀ h m) ∧ Storable (progression s₀ h m) ∧
      ∀ i : ℕ, i < m ↔ s₀ + i * h < s₀ + (num - 1) * (s * n / num) := by
  obtain ⟨hdd, stop, hc⟩ := id hd
  have hv : (⟨s₀, stop, s, n⟩ : RangeCoord).Valid := hm.classes _ _ _ _ (Dict.mem_of_get? hc)
  have hl : lenDim p.cm d = n := by
    rw [← dim_vals_length hm hdd hc (by rintro n ⟨⟩)]; exact hv.length_values
  unfold PatchM.resample at hq
  obtain ⟨x, hx, hq⟩ := bind_split hq
  have hxe : x = n * s / h := by
    unfold resampledLength at hx
    rw [if_neg (not_not.2 hdd), hc] at hx
    simp only at hx
    split_ifs at hx with h0
    cases hx
    rw [shape_getD hsh hdd, hl, ← mul_div_assoc]
  subst hxe
  rw [rint_eq_of_lt hnear] at hq
  obtain ⟨out, hout, hq⟩ := bind_split hq
  have hnum0 : (0 : ℚ) < num := by norm_cast; omega
  have hnum : ((num.toNat : ℕ) : ℚ) = num := by
    rw [show (num : ℚ) = ((num.toNat : ℤ) : ℚ) by rw [Int.toNat_of_nonneg (by omega)]]; norm_cast
  rw [if_neg] at hq
  swap
  · unfold isClose
    rw [decide_eq_true_eq, not_le]
    rw [absQ_abs, absQ_abs, abs_of_pos hnum0]
    linarith
  obtain ⟨_, h2, _, h4⟩ := C69_number_partial hm hsh hd ht hout
  obtain ⟨g1, g2, g3, g4⟩ := resampleTo_even hm hsh hdd hc hout (by rw [hnum]; exact ht) hn
  obtain ⟨g4, stop', g5⟩ := id g4
  simp only at g5
  have hv' : (⟨s₀, stop', s * n / num, num.toNat⟩ : RangeCoord).Valid := g1.classes _ _ _ _ (Dict.mem_of_get? g5)
  have hn0 : 0 < (n : ℚ) := by have h1 : 1 ≤ n := hv.len_pos; norm_cast
  have hst : 0 < s * n / (num : ℚ) := by positivity
  have hsteps : steppedLabels out d h = .ok (k.divided, progression s₀ h ⌈((num - 1) * (s * n / num)) / h⌉.toNat) := by
    unfold steppedLabels
    rw [g5]
    simp only [Coord.lo, Coord.hi]
    rw [hv'.cmin_eq, hv'.cmax_eq]
    simp only [hnum]
    have h1n : (0 : ℚ) ≤ (num - 1) * (s * n / num) := by
      refine mul_nonneg ?_ hst.le
      have : (2 : ℚ) ≤ num := by exact_mod_cast hn
      linarith
    rw [min_eq_left (by linarith), max_eq_right (by linarith)]
    unfold arangeQ progression
    rw [add_sub_cancel_left]
  rw [hsteps] at hq
  simp only [bind, Except.bind] at hq
  have hD : Distinguished out.cm d := by
    refine ⟨g4, _, _, g5, ?_, ?_⟩
    · show (RangeCoord.values _).Nodup
      rw [hv'.values_eq]
      rcases progression_strict s₀ (s * n / num) num.toNat hst.ne' with hp | hp
      · exact hp.imp fun h => h.ne
      · exact hp.imp fun h => h.ne'
    · show 2 ≤ (RangeCoord.values _).length
      rw [hv'.length_values]
      show 2 ≤ num.toNat
      omega
  obtain ⟨f1, f2⟩ := C68_linear g1 g3 hD hq
  refine ⟨out, _, h2, h4, C69_kind hm hsh hd hn ht hout, f1, f2, storable_progression hh.ne' _, ?_⟩
  intro i
  rw [add_lt_add_iff_left, ← lt_div_iff₀ hh, Int.lt_toNat, Int.lt_ceil]
  norm_cast

/-- **C69, success.** Resampling to a positive number of samples, or to a step with the sign of the old one of which at least one fits, succeeds. -/
theorem C69_done (hm : Regular p.cm) (hr : Readable p.cm) (hsh : p.cm.shape = p.data.shape) (hd : EvenAlong p.cm d k s₀ s n) (hn : 2 ≤ n) :
    (∀ num : ℤ, 0 < num → EvenTimes k (s * n / num) → ∃ q, p.resampleTo rs d num = .ok q) ∧
    (∀ kind h (m : ℕ), 1 ≤ m → n * s = m * h → EvenTimes k h → ∃ q, p.resample rs kind d h = .ok q) := by
  obtain ⟨hdd, stop, hc⟩ := id hd
  have hv : (⟨s₀, stop, s, n⟩ : RangeCoord).Valid := hm.classes _ _ _ _ (Dict.mem_of_get? hc)
  have hs : s ≠ 0 := hv.1
  have hn0 : (n : ℚ) ≠ 0 := by norm_cast; omega
  have hl : lenDim p.cm d = n := by
    rw [← dim_vals_length hm hdd hc (by rintro n ⟨⟩)]; exact hv.length_values
  have h1 : ∀ num : ℤ, 0 < num → EvenTimes k (s * n / num) → ∃ q, p.resampleTo rs d num = .ok q := by
    intro num h0 ht
    have hnum : ((num.toNat : ℕ) : ℚ) = num := by
      rw [show (num : ℚ) = ((num.toNat : ℤ) : ℚ) by rw [Int.toNat_of_nonneg h0.le]]; norm_cast
    have e := resampledLabels_eq (k := k) (r := ⟨s₀, stop, s, n⟩) (num := num.toNat) (by rw [hnum]; exact ht)
    refine resampleTo_total hm hr hsh hdd hc hn h0 ?_
    rw [e]
    refine storable_progression (div_ne_zero (mul_ne_zero hs hn0) ?_) _
    norm_cast; omega
  refine ⟨h1, ?_⟩
  intro kind h m hm1 hfit ht
  have hm0 : (m : ℚ) ≠ 0 := by norm_cast; omega
  have hh : h ≠ 0 := by rintro rfl; rw [mul_zero] at hfit; exact mul_ne_zero hn0 hs hfit
  have e : s * n / ((m : ℤ) : ℚ) = h := by
    push_cast; rw [mul_comm, hfit, mul_comm, mul_div_assoc, div_self hm0, mul_one]
  obtain ⟨q, hq⟩ := h1 m (by omega) (e ▸ ht)
  refine ⟨q, ?_⟩
  unfold PatchM.resample resampledLength
  rw [if_neg (not_not.2 hdd), hc]
  simp only
  rw [if_neg hh, shape_getD hsh hdd, hl, ← mul_div_assoc, hfit, mul_div_assoc, div_self hh, mul_one]
  simp only [bind, Except.bind]
  rw [show ((m : ℕ) : ℚ) = ((m : ℤ) : ℚ) by norm_cast, rint_int, hq]
  simp only
  rw [if_pos (close_self _)]

/-- **C69, meaning of the step.** A number is a step in the units of the coordinate, seconds for times. A quantity like the coordinate is a
period; a rate per unit of the coordinate is the inverse of one. -/
theorem C69_units (k : Kind) (u a : Quant ℚ) (hm : u.mag = 1) (hs : 0 < u.unit.scale) (hu : HasDim u.unit) :
    (∀ x, resampleStep k (some u) (.num x) = .ok (if k = .time then (rint (x * 1000000000) : ℚ) else x)) ∧
    (CycleFor u.unit a → ∃ x, x * u.unit.scale = a.base ∧
      resampleStep k (some u) (.quant a) = .ok (if k = .time then (rint (x * 1000000000) : ℚ) else x)) ∧
    (RateFor u.unit a → FromZero a → 0 < a.base → ∃ x, x * u.unit.scale = 1 / a.base ∧
      resampleStep k (some u) (.quant a) = .ok (if k = .time then (rint (x * 1000000000) : ℚ) else x)) := by
  have hm' : (⟨1 / u.mag, u.unit.inv⟩ : Quant ℚ).mag = 1 := by simp [hm]
  have hs' : 0 < (⟨1 / u.mag, u.unit.inv⟩ : Quant ℚ).unit.scale := inv_pos.2 hs
  have hu' : HasDim (⟨1 / u.mag, u.unit.inv⟩ : Quant ℚ).unit := by
    obtain ⟨e, he, h0⟩ := hu
    exact ⟨-e, List.mem_map.2 ⟨e, he, rfl⟩, by simpa using h0⟩
  refine ⟨fun x => rfl, ?_, ?_⟩
  · intro ha
    obtain ⟨lo, hi, h1, h2⟩ := C67_rates _ a a hm' hs' hu' (by
      show a.unit.dim = (u.unit.dim.map (- ·)).map (- ·)
      rw [show a.unit.dim = u.unit.dim from ha, List.map_map]
      simp) rfl
    have e : ∀ f, cyclesPer (⟨1 / u.mag, u.unit.inv⟩ : Quant ℚ).unit f = f * u.unit.scale := by
      intro f; simp only [cyclesPer, PintUnit.inv]; rw [div_inv_eq_mul]
    refine ⟨lo, ?_, by simp only [resampleStep, Option.map_some, h1, bind, Except.bind]⟩
    have h3 := (h2 (a.base / u.unit.scale)).2 (by rw [e, div_mul_cancel₀ _ hs.ne']; exact ⟨le_refl _, le_refl _⟩)
    have h4 := (h2 lo).1 ⟨le_refl _, h3.1.trans h3.2⟩
    rw [e] at h4
    exact le_antisymm h4.2 h4.1
  · intro ha h0 hp
    have hc : CycleFor (⟨1 / u.mag, u.unit.inv⟩ : Quant ℚ).unit a := ha
    have h0' : a.unit.offset = 0 := h0
    have hma : a.mag ≠ 0 := by rintro h; simp only [Quant.base, h, h0', zero_mul, add_zero, lt_self_iff_false] at hp
    have h1 : getFilterUnits (.quant a) (.quant a) (some ⟨1 / u.mag, u.unit.inv⟩) =
        .ok (some (1 / a.mag * a.unit.scale⁻¹ / (u.unit.inv.scale)⁻¹), some (1 / a.mag * a.unit.scale⁻¹ / (u.unit.inv.scale)⁻¹)) := by
      rw [filter_of (.inl rfl) hm']
      simp only [FLimit.toQuant, filterLimits, sameUnits, decide_true, if_true, inverted_cycle hu' hc hma, bind, Except.bind,
        Bool.or_self, Bool.not_false, if_true]
    refine ⟨1 / a.mag * a.unit.scale⁻¹ / (u.unit.inv.scale)⁻¹, ?_, by simp only [resampleStep, Option.map_some, h1, bind, Except.bind]⟩
    have := cyclesPer_cycle hs' h0
    rw [← this]
    simp only [cyclesPer, PintUnit.inv]
    rw [div_inv_eq_mul, div_inv_eq_mul]

example : HasDim secondQ.unit ∧ CycleFor secondQ.unit (exSec 10) ∧ RateFor secondQ.unit (exHz 50) ∧
    resampleStep .time (some secondQ) (.quant (exHz 50)) = .ok 20000000 ∧ resampleStep .time (some secondQ) (.num (1 / 100)) = .ok 10000000 := by
  refine ⟨⟨1, by decide, by decide⟩, rfl, rfl, by decide +kernel, by decide +kernel⟩

/-- `n` samples at the labels `s₀, s₀ + s, …`. -/
def exRow (k : Kind) (s₀ s : ℚ) (n : ℕ) : PatchM ℚ :=
  ⟨⟨["x"], [("x", ["x"], .one k (.range ⟨s₀, s₀ + s * n, s, n⟩))]⟩, [n], fun i => 10 * (i.getD 0 0 : ℚ)⟩

theorem exRow_regular (k : Kind) (s₀ : ℚ) {s : ℚ} (hs : s ≠ 0) {n : ℕ} (hn : 1 ≤ n) : Regular (exRow k s₀ s n).cm ∧ Readable (exRow k s₀ s n).cm ∧
    (exRow k s₀ s n).cm.shape = (exRow k s₀ s n).data.shape ∧ EvenAlong (exRow k s₀ s n).cm "x" k s₀ s n := by
  have hmem : ∀ name ds c, (name, ds, c) ∈ (exRow k s₀ s n).cm.ents → name = "x" ∧ ds = ["x"] ∧ c = .one k (.range ⟨s₀, s₀ + s * n, s, n⟩) := by
    intro name ds c h
    simpa only [exRow, List.mem_cons, Prod.mk.injEq, List.not_mem_nil, or_false] using h
  refine ⟨⟨⟨by simp [exRow], ?_, ?_, ?_⟩, by simp [DistinctDims, exRow], ?_, ?_, ?_⟩, ?_, ?_, by simp [exRow], _, rfl⟩
  · intro d hd
    have : d = "x" := by simpa [exRow] using hd
    subst this
    exact ⟨.one k (.range ⟨s₀, s₀ + s * n, s, n⟩), n, by simp [exRow], rfl⟩
  · intro name ds c h d hd
    obtain ⟨_, rfl, _⟩ := hmem _ _ _ h
    exact hd
  · intro name ds c h _
    obtain ⟨_, rfl, rfl⟩ := hmem _ _ _ h
    refine ⟨rfl, ?_⟩
    intro t d m h1 h2 c' hc'
    obtain ⟨_, _, rfl⟩ := hmem _ _ _ hc'
    match t, h1, h2 with
    | 0, _, h2 => cases h2; rfl
    | t + 1, h1, _ => simp at h1
  · intro name ds c h
    obtain ⟨_, rfl, _⟩ := hmem _ _ _ h
    decide
  · intro name ds k' c h
    obtain ⟨_, _, h⟩ := hmem _ _ _ h
    cases h
    exact ⟨hs, hn, rfl⟩
  · intro name hn
    have : name = "x" := by simpa [exRow, Dict.keys] using hn
    subst this
    have : matchesPrefixSuffix ["x"] "x" = false := by decide +kernel
    exact this
  · intro name ds c h
    obtain ⟨_, _, rfl⟩ := hmem _ _ _ (Dict.mem_of_get? h)
    exact ⟨_, rfl⟩
  · rfl

theorem exRow_length (k : Kind) (s₀ s : ℚ) (n : ℕ) {h : ℚ} (hh : h ≠ 0) : resampledLength (exRow k s₀ s n) "x" h = .ok ((n : ℚ) * (s / h)) := by
  unfold resampledLength
  rw [if_neg (not_not.2 (by simp [exRow]))]
  show (if h = 0 then _ else _) = _
  rw [if_neg hh]
  rfl

theorem exRow_close (k : Kind) (s₀ s : ℚ) (n : ℕ) {h : ℚ} (hh : h ≠ 0) {num : ℤ} (h1 : rint ((n : ℚ) * (s / h)) = num)
    (h2 : isClose ((n : ℚ) * (s / h)) num = true) (hq : (exRow k s₀ s n).resampleTo rs "x" num = .ok q) :
    (exRow k s₀ s n).resample rs .linear "x" h = .ok q := by
  unfold PatchM.resample
  rw [exRow_length k s₀ s n hh]
  simp only [bind, Except.bind]
  rw [h1, hq]
  simp only [h2, if_true]

/-- A resampler, for the examples: nearest samples. -/
def exNear : LineResampler := fun l num => (List.range num).map fun i => l.getD (i * l.length / num) 0

example : ((exRow .float 3 (1 / 2) 6).resample exNear .linear "x" (3 / 2)).map (fun q => (q.data.shape, label q "x" [1], q.data.get [1])) =
    .ok ([2], some (some (9 / 2)), 30) ∧ ((6 : ℕ) : ℚ) * (1 / 2) = (2 : ℕ) * (3 / 2) := ⟨by decide +kernel, by norm_num⟩
example : EvenTimes .time (1000000000 * (10 : ℕ) / ((5 : ℤ) : ℚ)) ∧
    ((exRow .time 7 1000000000 10).resampleTo exNear "x" 5).map (fun q => (q.data.shape, label q "x" [3])) =
      .ok ([5], some (some 6000000007)) := ⟨fun _ => ⟨2000000000, by norm_num⟩, by decide +kernel⟩
/-- Ten samples do not fit into steps of three: three samples, at 0, 10/3 and 20/3, and then three at 0, 3 and 6. -/
example : |(10 : ℕ) * 1 / 3 - ((3 : ℤ) : ℚ)| < 1 / 2 ∧ 1 / 10 ^ 8 + ((3 : ℤ) : ℚ) / 10 ^ 5 < |(10 : ℕ) * (1 : ℚ) / 3 - ((3 : ℤ) : ℚ)| ∧
    ((exRow .float 0 1 10).resample exNear .linear "x" 3).map (fun q => (q.data.shape, label q "x" [1], q.data.get [1])) =
      .ok ([3], some (some 3), 27) :=
  ⟨by norm_num [abs_of_pos], by norm_num [abs_of_pos], by decide +kernel⟩

theorem exThird_rint : rint (100001 * (1 / 3)) = 33334 := rint_eq_of_lt (by norm_num [abs_of_neg])
theorem exThird_close : isClose (100001 * (1 / 3)) ((33334 : ℤ) : ℚ) = true := by
  unfold isClose
  rw [decide_eq_true_eq, absQ_abs, absQ_abs]
  norm_num [abs_of_neg]

/-- **C69, violated: steps of long patches.** The number of samples for the step asked for is compared with the nearest whole number with a
tolerance which grows with it. From about fifty thousand samples on any step is taken to fit, and the step of the result is another one:
100001 samples at a distance of 1, resampled to a distance of 3, get the distance 100001/33334, less than 3. -/
theorem C69_long_violated (rs : LineResampler) : ∃ q, (exRow .float 0 1 100001).resample rs .linear "x" 3 = .ok q ∧
    ∀ i : ℕ, i < 33334 → label q "x" [i] = some (some ((i : ℚ) * (100001 / 33334))) ∧ (100001 / 33334 : ℚ) < 3 := by
  obtain ⟨h1, h2, h3, h4⟩ := exRow_regular .float 0 (s := 1) one_ne_zero (n := 100001) (by norm_num)
  obtain ⟨q, hq⟩ := (C69_done (rs := rs) h1 h2 h3 h4 (by norm_num)).1 33334 (by norm_num) (by rintro ⟨⟩)
  obtain ⟨_, hR, hs, _⟩ := C69_number_partial h1 h3 h4 (by rintro ⟨⟩) hq
  refine ⟨q, ?_, ?_⟩
  · have e1 : (((100001 : ℕ) : ℚ) * (1 / 3)) = 100001 * (1 / 3) := by norm_num
    exact exRow_close .float 0 1 100001 (by norm_num) (num := 33334) (by rw [e1]; exact exThird_rint) (by rw [e1]; exact exThird_close) hq
  · intro i hi
    have hsh : q.data.shape = [33334] := by
      rw [hR.shape, progression_length]
      simp [exRow]
    have hin : InRange q.data.shape [i] := by
      rw [hsh]; exact .cons hi .nil
    rw [hR.own hs _ hin]
    refine ⟨?_, by norm_num⟩
    have hp : posAlong q "x" [i] = i := by unfold posAlong; rw [hR.dims]; rfl
    rw [hp, progression, List.getElem?_map, List.getElem?_range (by simpa using hi)]
    norm_num

/-- **C69, violated: descending labels.** Labels which descend need a negative step; if it does not fit the result has no samples. -/
theorem C69_descending_violated :
    ((exRow .float 9 (-1) 10).resample exNear .linear "x" (-3)).map (fun q => q.data.shape) = .ok [0] ∧
    ((exRow .float 9 (-1) 10).resample exNear .linear "x" (-2)).map (fun q => q.data.shape) = .ok [5] := by decide +kernel

/-- **C69, violated: times.** The times of the new samples lose their fractions of a nanosecond, and are then made even by a step which is a
whole number of nanoseconds, or, if they are close, left uneven. Ten samples at seconds, resampled to seven, end at 8.571428574 s, and not
60/7 s = 8.571428571… s; the error grows with the number of samples. Ten samples at every tenth microsecond become unevenly sampled. -/
theorem C69_times_violated :
    ((exRow .time 0 1000000000 10).resampleTo exNear "x" 7).map (fun q => label q "x" [6]) = .ok (some (some 8571428574)) ∧
    (8571428574 : ℚ) - 60000000000 / 7 > 2 ∧
    ((exRow .time 0 100 10).resampleTo exNear "x" 7).map (fun q => (label q "x" [1], label q "x" [2])) =
      .ok (some (some 142), some (some 285)) := by decide +kernel

end Verif
