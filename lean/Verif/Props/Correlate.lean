import Verif.Proof.Correlate
import Verif.Props.Align
/-!
# Shifted correlations (C53)

`Spec.LagShifted` says which lag each sample gets.
-/
namespace Verif
open Spec

/-- Labels that a coordinate can store can be read again. -/
theorem readable_of {m : CM} (h : ∀ name ds k c, m.ents.get? name = some (ds, .one k c) → Storable c.vals) : Readable m := by
  intro name ds c hc
  cases c with
  | nd a => exact ⟨_, rfl⟩
  | one k c =>
    have hs := h name ds k c hc
    cases c with
    | range r => exact ⟨_, rfl⟩
    | part n => exact ⟨_, rfl⟩
    | mono vs =>
      obtain ⟨d, hd, _⟩ := C14_represents_partial k vs hs
      exact ⟨_, by simp only [MCoord.canon]; rw [hd]; rfl⟩
    | arr vs =>
      obtain ⟨d, hd, _⟩ := C14_represents_partial k vs hs
      exact ⟨_, by simp only [MCoord.canon]; rw [hd]; rfl⟩

/-- C53. `correlate_shift` succeeds for at least two evenly spaced samples, and puts every sample at its lag. For an odd number of
samples of numbers the steps must be large compared to the tolerance of `np.isclose`; see the violations. -/
theorem C53_lags_partial {α} {div : α → ℚ → α} {p : PatchM α} (hm : Regular p.cm) (hd : p.cm.dims ≠ []) (hsh : p.cm.shape = p.data.shape)
    (hr : Readable p.cm) {dim : String} (hdim : dim ∈ p.cm.dims) {ds : List String} {k : Kind} {c : RangeCoord}
    (hc : p.cm.ents.get? dim = some (ds, .one k (.range c))) (hn : 2 ≤ c.len)
    (hok : k = .time ∨ 2 ∣ c.len ∨ 1 / 10 ^ 8 + 1 / 10 ^ 5 * |((c.len / 2 : ℕ) : ℚ) * c.step| < |c.step|)
    (hlag : "lag_" ++ dim ∉ p.cm.ents.keys) (undo : Bool) :
    ∃ q, p.correlateShift div dim undo = .ok q ∧
      LagShifted (fun x => if undo then div x (stepNumber k c.step) else x) p q dim ("lag_" ++ dim) c.step := by
  have : stepNumber k c.step = stepFloat k c.step := by
    unfold stepNumber stepFloat
    cases k <;> simp; norm_num
  rw [this]
  exact correlateShift_spec hm hd hsh hr hdim hc hn hok hlag undo

/-- C53. The samples that were first along the dimension are found at lag zero. -/
theorem C53_zero {α} {f : α → α} {p q : PatchM α} {dim lag : String} {step : ℚ} (h : LagShifted f p q dim lag step)
    {i : List ℕ} (hi : InRange p.data.shape i) (h0 : posAlong p dim i = 0) :
    ∃ x, InRange q.data.shape (i.set (p.cm.dims.idxOf dim) x) ∧ label q lag (i.set (p.cm.dims.idxOf dim) x) = some (some 0) ∧
      q.data.get (i.set (p.cm.dims.idxOf dim) x) = f (p.data.get i) := by
  obtain ⟨x, t, h1, h2, h3, h4, h5, h6⟩ := h.moved i hi
  rw [h0] at h5
  have ht : t = 0 := by
    simp only [Nat.cast_zero, sub_zero] at h5
    obtain ⟨m, rfl⟩ := h5
    rcases lt_trichotomy m 0 with hm | hm | hm
    · have : (lenDim p.cm dim : ℤ) * m ≤ -(lenDim p.cm dim : ℤ) := by nlinarith
      omega
    · simp [hm]
    · have : (lenDim p.cm dim : ℤ) ≤ lenDim p.cm dim * m := by nlinarith
      omega
  exact ⟨x, h1, by rw [h2, ht]; simp, h6⟩

/-! Four samples along `distance` with labels 5, 8, 11, 14, and five of them. -/
theorem exLag_readable : Readable exLag := by
  have h : exLag.ents.all (fun e => (e.2.2.canon.map fun _ => ()).toBool) = true := by decide +kernel
  intro name ds c hc
  rw [List.all_eq_true] at h
  have := h _ (Dict.mem_of_get? hc)
  simp only at this
  cases hx : c.canon with
  | ok x => exact ⟨x, rfl⟩
  | error e => rw [hx] at this; cases this

example : (∃ q, exLagPatch.correlateShift (fun x _ => x) "distance" false = .ok q ∧
    LagShifted (fun x => x) exLagPatch q "distance" "lag_distance" 3) := by
  obtain ⟨q, h1, h2⟩ := C53_lags_partial (div := fun x _ => x) (p := exLagPatch) exLag_regular (by decide +kernel) (by decide +kernel)
    exLag_readable (dim := "distance") (by decide +kernel) (ds := ["distance"]) (k := .int) (c := exUp) rfl (by decide +kernel)
    (Or.inr (Or.inl (by decide +kernel))) (by decide +kernel) false
  exact ⟨q, h1, by simpa [show exUp.step = 3 from rfl] using h2⟩

example : (exLagPatch.correlateShift (fun x _ => x) "distance" false).map (fun q => (q.cm.dims, (Nd.indices [1, 4]).map q.data.get,
    (Nd.indices [1, 4]).map (label q "lag_distance"))) =
    .ok (["time", "lag_distance"], [2, 3, 0, 1], [some (some (-6)), some (some (-3)), some (some 0), some (some 3)]) := by
  decide +kernel

/-- One trace of evenly spaced samples. -/
def lagTrace (k : Kind) (c : RangeCoord) : PatchM ℕ := ⟨⟨["time"], [("time", ["time"], .one k (.range c))]⟩, [c.len], fun i => i.getD 0 0⟩

/-- C53 violated. A single sample, or an odd number of samples with steps that `np.isclose` takes for zero (nanometres, say), is
refused. -/
theorem C53_short_violated :
    (((lagTrace .time ⟨0, 5, 5, 1⟩).correlateShift (fun x _ => x) "time" false).map fun q => q.cm.dims) = .error .coordError ∧
    (((lagTrace .float ⟨0, 3 / 1000000000, 1 / 1000000000, 3⟩).correlateShift (fun x _ => x) "time" false).map fun q => q.cm.dims) =
      .error .assertionError ∧
    (((lagTrace .float ⟨0, 3, 1, 3⟩).correlateShift (fun x _ => x) "time" false).map fun q => q.cm.dims) = .ok ["lag_time"] := by
  refine ⟨?_, ?_, ?_⟩ <;> decide +kernel

/-- C53 violated. Any odd number of float samples from 200001 on is refused too: the last lag is then close to the next one. -/
theorem C53_long_violated {c : RangeCoord} (hs : c.step ≠ 0) (hodd : ¬ 2 ∣ c.len) (hn : 200001 ≤ c.len) :
    lagCoord .float c = .error .assertionError := by
  set h := c.len / 2 with hh
  have hlen : c.len = 2 * h + 1 := by omega
  have hmk : getCoordParts false (some (-((h : ℕ) : ℚ) * c.step)) (some ((h : ℚ) * c.step)) (some c.step) none =
      .ok (.range ⟨-(h : ℚ) * c.step, (h : ℚ) * c.step, c.step, 2 * h⟩) := by
    have := mkRange_canonical (start := -(h : ℚ) * c.step) hs (show 1 ≤ 2 * h by omega)
    have e : -(h : ℚ) * c.step + c.step * ((2 * h : ℕ) : ℚ) = h * c.step := by push_cast; ring
    rw [e] at this
    simp [getCoordParts, mkRangeParts]
    simp at this
    rw [this]
  unfold lagCoord
  rw [ceil_half c.len (by omega)]
  simp only [Int.cast_natCast]
  rw [← hh, hmk]
  simp only [bind, Except.bind]
  unfold RangeCoord.changeLength
  simp only
  rw [if_neg (by omega), if_neg (by simp; omega), if_neg (by simp; omega)]
  have hstop : (h : ℚ) * c.step + c.step * (((c.len : ℤ) - ((2 * h : ℕ) : ℤ) : ℤ) : ℚ) = (h + 1) * c.step := by
    rw [hlen]; push_cast; ring
  have hclose : isClose (((h : ℚ) + 1) * c.step) ((h : ℚ) * c.step) = true := by
    unfold isClose
    simp only [decide_eq_true_eq, absQ_eq]
    rw [show ((h : ℚ) + 1) * c.step - h * c.step = c.step by ring, abs_mul, abs_of_nonneg (by positivity : (0 : ℚ) ≤ (h : ℚ))]
    have : (100000 : ℚ) ≤ h := by exact_mod_cast (by omega : 100000 ≤ h)
    have hp := abs_nonneg c.step
    nlinarith
  rw [hstop]
  simp only [show (decide (Kind.float = Kind.time)) = false from rfl, Bool.false_eq_true, if_false, hclose, if_true]
  rw [if_neg (by omega)]

example : ¬ 2 ∣ (⟨0, 200001, 1, 200001⟩ : RangeCoord).len ∧ 200001 ≤ (⟨0, 200001, 1, 200001⟩ : RangeCoord).len := by decide

/-- C53: a coordinate which already has the name of the lag is silently replaced. -/
theorem C53_name_violated :
    (((⟨⟨["time"], [("time", ["time"], .one .int (.range exUp)), ("lag_time", ["time"], .one .int (.mono [9, 4, 3, 1]))]⟩, [4],
      fun i => i.getD 0 0⟩ : PatchM ℕ).correlateShift (fun x _ => x) "time" false).map fun q => (q.cm.dims, q.cm.ents.map fun e => e.1)) =
      .ok (["lag_time"], ["lag_time"]) := by
  decide +kernel

end Verif
