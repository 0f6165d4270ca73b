import Verif.Proof.PassFilter
import Verif.Props.FilterUnits
import Verif.Proof.TauP
import Verif.Proof.Correlate
/-! # C77: pass and notch filters -/
namespace Verif
open Spec

theorem even_shape {α : Type} {p : PatchM α} {d : String} {k : Kind} {s₀ s : ℚ} {n : ℕ} (hm : Regular p.cm) (hsh : p.cm.shape = p.data.shape)
    (hd : EvenAlong p.cm d k s₀ s n) : p.data.shape.getD (p.cm.dims.idxOf d) 0 = n := by
  obtain ⟨hdd, stop, hc⟩ := id hd
  obtain ⟨d', h1, -, h2⟩ := hm.one_dim hc (by simp)
  cases h1
  rw [shape_getD hsh hdd]
  exact h2.symm

theorem order_padding {N : ℚ} {lo hi : Option ℚ} {band : PassBand} (h : bandFor N lo hi = some band) (corners : ℕ) :
    3 * (band.order corners + 1) = filterPadding corners lo hi := by
  rcases lo with _ | x <;> rcases hi with _ | y <;> simp only [bandFor, Option.some.injEq, reduceCtorEq] at h <;> subst h <;> rfl

section
variable {K : Type} [Inhabited K] {butter : PassBand → ℕ → Bool → List K → List K} {p : PatchM K} {d : String} {k : Kind} {s₀ s : ℚ} {n : ℕ}

theorem passLines_iff (hm : Regular p.cm) (hsh : p.cm.shape = p.data.shape) (hd : EvenAlong p.cm d k s₀ s n) (hs : 0 < s) (corners : ℕ) (zerophase : Bool)
    (lo hi : Option ℚ) (q : PatchM K) : p.passLines butter corners zerophase d lo hi = .ok q ↔
      ∃ band, LimitsInside (nyquistOf k s) lo hi ∧ bandFor (nyquistOf k s) lo hi = some band ∧ (zerophase = true → filterPadding corners lo hi < n) ∧
        q = ⟨p.cm, p.data.eachLine (butter band corners zerophase) (p.cm.dims.idxOf d)⟩ := by
  unfold PatchM.passLines
  rw [samplingRate_even hd]
  simp only [bind, Except.bind]
  have hiff := passBand_iff (nyquist_pos (k := k) hs) (rate_half k s) lo hi
  constructor
  · intro h
    cases e : passBand (1 / stepFloat k s) lo hi with
    | error x => rw [e] at h; cases h
    | ok band =>
      rw [e] at h
      simp only at h
      obtain ⟨h1, h2⟩ := (hiff band).1 e
      rw [even_shape hm hsh hd] at h
      split_ifs at h with c
      unfold PatchM.eachLine at h
      rw [if_neg (not_not.2 hd.1)] at h
      refine ⟨band, h1, h2, fun hz => ?_, by cases h; rfl⟩
      rw [← order_padding h2]
      simpa [tooShort, hz] using c
  · rintro ⟨band, h1, h2, h3, rfl⟩
    rw [(hiff band).2 ⟨h1, h2⟩]
    simp only
    rw [even_shape hm hsh hd, if_neg, PatchM.eachLine, if_neg (not_not.2 hd.1)]
    simp only [tooShort, Bool.and_eq_true, decide_eq_true_eq, not_and, not_le]
    rw [order_padding h2]
    exact h3

theorem passFilter_num (units : Dict (Quant ℚ)) (hd : d ∈ p.cm.dims) {lo hi : Option ℚ} {a b : PassLimit} (ha : LimitText lo a) (hb : LimitText hi b)
    (hg : lo ≠ none ∨ hi ≠ none) (corners : ℕ) (zerophase : Bool) :
    p.passFilter butter units corners zerophase [(d, some [a, b])] = p.passLines butter corners zerophase d lo hi := by
  unfold PatchM.passFilter
  simp only [checkFilterKwargs, checkSequence_writes ha hb hg, Except.map, bind, Except.bind, getFilterUnits_writes ha hb]
  rw [if_neg (not_not.2 hd)]

/-- A pass filter with limits between zero and the Nyquist frequency is applied to every line along the dimension, and nothing else changes: a lower and an
upper limit give the band between them, one limit all frequencies above or below. Missing (see below): the limits zero and Nyquist, and dimensions with
descending labels. -/
theorem C77_pass_partial (hlen : ∀ b c z l, (butter b c z l).length = l.length) (hm : Regular p.cm) (hsh : p.cm.shape = p.data.shape)
    (hd : EvenAlong p.cm d k s₀ s n) (hs : 0 < s) (units : Dict (Quant ℚ)) {lo hi : Option ℚ} {a b : PassLimit} (ha : LimitText lo a) (hb : LimitText hi b)
    (hl : LimitsInside (nyquistOf k s) lo hi) (corners : ℕ) (zerophase : Bool) (hn : zerophase = true → filterPadding corners lo hi < n) :
    ∃ band q, bandFor (nyquistOf k s) lo hi = some band ∧ p.passFilter butter units corners zerophase [(d, some [a, b])] = .ok q ∧
      LinesBy (butter band corners zerophase) p q d := by
  have : ∃ band, bandFor (nyquistOf k s) lo hi = some band := by
    rcases lo with _ | x <;> rcases hi with _ | y
    · exact absurd hl.given (by simp)
    all_goals exact ⟨_, rfl⟩
  obtain ⟨band, hband⟩ := this
  refine ⟨band, _, hband, ?_, linesBy_eachLine (hlen _ _ _) hsh hd.1⟩
  rw [passFilter_num units hd.1 ha hb hl.given, passLines_iff hm hsh hd hs]
  exact ⟨band, hl, hband, hn, rfl⟩

/-- Exactly these limits are accepted, for exactly the lines that are long enough. -/
theorem C77_accepted_partial (hm : Regular p.cm) (hsh : p.cm.shape = p.data.shape)
    (hd : EvenAlong p.cm d k s₀ s n) (hs : 0 < s) (units : Dict (Quant ℚ)) {lo hi : Option ℚ} {a b : PassLimit} (ha : LimitText lo a) (hb : LimitText hi b)
    (hg : lo ≠ none ∨ hi ≠ none) (corners : ℕ) (zerophase : Bool) :
    (∃ q, p.passFilter butter units corners zerophase [(d, some [a, b])] = .ok q) ↔
      LimitsInside (nyquistOf k s) lo hi ∧ (zerophase = true → filterPadding corners lo hi < n) := by
  rw [passFilter_num units hd.1 ha hb hg]
  constructor
  · rintro ⟨q, h⟩
    obtain ⟨band, h1, h2, h3, -⟩ := (passLines_iff hm hsh hd hs corners zerophase lo hi q).1 h
    exact ⟨h1, h3⟩
  · rintro ⟨h1, h3⟩
    have : ∃ band, bandFor (nyquistOf k s) lo hi = some band := by
      rcases lo with _ | x <;> rcases hi with _ | y
      · exact absurd hg (by simp)
      all_goals exact ⟨_, rfl⟩
    obtain ⟨band, hband⟩ := this
    exact ⟨_, (passLines_iff hm hsh hd hs corners zerophase lo hi _).2 ⟨band, h1, hband, h3, rfl⟩⟩

/-- Whatever is given: if a pass filter succeeds, one dimension and two limits were given, the dimension is evenly sampled, and the result is the patch with
one filter applied to all lines along it, and the same coordinates. -/
theorem C77_pass_lines (hlen : ∀ b c z l, (butter b c z l).length = l.length) (hsh : p.cm.shape = p.data.shape) {units : Dict (Quant ℚ)} {corners : ℕ}
    {zerophase : Bool} {kw : Dict (Option (List PassLimit))} {q : PatchM K} (h : p.passFilter butter units corners zerophase kw = .ok q) :
    ∃ d a b k r ds band, kw = [(d, some [a, b])] ∧ d ∈ p.cm.dims ∧ p.cm.ents.get? d = some (ds, .one k (.range r)) ∧
      (∀ x ∈ band.limits, 0 < x ∧ x < 1) ∧ LinesBy (butter band corners zerophase) p q d := by
  unfold PatchM.passFilter at h
  obtain ⟨⟨d, a, b⟩, h1, h⟩ := bind_split h
  have hkw : kw = [(d, some [a, b])] := by
    unfold checkFilterKwargs at h1
    split at h1
    · rename_i d' r
      unfold checkFilterSequence at h1
      split at h1
      · split_ifs at h1
        · cases h1
        · cases h1; rfl
      · cases h1
    · cases h1
  simp only at h
  split_ifs at h with hd
  obtain ⟨l, h2, h⟩ := bind_split h
  unfold PatchM.passLines at h
  obtain ⟨rate, h3, h⟩ := bind_split h
  obtain ⟨band, h4, h⟩ := bind_split h
  split_ifs at h with hs
  unfold PatchM.eachLine at h
  rw [if_neg (not_not.2 hd)] at h
  cases h
  unfold samplingRate at h3
  split at h3
  · rename_i ds k r hr
    refine ⟨d, a, b, k, r, ds, band, hkw, hd, hr, ?_, linesBy_eachLine (hlen _ _ _) hsh hd⟩
    unfold passBand at h4
    obtain ⟨_, -, h4⟩ := bind_split h4
    obtain ⟨_, -, h4⟩ := bind_split h4
    unfold iirfilterCheck at h4
    split_ifs at h4 with c
    cases h4
    intro x hx
    simp only [List.any_eq_true, not_exists, not_and, Bool.or_eq_true, decide_eq_true_eq, not_or, not_le] at c
    exact c x hx
  · cases h3

/-- What is refused as a value that no filter can have: several dimensions or none, anything but two limits, no limit at all, and limits outside of zero and
Nyquist or in the wrong order. -/
theorem C77_refused (hd : EvenAlong p.cm d k s₀ s n) (hs : 0 < s) (units : Dict (Quant ℚ)) (corners : ℕ) (zerophase : Bool) :
    (∀ kw, kw.length ≠ 1 → p.passFilter butter units corners zerophase kw = .error .filterValueError) ∧
    (∀ e r, (∀ l, r = some l → l.length ≠ 2) → p.passFilter butter units corners zerophase [(e, r)] = .error .filterValueError) ∧
    (∀ e, p.passFilter butter units corners zerophase [(e, some [.null, .null])] = .error .filterValueError) ∧
    (∀ lo hi a b, LimitText lo a → LimitText hi b → (∃ x, (lo = some x ∨ hi = some x) ∧ (x < 0 ∨ nyquistOf k s < x)) ∨ (∃ x y, lo = some x ∧ hi = some y ∧ y ≤ x) →
      p.passFilter butter units corners zerophase [(d, some [a, b])] = .error .filterValueError) := by
  refine ⟨fun kw hkw => ?_, fun e r hr => ?_, fun e => rfl, fun lo hi a b ha hb h => ?_⟩
  · unfold PatchM.passFilter checkFilterKwargs
    split
    · exact absurd rfl hkw
    · rfl
  · have : checkFilterSequence r = .error .filterValueError := by
      unfold checkFilterSequence
      split
      · exact absurd rfl (hr _ rfl)
      · rfl
    unfold PatchM.passFilter
    simp only [checkFilterKwargs, this, Except.map, bind, Except.bind]
  · have hg : lo ≠ none ∨ hi ≠ none := by
      rcases h with ⟨x, rfl | rfl, -⟩ | ⟨x, y, rfl, -⟩ <;> simp
    rw [passFilter_num units hd.1 ha hb hg, PatchM.passLines, samplingRate_even hd]
    have hN := nyquist_pos (k := k) hs
    have : checkFilterRange (lo.map (· / nyquistOf k s)) (hi.map (· / nyquistOf k s)) = .error .filterValueError := by
      have out : ∀ x : ℚ, x < 0 ∨ nyquistOf k s < x → (decide (x / nyquistOf k s < 0) || decide (1 < x / nyquistOf k s)) = true := by
        intro x hx
        rw [Bool.or_eq_true, decide_eq_true_eq, decide_eq_true_eq, lt_div_iff₀ hN, div_lt_iff₀ hN]
        simpa using hx
      unfold checkFilterRange
      rcases h with ⟨x, rfl | rfl, h⟩ | ⟨x, y, rfl, rfl, h⟩
      · rw [if_pos (by simpa using out x h)]
      · split
        · rfl
        · rw [if_pos (by simpa using out x h)]
      · split_ifs
        · rfl
        · rfl
        · simp only [Option.map_some]
          rw [if_pos ((div_le_div_iff_of_pos_right hN).2 h)]
    simp only [bind, Except.bind, passBand, rate_half, this]

/-- Dimensions that are not there and dimensions without a step are refused. -/
theorem C77_dimension (units : Dict (Quant ℚ)) (corners : ℕ) (zerophase : Bool) (a b : PassLimit) (e : String)
    (h : e ∉ p.cm.dims ∨ ∀ ds k r, p.cm.ents.get? e ≠ some (ds, .one k (.range r))) : ∃ x, p.passFilter butter units corners zerophase [(e, some [a, b])] = .error x := by
  cases hq : p.passFilter butter units corners zerophase [(e, some [a, b])] with
  | error x => exact ⟨x, rfl⟩
  | ok q =>
    exfalso
    unfold PatchM.passFilter at hq
    obtain ⟨⟨d, a', b'⟩, h1, hq'⟩ := bind_split hq
    have hde : d = e := by
      simp only [checkFilterKwargs, checkFilterSequence] at h1
      split_ifs at h1
      · cases h1
      · cases h1; rfl
    subst hde
    simp only at hq'
    split_ifs at hq' with hd
    obtain ⟨l, h2, hq'⟩ := bind_split hq'
    unfold PatchM.passLines at hq'
    obtain ⟨rate, h3, -⟩ := bind_split hq'
    rcases h with h | h
    · exact h hd
    · unfold samplingRate at h3
      split at h3
      · exact h _ _ _ ‹_›
      · cases h3

/-- Limits with units mean frequencies: a filter with rates is that with the same rates as numbers of cycles per unit of the dimension, a filter with
lengths of a cycle that with the inverse of these lengths, the longest one being the lowest frequency. -/
theorem C77_units (units : Dict (Quant ℚ)) {u a b : Quant ℚ} (hu : units.get? d = some u) (hmag : u.mag = 1) (hsc : 0 < u.unit.scale) (hdim : HasDim u.unit)
    (hab : a.unit = b.unit) (corners : ℕ) (zerophase : Bool) :
    (RateFor u.unit a → ∃ x y, cyclesPer u.unit x = a.base ∧ cyclesPer u.unit y = b.base ∧
      p.passFilter butter units corners zerophase [(d, some [.quant a, .quant b])] = p.passFilter butter units corners zerophase [(d, some [.num x, .num y])]) ∧
    (CycleFor u.unit a → FromZero a → a.base ≠ 0 → b.base ≠ 0 → ∃ x y, cyclesPer u.unit x = 1 / a.base ∧ cyclesPer u.unit y = 1 / b.base ∧
      p.passFilter butter units corners zerophase [(d, some [.quant a, .quant b])] = p.passFilter butter units corners zerophase [(d, some [.num y, .num x])]) := by
  have key : ∀ x y, getFilterUnits (.quant a) (.quant b) (some u) = .ok (some x, some y) →
      p.passFilter butter units corners zerophase [(d, some [.quant a, .quant b])] = p.passFilter butter units corners zerophase [(d, some [.num x, .num y])] := by
    intro x y h
    unfold PatchM.passFilter
    simp only [checkFilterKwargs, checkFilterSequence, PassLimit.isNull, Bool.and_self, Bool.false_eq_true, if_false, Except.map, bind, Except.bind,
      PassLimit.toFLimit, hu, h]
    rfl
  refine ⟨fun ha => ?_, fun ha h0 h1 h2 => ?_⟩
  · have hb : RateFor u.unit b := by simp only [RateFor, ← hab]; exact ha
    refine ⟨a.base / u.unit.scale⁻¹, b.base / u.unit.scale⁻¹, cyclesPer_rate hsc _, cyclesPer_rate hsc _, key _ _ ?_⟩
    rw [filter_of (.inl rfl) hmag]
    simp only [FLimit.toQuant, filterLimits, sameUnits, hab, decide_true, if_true, inverted_rate hdim ha, inverted_rate hdim hb, bind, Except.bind,
      Bool.or_self, Bool.not_true, Bool.false_eq_true, if_false]
  · have hb : CycleFor u.unit b := by simp only [CycleFor, ← hab]; exact ha
    have h0b : FromZero b := by simp only [FromZero, ← hab]; exact h0
    have h0a' : a.unit.offset = 0 := h0
    have h0b' : b.unit.offset = 0 := h0b
    have hma : a.mag ≠ 0 := by rintro h; exact h1 (by simp only [Quant.base, h, h0a', zero_mul, add_zero])
    have hmb : b.mag ≠ 0 := by rintro h; exact h2 (by simp only [Quant.base, h, h0b', zero_mul, add_zero])
    refine ⟨1 / a.mag * a.unit.scale⁻¹ / u.unit.scale⁻¹, 1 / b.mag * b.unit.scale⁻¹ / u.unit.scale⁻¹, cyclesPer_cycle hsc h0, cyclesPer_cycle hsc h0b, key _ _ ?_⟩
    rw [filter_of (.inl rfl) hmag]
    simp only [FLimit.toQuant, filterLimits, sameUnits, hab, decide_true, if_true, inverted_cycle hdim ha hma, inverted_cycle hdim hb hmb, bind, Except.bind,
      Bool.or_self, Bool.not_false, if_true]

end

/-! ### The notch filter -/

section
variable {K : Type} [Inhabited K] {notch : ℚ → ℚ → List K → List K} {p : PatchM K} {q : ℚ}

theorem notchFraction_iff {k : Kind} {s : ℚ} (hs : 0 < s) (w f : ℚ) :
    notchFraction (1 / stepFloat k s) w = .ok f ↔ (0 ≤ w ∧ w ≤ nyquistOf k s) ∧ f = w / nyquistOf k s := by
  have hN := nyquist_pos (k := k) hs
  have hr := rate_half k s
  have h2 : 2 * w / (1 / stepFloat k s) = w / nyquistOf k s := by
    rw [← hr, div_div_eq_mul_div, div_div_eq_mul_div, div_div_eq_mul_div, div_one]
    ring
  unfold notchFraction
  rw [h2, hr]
  constructor
  · intro h
    split_ifs at h with c1 c2
    cases h
    rw [not_or, not_lt, not_lt, div_le_one hN, le_div_iff₀ hN, zero_mul] at c2
    exact ⟨c2, rfl⟩
  · rintro ⟨⟨h0, h1⟩, rfl⟩
    rw [if_neg (not_lt.2 h1), if_neg]
    rw [not_or, not_lt, not_lt, div_le_one hN, le_div_iff₀ hN, zero_mul]
    exact ⟨h0, h1⟩

/-- The filters of the notches, with their frequencies in terms of the Nyquist frequency of the dimension. -/
theorem notch_fold (hlen : ∀ f c l, (notch f c l).length = l.length) (units : Dict (Quant ℚ)) :
    ∀ (ws : List (String × ℚ)) (F : List (String × (List K → List K))) (p : PatchM K), p.cm.shape = p.data.shape →
      List.Forall₂ (fun (w : String × ℚ) F => F.1 = w.1 ∧ ∃ k s₀ s n, EvenAlong p.cm w.1 k s₀ s n ∧ 0 < s ∧ (0 ≤ w.2 ∧ w.2 ≤ nyquistOf k s) ∧
        9 < p.data.shape.getD (p.cm.dims.idxOf w.1) 0 ∧ F.2 = notch (w.2 / nyquistOf k s) q) ws F →
      ∃ data, (ws.map fun w => (w.1, NotchAt.num w.2)).foldlM (notchStep notch units q p.cm) p.data = .ok data ∧ InTurn F p ⟨p.cm, data⟩ := by
  intro ws
  induction ws with
  | nil =>
    intro F p hsh h
    cases h
    exact ⟨p.data, rfl, .nil _⟩
  | cons w ws ih =>
    intro F p hsh h
    cases h with
    | @cons _ F₁ _ Fs h1 h2 =>
      obtain ⟨d, f⟩ := F₁
      obtain ⟨rfl, k, s₀, s, n, e1, e2, e3, e4, rfl⟩ := h1
      obtain ⟨data, g1, g2⟩ := ih Fs ⟨p.cm, p.data.eachLine (notch (w.2 / nyquistOf k s) q) (p.cm.dims.idxOf w.1)⟩ hsh h2
      refine ⟨data, ?_, .cons (linesBy_eachLine (hlen _ _) hsh e1.1) g2⟩
      have : notchStep notch units q p.cm p.data (w.1, NotchAt.num w.2) = .ok (p.data.eachLine (notch (w.2 / nyquistOf k s) q) (p.cm.dims.idxOf w.1)) := by
        unfold notchStep
        simp only [notchNumber, bind, Except.bind, samplingRate_even e1, (notchFraction_iff (k := k) e2 w.2 _).2 ⟨e3, rfl⟩]
        rw [if_neg (by omega)]
      rw [List.map_cons, List.foldlM_cons, this]
      exact g1

/-- Notches between zero and the Nyquist frequency: one filter after the other is applied to all the lines along its dimension, in the order the dimensions
are given, and nothing else changes. Missing: dimensions with descending labels, see below. -/
theorem C77_notch_partial (hlen : ∀ f c l, (notch f c l).length = l.length) (hsh : p.cm.shape = p.data.shape) (units : Dict (Quant ℚ)) {ws : List (String × ℚ)}
    (hne : ws ≠ []) {F : List (String × (List K → List K))}
    (h : List.Forall₂ (fun (w : String × ℚ) F => F.1 = w.1 ∧ ∃ k s₀ s n, EvenAlong p.cm w.1 k s₀ s n ∧ 0 < s ∧ (0 ≤ w.2 ∧ w.2 ≤ nyquistOf k s) ∧
        9 < p.data.shape.getD (p.cm.dims.idxOf w.1) 0 ∧ F.2 = notch (w.2 / nyquistOf k s) q) ws F) :
    ∃ r, p.notchFilter notch units q (ws.map fun w => (w.1, NotchAt.num w.2)) = .ok r ∧ InTurn F p r := by
  obtain ⟨data, h1, h2⟩ := notch_fold hlen units ws F p hsh h
  refine ⟨_, ?_, h2⟩
  have hin : ∀ w ∈ ws, w.1 ∈ p.cm.dims := by
    intro w hw
    obtain ⟨i, hi, rfl⟩ := List.getElem_of_mem hw
    obtain ⟨-, k, s₀, s, n, e, -⟩ := h.get hi (h.length_eq ▸ hi)
    exact e.1
  unfold PatchM.notchFilter
  rw [if_neg, if_neg, h1]
  · rfl
  · simp only [List.any_map, List.any_eq_true, Function.comp, not_exists, not_and, Bool.not_eq_true, Bool.not_eq_false', List.contains_iff_mem]
    exact hin
  · obtain ⟨w, ws', rfl⟩ := List.exists_cons_of_ne_nil hne
    simp [hin w (by simp)]

/-- The notch filters that succeed keep the coordinates and the shape of the data. -/
theorem C77_notch_coords {units : Dict (Quant ℚ)} {kw : Dict NotchAt} {r : PatchM K} (h : p.notchFilter notch units q kw = .ok r) :
    r.cm = p.cm ∧ r.data.shape = p.data.shape := by
  unfold PatchM.notchFilter at h
  split_ifs at h
  cases e : kw.foldlM (notchStep notch units q p.cm) p.data with
  | error x => rw [e] at h; cases h
  | ok data =>
    rw [e] at h
    cases h
    refine ⟨rfl, ?_⟩
    have : ∀ (kw : Dict NotchAt) (a b : Nd K), kw.foldlM (notchStep notch units q p.cm) a = .ok b → b.shape = a.shape := by
      intro kw
      induction kw with
      | nil => intro a b h; cases h; rfl
      | cons v kw ih =>
        intro a b h
        rw [List.foldlM_cons] at h
        obtain ⟨c, h1, h2⟩ := bind_split h
        rw [ih _ _ h2]
        unfold notchStep at h1
        obtain ⟨_, -, h1⟩ := bind_split h1
        obtain ⟨_, -, h1⟩ := bind_split h1
        obtain ⟨_, -, h1⟩ := bind_split h1
        split_ifs at h1
        cases h1
        rfl
    exact this _ _ _ e

/-- A notch above the Nyquist frequency, or a negative one, is refused, and so are lines of nine samples or fewer and dimensions that are not there. -/
theorem C77_notch_refused (units : Dict (Quant ℚ)) {d : String} {k : Kind} {s₀ s : ℚ} {n : ℕ} (hd : EvenAlong p.cm d k s₀ s n) (hs : 0 < s) (w : ℚ) :
    (nyquistOf k s < w → p.notchFilter notch units q [(d, .num w)] = .error .filterValueError) ∧
    (w < 0 → ∃ e, p.notchFilter notch units q [(d, .num w)] = .error e) ∧
    (p.data.shape.getD (p.cm.dims.idxOf d) 0 ≤ 9 → ∃ e, p.notchFilter notch units q [(d, .num w)] = .error e) ∧
    (∀ e, e ∉ p.cm.dims → p.notchFilter notch units q [(d, .num w), (e, .num w)] = .error .patchCoordinateError ∧
      p.notchFilter notch units q [(e, .num w)] = .error .parameterError) ∧ p.notchFilter notch units q [] = .error .parameterError := by
  have one : p.notchFilter notch units q [(d, .num w)] = (notchStep notch units q p.cm p.data (d, .num w)).map fun data => ⟨p.cm, data⟩ := by
    unfold PatchM.notchFilter
    have h0 := hd.1
    rw [if_neg (by simpa using h0), if_neg (by simpa using h0), List.foldlM_cons]
    cases notchStep notch units q p.cm p.data (d, .num w) <;> rfl
  refine ⟨fun h => ?_, fun h => ?_, fun h => ?_, fun e he => ⟨?_, ?_⟩, rfl⟩
  · rw [one, notchStep]
    simp only [notchNumber, bind, Except.bind, samplingRate_even hd, notchFraction]
    rw [rate_half, if_pos h]
    rfl
  · rw [one, notchStep]
    simp only [notchNumber, bind, Except.bind, samplingRate_even hd]
    cases e : notchFraction (1 / stepFloat k s) w with
    | error x => exact ⟨x, rfl⟩
    | ok f => exact absurd ((notchFraction_iff hs w f).1 e).1.1 (not_le.2 h)
  · rw [one, notchStep]
    simp only [notchNumber, bind, Except.bind, samplingRate_even hd]
    cases e : notchFraction (1 / stepFloat k s) w with
    | error x => exact ⟨x, rfl⟩
    | ok f =>
      simp only
      rw [if_pos h]
      exact ⟨_, rfl⟩
  · unfold PatchM.notchFilter
    rw [if_neg (by simp [hd.1]), if_pos (by simp [he])]
  · unfold PatchM.notchFilter
    rw [if_pos (by simp [he])]

/-- A notch given as a length of a cycle is that of the inverse frequency, and one given as a rate that of the rate. -/
theorem C77_notch_units {u a : Quant ℚ} (hmag : u.mag = 1) (hsc : 0 < u.unit.scale) (hdim : HasDim u.unit) :
    (RateFor u.unit a → ∃ x, cyclesPer u.unit x = a.base ∧ notchNumber (some u) (.quant a) = .ok x) ∧
    (CycleFor u.unit a → FromZero a → a.base ≠ 0 → ∃ x, cyclesPer u.unit x = 1 / a.base ∧ notchNumber (some u) (.quant a) = .ok x) := by
  have hne : (RateFor u.unit a ∨ CycleFor u.unit a) → a.unit ≠ PintUnit.plain := by
    rintro h e
    obtain ⟨z, hz, h0⟩ := hdim
    rcases h with h | h
    all_goals simp only [RateFor, CycleFor, e] at h
    · have : -z ∈ (PintUnit.plain (K := ℚ)).dim := by rw [h]; exact List.mem_map_of_mem hz
      exact h0 (by simpa using plain_dim_zero this)
    · exact h0 (plain_dim_zero (h ▸ hz : z ∈ (PintUnit.plain (K := ℚ)).dim))
  refine ⟨fun ha => ⟨_, cyclesPer_rate hsc _, ?_⟩, fun ha h0 h1 => ?_⟩
  · simp only [notchNumber]
    rw [if_neg (hne (.inl ha)), if_pos hmag, inverted_rate hdim ha]
    rfl
  · have h0' : a.unit.offset = 0 := h0
    have hma : a.mag ≠ 0 := by rintro h; exact h1 (by simp only [Quant.base, h, h0', zero_mul, add_zero])
    refine ⟨_, cyclesPer_cycle hsc h0, ?_⟩
    simp only [notchNumber]
    rw [if_neg (hne (.inr ha)), if_pos hmag, inverted_cycle hdim ha hma]
    rfl

end

section
variable {K : Type} [CommRing K] [Inhabited K]

omit [Inhabited K] in
theorem linesBy_sum {f : List K → List K} {p q : PatchM K} {d : String} (h : LinesBy f p q d) (hsh : p.cm.shape = p.data.shape) (hd : d ∈ p.cm.dims) {A : ℕ → ℕ → K}
    (hA : ∀ g : ℕ → K, f ((List.range (p.data.shape.getD (p.cm.dims.idxOf d) 0)).map g) =
      (List.range (p.data.shape.getD (p.cm.dims.idxOf d) 0)).map fun i => ((List.range (p.data.shape.getD (p.cm.dims.idxOf d) 0)).map fun t => A i t * g t).sum)
    {i : List ℕ} (hi : InRange p.data.shape i) :
    q.data.get i = ∑ t ∈ Finset.range (p.data.shape.getD (p.cm.dims.idxOf d) 0), A (i.getD (p.cm.dims.idxOf d) 0) t * p.data.get (i.set (p.cm.dims.idxOf d) t) := by
  have ha := dim_axis hsh hd hi
  have hx : i.getD (p.cm.dims.idxOf d) 0 < p.data.shape.getD (p.cm.dims.idxOf d) 0 := inRange_axis hi (by rw [← inRange_length hi]; exact ha)
  have h1 := h.lines i hi
  unfold lineAt at h1
  rw [h.shape, hA] at h1
  have := congrArg (fun l => l[i.getD (p.cm.dims.idxOf d) 0]?) h1
  simp only [List.getElem?_map, List.getElem?_range hx, Option.map_some, set_self_getD, Option.some.injEq] at this
  rw [this]
  exact list_sum_range _ _

omit [Inhabited K] in
/-- Filters along two dimensions may be given in either order, if they are linear as recursive filters are. -/
theorem C77_order {f g : List K → List K} {p q q' : PatchM K} {d e : String} (hsh : p.cm.shape = p.data.shape) (hd : d ∈ p.cm.dims) (he : e ∈ p.cm.dims) (hde : d ≠ e)
    (hf : LinearOn (p.data.shape.getD (p.cm.dims.idxOf d) 0) f) (hg : LinearOn (p.data.shape.getD (p.cm.dims.idxOf e) 0) g)
    (h : InTurn [(d, f), (e, g)] p q) (h' : InTurn [(e, g), (d, f)] p q') :
    q.cm = q'.cm ∧ q.data.shape = q'.data.shape ∧ ∀ i, InRange p.data.shape i → q.data.get i = q'.data.get i := by
  obtain ⟨A, hA⟩ := hf
  obtain ⟨B, hB⟩ := hg
  have hax : p.cm.dims.idxOf d ≠ p.cm.dims.idxOf e := fun hh => hde ((List.idxOf_inj hd).1 hh)
  cases h with
  | @cons _ _ _ _ r _ h1 h2 =>
  cases h2 with
  | cons h2 h3 =>
  cases h3
  cases h' with
  | @cons _ _ _ _ r' _ h1' h2' =>
  cases h2' with
  | cons h2' h3' =>
  cases h3'
  have hshr : r.cm.shape = r.data.shape := by rw [h1.coords, h1.shape, hsh]
  have hshr' : r'.cm.shape = r'.data.shape := by rw [h1'.coords, h1'.shape, hsh]
  refine ⟨by rw [h2.coords, h2'.coords, h1.coords, h1'.coords], by rw [h2.shape, h2'.shape, h1.shape, h1'.shape], fun i hi => ?_⟩
  have hB2 := hB
  have hA2 := hA
  rw [← h1.shape, ← h1.coords] at hB2
  rw [← h1'.shape, ← h1'.coords] at hA2
  rw [linesBy_sum h2 hshr (by rw [h1.coords]; exact he) hB2 (by rw [h1.shape]; exact hi),
    linesBy_sum h2' hshr' (by rw [h1'.coords]; exact hd) hA2 (by rw [h1'.shape]; exact hi)]
  rw [h1.coords, h1.shape, h1'.coords, h1'.shape]
  have e1 : ∀ t ∈ Finset.range (p.data.shape.getD (p.cm.dims.idxOf e) 0), B (i.getD (p.cm.dims.idxOf e) 0) t * r.data.get (i.set (p.cm.dims.idxOf e) t) =
      ∑ u ∈ Finset.range (p.data.shape.getD (p.cm.dims.idxOf d) 0), A (i.getD (p.cm.dims.idxOf d) 0) u * (B (i.getD (p.cm.dims.idxOf e) 0) t *
        p.data.get ((i.set (p.cm.dims.idxOf e) t).set (p.cm.dims.idxOf d) u)) := by
    intro t ht
    rw [linesBy_sum h1 hsh hd hA (inRange_set hi (Finset.mem_range.1 ht)), getD_set_ne hax.symm, Finset.mul_sum]
    refine Finset.sum_congr rfl fun u _ => ?_
    ring
  have e2 : ∀ u ∈ Finset.range (p.data.shape.getD (p.cm.dims.idxOf d) 0), A (i.getD (p.cm.dims.idxOf d) 0) u * r'.data.get (i.set (p.cm.dims.idxOf d) u) =
      ∑ t ∈ Finset.range (p.data.shape.getD (p.cm.dims.idxOf e) 0), A (i.getD (p.cm.dims.idxOf d) 0) u * (B (i.getD (p.cm.dims.idxOf e) 0) t *
        p.data.get ((i.set (p.cm.dims.idxOf e) t).set (p.cm.dims.idxOf d) u)) := by
    intro u hu
    rw [linesBy_sum h1' hsh he hB (inRange_set hi (Finset.mem_range.1 hu)), getD_set_ne hax, Finset.mul_sum]
    refine Finset.sum_congr rfl fun t _ => ?_
    rw [List.set_comm _ _ hax]
  rw [Finset.sum_congr rfl e1, Finset.sum_congr rfl e2, Finset.sum_comm]

end

/-! ### Cases -/

/-- 40 samples, 10 ms apart. -/
def exSwing : PatchM ℚ := ⟨(exRow .time 5 10000000 40).cm, [40], fun i => ((i.getD 0 0 : ℕ) : ℚ) ^ 2⟩

theorem exSwing_even : EvenAlong exSwing.cm "x" .time 5 10000000 40 := ⟨by decide, _, rfl⟩
theorem exSwing_regular : Regular exSwing.cm := (exRow_regular .time 5 (s := 10000000) (by norm_num) (n := 40) (by norm_num)).1
theorem exSwing_nyquist : nyquistOf .time 10000000 = 50 := by unfold nyquistOf sampleSpacing; decide +kernel

/-- A filter to try the model with: it multiplies by the number of corners and cuts nothing. -/
def exButter (_ : PassBand) (c : ℕ) (_ : Bool) (l : List ℚ) : List ℚ := l.map (c * ·)

/- The hypotheses of `C77_pass_partial`: a band, and an open end. -/
example : Regular exSwing.cm ∧ exSwing.cm.shape = exSwing.data.shape ∧ EvenAlong exSwing.cm "x" .time 5 10000000 40 ∧
    LimitsInside (nyquistOf .time 10000000) (some 1) (some 10) ∧ filterPadding 4 (some 1) (some 10) < 40 ∧
    LimitsInside (nyquistOf .time 10000000) none (some 10) ∧ LimitText none .dots ∧ (∀ b c z l, (exButter b c z l).length = l.length) := by
  rw [exSwing_nyquist]
  refine ⟨exSwing_regular, by decide +kernel, exSwing_even, ?_, by decide, ?_, .dots, fun b c z l => by simp [exButter]⟩
  · refine ⟨.inl (by simp), ?_, ?_, ?_⟩
    · rintro x hx; cases hx; norm_num
    · rintro x hx; cases hx; norm_num
    · rintro x y hx hy; cases hx; cases hy; norm_num
  · refine ⟨.inr (by simp), ?_, ?_, ?_⟩
    · rintro x hx; cases hx
    · rintro x hx; cases hx; norm_num
    · rintro x y hx hy; cases hx

example : (exSwing.passFilter exButter [("x", secondQ)] 4 true [("x", some [.num 1, .num 10])]).map (fun q => q.data.get [3]) = .ok 36 ∧
    (exSwing.passFilter exButter [("x", secondQ)] 4 true [("x", some [.quant (exSec (1 / 10)), .quant (exSec 1)])]).map (fun q => q.data.get [3]) = .ok 36 ∧
    (exSwing.passFilter exButter [("x", secondQ)] 4 true [("x", some [.num 1, .num 60])]).map (fun q => q.data.get [3]) = .error .filterValueError ∧
    (exSwing.passFilter exButter [("x", secondQ)] 13 true [("x", some [.dots, .num 10])]).map (fun q => q.data.get [3]) = .error .valueError :=
  ⟨by decide +kernel, by decide +kernel, by decide +kernel, by decide +kernel⟩

/- The hypotheses of `C77_units` and of `C77_notch_units`. -/
example : secondQ.mag = 1 ∧ 0 < secondQ.unit.scale ∧ HasDim secondQ.unit ∧ RateFor secondQ.unit (exHz 5) ∧ CycleFor secondQ.unit (exSec (1 / 10)) ∧
    FromZero (exSec (1 / 10)) ∧ (exSec (1 / 10)).base ≠ 0 ∧ (exSec (1 / 10)).unit = (exSec 1).unit :=
  ⟨rfl, by decide +kernel, ⟨1, by decide, by decide⟩, by unfold RateFor; decide +kernel, by unfold CycleFor; decide +kernel, rfl, by decide +kernel, rfl⟩

/-- A notch to try the model with. -/
def exNotch (f q : ℚ) (l : List ℚ) : List ℚ := l.map (f * q * ·)

/- The hypotheses of `C77_notch_partial`. -/
example : List.Forall₂ (fun (w : String × ℚ) (F : String × (List ℚ → List ℚ)) => F.1 = w.1 ∧ ∃ k s₀ s n, EvenAlong exSwing.cm w.1 k s₀ s n ∧ 0 < s ∧
    (0 ≤ w.2 ∧ w.2 ≤ nyquistOf k s) ∧ 9 < exSwing.data.shape.getD (exSwing.cm.dims.idxOf w.1) 0 ∧ F.2 = exNotch (w.2 / nyquistOf k s) 30)
    [("x", 25)] [("x", exNotch (1 / 2) 30)] := by
  refine .cons ⟨rfl, .time, 5, 10000000, 40, exSwing_even, by norm_num, ?_, by decide, ?_⟩ .nil
  · rw [exSwing_nyquist]; norm_num
  · rw [exSwing_nyquist]; norm_num

example : (exSwing.notchFilter exNotch [("x", secondQ)] 30 [("x", .num 25)]).map (fun q => q.data.get [3]) = .ok 135 ∧
    (exSwing.notchFilter exNotch [("x", secondQ)] 30 [("x", .quant (exSec (1 / 25)))]).map (fun q => q.data.get [3]) = .ok 135 ∧
    (exSwing.notchFilter exNotch [("x", secondQ)] 30 [("x", .num 51)]).map (fun q => q.data.get [3]) = .error .filterValueError :=
  ⟨by decide +kernel, by decide +kernel, by decide +kernel⟩

/- The hypotheses of `C77_order`. -/
example : LinearOn 40 (exNotch 1 2) := by
  refine ⟨fun i t => if i = t then 2 else 0, fun g => ?_⟩
  unfold exNotch
  rw [List.map_map]
  refine List.map_congr_left fun i hi => ?_
  rw [list_sum_range]
  simp only [Function.comp, ite_mul, zero_mul, Finset.sum_ite_eq, Finset.mem_range, List.mem_range.1 hi, if_true]
  norm_num

/-! ### Where the filters fail -/

/-- C77 fails at the ends of the range that the error messages call possible, zero and the Nyquist frequency: whatever the filter, they pass the check
of dascore and are refused. -/
theorem C77_edges_violated (butter : PassBand → ℕ → Bool → List ℚ → List ℚ) (corners : ℕ) (zerophase : Bool) :
    checkFilterRange (some (0 / 50)) (some (50 / 50)) = .ok () ∧
    (∀ q, exSwing.passFilter butter [] corners zerophase [("x", some [.num 0, .num 10])] ≠ .ok q) ∧
    (∀ q, exSwing.passFilter butter [] corners zerophase [("x", some [.num 10, .num 50])] ≠ .ok q) := by
  refine ⟨by decide +kernel, fun q h => ?_, fun q h => ?_⟩
  · have := ((C77_accepted_partial exSwing_regular (by decide +kernel) exSwing_even (by norm_num) [] (.num 0) (.num 10) (.inl (by simp)) corners zerophase).1 ⟨q, h⟩).1
    exact absurd (this.low 0 rfl).1 (lt_irrefl _)
  · have := ((C77_accepted_partial exSwing_regular (by decide +kernel) exSwing_even (by norm_num) [] (.num 10) (.num 50) (.inl (by simp)) corners zerophase).1 ⟨q, h⟩).1
    have h1 := (this.high 50 rfl).2
    rw [exSwing_nyquist] at h1
    exact absurd h1 (lt_irrefl _)

section
variable {K : Type} [Inhabited K] {p : PatchM K} {d : String} {k : Kind} {s₀ s : ℚ} {n : ℕ}

/-- C77 fails for `...`: a range that is open at both ends is refused as such if the ends are None, and gives an AssertionError if one of them is `...`. -/
theorem C77_open_violated (butter : PassBand → ℕ → Bool → List K → List K) (hd : EvenAlong p.cm d k s₀ s n) (units : Dict (Quant ℚ)) (corners : ℕ)
    (zerophase : Bool) :
    p.passFilter butter units corners zerophase [(d, some [.null, .null])] = .error .filterValueError ∧
    p.passFilter butter units corners zerophase [(d, some [.dots, .dots])] = .error .assertionError ∧
    p.passFilter butter units corners zerophase [(d, some [.null, .dots])] = .error .assertionError := by
  have h : p.passLines butter corners zerophase d none none = .error .assertionError := by
    unfold PatchM.passLines
    rw [samplingRate_even hd]
    rfl
  refine ⟨rfl, ?_, ?_⟩
  all_goals
    unfold PatchM.passFilter
    simp only [checkFilterKwargs, checkFilterSequence, PassLimit.isNull, Bool.and_self, Bool.and_false, Bool.false_eq_true, if_false, Except.map, bind, Except.bind,
      PassLimit.toFLimit, getFilterUnits, FLimit.isQuant, FLimit.bare, Bool.or_self, Bool.not_false, if_true]
    rw [if_neg (not_not.2 hd.1), h]

/-- C77 fails for every dimension with descending labels: no frequency is accepted, because the sampling rate is negative. -/
theorem C77_descending_violated (butter : PassBand → ℕ → Bool → List K → List K) (notch : ℚ → ℚ → List K → List K) (hd : EvenAlong p.cm d k s₀ s n) (hs : s < 0)
    (units : Dict (Quant ℚ)) (corners : ℕ) (zerophase : Bool) (q x : ℚ) (hx : 0 < x) :
    p.passFilter butter units corners zerophase [(d, some [.num x, .null])] = .error .filterValueError ∧
    p.passFilter butter units corners zerophase [(d, some [.null, .num x])] = .error .filterValueError ∧
    p.notchFilter notch units q [(d, .num x)] = .error .filterValueError := by
  have hN : 1 / stepFloat k s / 2 < 0 := by
    unfold stepFloat
    split_ifs
    · have : s / 1000000000 < 0 := by linarith
      have := one_div_neg.2 this
      linarith
    · have := one_div_neg.2 hs
      linarith
  have hneg : x / (1 / stepFloat k s / 2) < 0 := div_neg_of_pos_of_neg hx hN
  refine ⟨?_, ?_, ?_⟩
  · rw [passFilter_num units hd.1 (.num x) .null (.inl (by simp)), PatchM.passLines, samplingRate_even hd]
    simp only [bind, Except.bind, passBand, checkFilterRange, Option.map_some, Option.any_some]
    rw [if_pos (by rw [Bool.or_eq_true, decide_eq_true_eq]; exact .inl hneg)]
  · rw [passFilter_num units hd.1 .null (.num x) (.inr (by simp)), PatchM.passLines, samplingRate_even hd]
    simp only [bind, Except.bind, passBand, checkFilterRange, Option.map_some, Option.any_some, Option.map_none, Option.any_none, Bool.false_eq_true, if_false]
    rw [if_pos (by rw [Bool.or_eq_true, decide_eq_true_eq]; exact .inl hneg)]
  · have h0 := hd.1
    unfold PatchM.notchFilter
    rw [if_neg (by simpa using h0), if_neg (by simpa using h0), List.foldlM_cons]
    have : notchStep notch units q p.cm p.data (d, .num x) = .error .filterValueError := by
      unfold notchStep
      simp only [notchNumber, bind, Except.bind, samplingRate_even hd, notchFraction]
      rw [if_pos (by linarith)]
    rw [this]
    rfl

end

/- A dimension with descending labels. -/
example : EvenAlong (exRow .float 39 (-1) 40).cm "x" .float 39 (-1) 40 ∧ (-1 : ℚ) < 0 := ⟨⟨by decide, _, rfl⟩, by norm_num⟩

end Verif
