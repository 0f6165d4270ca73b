import Verif.Proof.Instruments
import Verif.Spec.XmlBinary
/-! # Lemmas: directories of raw files -/
namespace Verif
open Spec
variable {α : Type} {data : Nd α} {ds : List String} {n m : ℕ} {T X : ℕ → ℚ} {t x : Coord}

/-- Selecting from an array of times and distances. -/
theorem two_select {argsort : List ℚ → List ℕ} (ha : IsArgsort argsort) (hds : ds = ["time", "distance"] ∨ ds = ["distance", "time"]) (ht : Asks .time t n T)
    (hx : Asks .float x m X) (hsh : data.shape = ds.map fun d => if d = "time" then n else m) (a b : Option ℚ × Option ℚ) :
    ∃ cm gs q, wholeCM (timeDistance t x) ds = .ok cm ∧ cm.shape = data.shape ∧ (∀ k, k ∈ cm.ents.keys ↔ k ∈ ds) ∧
      HoldsArray data ds (fun d k => if d = "time" then T k else X k) ⟨cm, data⟩ ∧ gs.flatten.Perm (bothLimits a b) ∧ SelectedBy ⟨cm, data⟩ gs q ∧
      cm.select argsort data (bothLimits a b) = .ok (q.cm, q.data) ∧ q.cm.shape = q.data.shape := by
  have hl := two_labels hds ht hx
  obtain ⟨cm, h1, h2, h3, h4, h5, h6, h7⟩ := wholeCM_spec hl
  have hmem : ∀ r ∈ bothLimits a b, r = ("time", CQuery.between a.1 a.2) ∨ r = ("distance", CQuery.between b.1 b.2) := by
    intro r hr
    simpa [bothLimits] using hr
  obtain ⟨o, ho⟩ := readLabelled_succeeds (data := data) ha hl hsh (two_class hds ht hx) (kw := bothLimits a b)
    (by show ["time", "distance"].Nodup; decide)
    (by intro r hr; rcases hmem r hr with rfl | rfl <;> trivial)
  unfold readLabelled at ho
  rw [h1] at ho
  obtain ⟨r, hr, _⟩ := bind_split (show (trimmed argsort cm data (some (bothLimits a b))).bind nonEmpty = .ok o from ho)
  have hp := groups_perm cm (bothLimits a b)
  obtain ⟨g1, g2, g3⟩ := chain_spec ha _ ⟨cm, data⟩ r h3 (by rw [h2]; exact hl.some_dim) (by rw [h4, hsh])
    (fun g hg r hr => by rcases hmem r (List.mem_of_mem_filter (hp.mem_iff.1 (List.mem_flatten.2 ⟨g, hg, hr⟩))) with rfl | rfl <;> trivial)
    (groups_onePerDim cm (bothLimits a b)) hr
  refine ⟨cm, _, ⟨r.1, r.2⟩, h1, by rw [h4, hsh], h6, holds_whole hsh h2 h5 ?_, ?_, g1, hr, g3⟩
  · intro d hd
    obtain ⟨k, c, g0, g1, g2⟩ := h7 d hd
    exact ⟨k, c, g1, two_gives hds ht hx d hd k c g0⟩
  · refine hp.trans (List.Perm.of_eq ?_)
    rw [List.filter_eq_self]
    intro r hr
    have : r.1 ∈ ds := by
      rcases hds with rfl | rfl <;> rcases hmem r hr with rfl | rfl <;> simp
    simpa using (h6 r.1).2 this

/-- The coordinates of a raw file. -/
theorem raw_coords {x : XmlInfo} {f : RawFile α} (h : RawLayout x f n m) :
    x.timeCoord f.start = .ok (.range ⟨f.start, f.start + nanos (1 / x.rate) * n, nanos (1 / x.rate), n⟩) ∧
    x.distanceCoord = .ok (.range ⟨(x.first - 1) * x.interval, (x.first - 1) * x.interval + x.interval * m, x.interval, m⟩) := by
  have hdt := nanos_rate h.rate
  constructor
  · unfold XmlInfo.timeCoord
    rw [if_neg h.rate.1.ne', h.frames, mkRange_canonical hdt.ne' h.some_sample.1]
    rfl
  · unfold XmlInfo.distanceCoord
    rw [h.channels, show (((x.first - 1 + m : ℤ)) : ℚ) * x.interval = (x.first - 1) * x.interval + x.interval * m by push_cast; ring,
      show (((x.first - 1 : ℤ)) : ℚ) = x.first - 1 by push_cast; ring, mkRange_canonical h.spacing.ne' h.some_sample.2]
    rfl

theorem raw_read {argsort : List ℚ → List ℕ} (ha : IsArgsort argsort) {x : XmlInfo} {f : RawFile α} (h : RawLayout x f n m) (time distance : Option ℚ × Option ℚ) :
    ∃ q, x.readFile argsort f time distance = .ok q ∧ RawWithin x (nanos (1 / x.rate)) n m time distance f q := by
  have hdt := nanos_rate h.rate
  obtain ⟨ht, hx⟩ := raw_coords h
  obtain ⟨cm, gs, q, h1, h2, h3, h4, h5, h6, h7, h8⟩ := two_select (data := framesOf f n m) ha (Or.inl rfl) (asks_range .time (a := f.start) hdt.ne' h.some_sample.1)
    (asks_range .float (a := (x.first - 1) * x.interval) h.spacing.ne' h.some_sample.2) rfl time distance
  refine ⟨q, ?_, ⟨cm, framesOf f n m⟩, gs, h4, h5, h6⟩
  have hsh : cm.shape = [n, m] := h2
  unfold XmlInfo.readFile
  rw [h.upright, if_neg Bool.false_ne_true, ht, hx]
  simp only [bind, Except.bind]
  rw [h1]
  simp only
  unfold RawFile.fill
  rw [hsh, if_neg (by rw [h.size]; simp)]
  have hnew : PatchM.new cm (f.rows [n, m]) = .ok ⟨cm, framesOf f n m⟩ := by
    unfold PatchM.new
    rw [if_pos (by rw [hsh]; rfl)]
    rfl
  rw [hnew]
  simp only [Except.bind]
  unfold PatchM.select
  rw [if_neg (by
    rw [List.any_eq_true]
    rintro ⟨r, hr, hc⟩
    have : r.1 ∈ cm.ents.keys := (h3 r.1).2 (by
      simp only [List.mem_cons, List.not_mem_nil, or_false] at hr
      rcases hr with rfl | rfl <;> simp)
    simp [this] at hc)]
  have h7' : cm.select argsort (framesOf f n m) [("time", CQuery.between time.1 time.2), ("distance", CQuery.between distance.1 distance.2)] = .ok (q.cm, q.data) := h7
  simp only [bind, Except.bind, h7']
  unfold PatchM.new
  rw [if_pos h8]

theorem orderRange_bounded {limits : Option ℚ × Option ℚ} {v : ℚ} (h : Bounded limits v) : orderRangeTuple limits = limits := by
  obtain ⟨a, b⟩ := limits
  unfold orderRangeTuple
  cases a with
  | none => rfl
  | some a =>
    cases b with
    | none => rfl
    | some b =>
      have h1 := h.1 a rfl
      have h2 := h.2 b rfl
      simp only
      rw [if_neg (not_lt.2 (h1.trans h2))]

theorem meets_bounded {limits : Option ℚ × Option ℚ} {lo hi v : ℚ} (h : Bounded limits v) (hv : lo ≤ v ∧ v ≤ hi) : meets limits (some lo, some hi) = true := by
  unfold meets
  rw [orderRange_bounded h]
  obtain ⟨a, b⟩ := limits
  cases a with
  | none =>
    cases b with
    | none => rfl
    | some b => simpa using hv.1.trans (h.2 b rfl)
  | some a =>
    cases b with
    | none => simpa using (h.1 a rfl).trans hv.2
    | some b => simpa using ⟨(h.1 a rfl).trans hv.2, hv.1.trans (h.2 b rfl)⟩

theorem ends_bounds {a s : ℚ} {k : ℕ} (hs : 0 < s) {i : ℕ} (hi : i < k) (stop : ℚ) :
    (Coord.range ⟨a, stop, s, k⟩).ends.1 ≤ a + i * s ∧ a + i * s ≤ (Coord.range ⟨a, stop, s, k⟩).ends.2 := by
  have h1 : (i : ℚ) ≤ (k : ℚ) - 1 := by
    have : (i : ℚ) + 1 ≤ k := by exact_mod_cast hi
    linarith
  have h0 : (0 : ℚ) ≤ i := by positivity
  constructor
  · refine le_trans (min_le_left _ _) ?_
    show a ≤ _
    have := mul_nonneg h0 hs.le
    linarith
  · refine le_trans ?_ (le_max_right _ _)
    show _ ≤ a + s * ((k : ℚ) - 1)
    have := mul_le_mul_of_nonneg_right h1 hs.le
    linarith

end Verif
