import Verif.Proof.Hampel
import Verif.Props.Resample
/-! # Despiking: properties (C71) -/
namespace Verif
open Spec

/-! ### The window of one dimension -/

theorem hampel_size {p : PatchM ℚ} {d : String} {k : Kind} {s₀ s : ℚ} {n h : ℕ} (hd : EvenAlong p.cm d k s₀ s n) (hsh : p.cm.shape = p.data.shape) (h1 : 0 < h) :
    (patchWindowSize p.cm [(d, .count (2 * h + 1))] true true 3 false).map (fun size => size.map Int.toNat) =
      .ok ((List.replicate p.data.shape.length 1).set (p.cm.dims.idxOf d) (2 * h + 1)) := by
  obtain ⟨hdd, stop, hc⟩ := hd
  have hlen : p.data.shape.length = p.cm.dims.length := by
    rw [← hsh]
    simp [CM.shape, List.ne_nil_of_mem hdd]
  unfold patchWindowSize
  rw [if_neg (by simp), if_neg (by simp [hdd])]
  simp only [List.foldlM_cons, List.foldlM_nil, windowSizeStep, hc, Coord.sampleCount, RangeCoord.sampleCount, RangeCoord.rawCount, bind, Except.bind, pure,
    Except.pure, adjustCount, Bool.false_and, Bool.false_eq_true, if_false, if_true, Bool.true_and]
  rw [if_neg (by omega), if_neg (by simp)]
  simp only [Except.map, List.map_set, List.map_map, hlen]
  congr 2
  exact List.map_const'

/-- The samples of the filter, for a window along one dimension and data that are not integers. -/
theorem hampel_one {installed approximate : Bool} {eps threshold : ℚ} {p : PatchM ℚ} {d : String} {k : Kind} {s₀ s : ℚ} {n h : ℕ}
    (hm : Regular p.cm) (hsh : p.cm.shape = p.data.shape) (hd : EvenAlong p.cm d k s₀ s n) (h1 : 0 < h) (hn : 2 * h + 1 ≤ n) (ht : 0 < threshold) :
    ∃ (data : Nd ℚ) (med mad : List ℕ → ℚ) (bn₁ bn₂ : Bool), p.hampel installed approximate false eps threshold [(d, .count (2 * h + 1))] true = .ok ⟨p.cm, data⟩ ∧ data.shape = p.data.shape ∧
      (∀ i, InRange p.data.shape i → ∃ l, engineLine (fun _ => 0) bn₁ .median .reflect 0 (2 * h + 1) (lineAt p.data (p.cm.dims.idxOf d) i) = .ok l ∧
        med i = l.getD (i.getD (p.cm.dims.idxOf d) 0) 0) ∧
      (∀ i, InRange p.data.shape i → ∃ l, engineLine (fun _ => 0) bn₂ .median .reflect 0 (2 * h + 1)
        (lineAt ⟨p.data.shape, fun i => |p.data.get i - med i|⟩ (p.cm.dims.idxOf d) i) = .ok l ∧ mad i = l.getD (i.getD (p.cm.dims.idxOf d) 0) 0) ∧
      ∀ i, data.get i = if threshold < |p.data.get i - med i| / (if mad i = 0 then eps else mad i) then med i else p.data.get i := by
  have hax : p.data.shape.getD (p.cm.dims.idxOf d) 0 = n := by
    obtain ⟨hdd, stop, hc⟩ := id hd
    have hv : (⟨s₀, stop, s, n⟩ : RangeCoord).Valid := hm.classes _ _ _ _ (Dict.mem_of_get? hc)
    rw [shape_getD hsh hdd, ← dim_vals_length hm hdd hc (by rintro n ⟨⟩)]
    exact hv.length_values
  obtain ⟨m, bn, e1, e2, e3⟩ := neighbourMedian_one installed approximate (a := p.data) (axis := p.cm.dims.idxOf d) h1 (by omega)
  obtain ⟨m', bn', e1', e2', e3'⟩ := neighbourMedian_one installed approximate (a := ⟨p.data.shape, fun i => absQ (p.data.get i - m.get i)⟩)
    (axis := p.cm.dims.idxOf d) h1 (by simpa only using hax ▸ hn)
  have hsz := hampel_size hd hsh h1
  cases hp : patchWindowSize p.cm [(d, .count (2 * h + 1))] true true 3 false with
  | error e => rw [hp] at hsz; cases hsz
  | ok size =>
    rw [hp] at hsz
    have hsz : size.map Int.toNat = _ := Except.ok.inj hsz
    refine ⟨⟨p.data.shape, fun i => if threshold < absQ (p.data.get i - m.get i) / (if m'.get i = 0 then eps else m'.get i) then m.get i else
      p.data.get i⟩, m.get, m'.get, bn, bn', ?_, rfl, e3, ?_, ?_⟩
    · unfold PatchM.hampel
      rw [if_neg (not_le.2 ht), hp]
      simp only [bind, Except.bind, hsz, hampelTyped, Bool.false_eq_true, if_false, hampelData, e1, e1', pure, Except.pure]
    · simpa only [absQ_abs] using e3'
    · intro i
      simp only [absQ_abs]

theorem dim_length {p : PatchM ℚ} {d : String} {k : Kind} {s₀ s : ℚ} {n : ℕ} (hm : Regular p.cm) (hsh : p.cm.shape = p.data.shape)
    (hd : EvenAlong p.cm d k s₀ s n) : p.data.shape.getD (p.cm.dims.idxOf d) 0 = n := by
  obtain ⟨hdd, stop, hc⟩ := id hd
  have hv : (⟨s₀, stop, s, n⟩ : RangeCoord).Valid := hm.classes _ _ _ _ (Dict.mem_of_get? hc)
  rw [shape_getD hsh hdd, ← dim_vals_length hm hdd hc (by rintro n ⟨⟩)]
  exact hv.length_values

section
variable {installed approximate : Bool} {eps threshold : ℚ} {p q : PatchM ℚ} {d : String} {k : Kind} {s₀ s : ℚ} {n h : ℕ}

/-- **C71** (the rule). A Hampel filter of floats with a window of `2 h + 1` samples along one dimension keeps all coordinates and the shape. Away from the
ends, a sample is replaced by the median of its window if it differs from it by more than `threshold` times the median of such differences in the window
(times `eps` if that median is zero), and kept otherwise. -/
theorem C71_rule (hm : Regular p.cm) (hsh : p.cm.shape = p.data.shape) (hd : EvenAlong p.cm d k s₀ s n) (h1 : 0 < h) (hn : 2 * h + 1 ≤ n)
    (ht : 0 < threshold) (he : 0 < eps) :
    ∃ q, p.hampel installed approximate false eps threshold [(d, .count (2 * h + 1))] true = .ok q ∧ q.cm = p.cm ∧ q.data.shape = p.data.shape ∧
      ∀ i, InRange p.data.shape i → Interior p.data (p.cm.dims.idxOf d) (2 * h) i →
        let line := lineAt p.data (p.cm.dims.idxOf d) i
        let at_ := i.getD (p.cm.dims.idxOf d) 0
        ∃ (m : ℕ → ℚ) (σ : ℚ), (∀ t, at_ - h ≤ t → t ≤ at_ + h → IsMedian (centred line t h) (m t)) ∧
          IsMedian ((List.range (2 * h + 1)).map fun t : ℕ => |line.getD (at_ - h + t) 0 - m (at_ - h + t)|) σ ∧
          q.data.get i = if threshold * (if σ = 0 then eps else σ) < |p.data.get i - m at_| then m at_ else p.data.get i := by
  obtain ⟨data, med, mad, bn₁, bn₂, e1, e2, e3, e4, e5⟩ := hampel_one (installed := installed) (approximate := approximate) (eps := eps) hm hsh hd h1 hn ht
  have hax := dim_length hm hsh hd
  refine ⟨_, e1, rfl, e2, fun i hi hint => ?_⟩
  simp only
  obtain ⟨hi1, hi2⟩ := hint
  rw [hax] at hi2
  set axis := p.cm.dims.idxOf d with haxis
  set at_ := i.getD axis 0 with hat
  have hlen : axis < i.length := by rw [(inRange_iff.1 hi).1]; exact axis_of_pos (by omega)
  have hL : (lineAt p.data axis i).length = n := by rw [lineAt_length, hax]
  -- medians
  have hM : ∀ t, h ≤ t → t + h < n → IsMedian (centred (lineAt p.data axis i) t h) (med (i.set axis t)) := by
    intro t t1 t2
    obtain ⟨l, hl, e⟩ := e3 (i.set axis t) (inRange_set hi (by omega))
    rw [lineAt_set] at hl
    rw [e, getD_set_self hlen]
    exact engineLine_centred (op := .median) (fun c => by cases c) hl t1 (by omega)
  obtain ⟨l, hl, eσ⟩ := e4 i hi
  have hσ := engineLine_centred (op := .median) (fun c => by cases c) hl (k := at_) (by omega) (by rw [lineAt_length]; show at_ + h < p.data.shape.getD axis 0; omega)
  rw [← eσ] at hσ
  have hc : centred (lineAt ⟨p.data.shape, fun i => |p.data.get i - med i|⟩ axis i) at_ h =
      (List.range (2 * h + 1)).map fun t : ℕ => |(lineAt p.data axis i).getD (at_ - h + t) 0 - med (i.set axis (at_ - h + t))| := by
    apply List.ext_getElem?
    intro t
    unfold centred
    by_cases htl : t < 2 * h + 1
    · rw [List.getElem?_map, List.getElem?_range htl, List.getElem?_take_of_lt htl, List.getElem?_drop, Option.map_some, lineAt_getD _ _ _ (by omega)]
      unfold lineAt
      rw [List.getElem?_map, List.getElem?_range (show at_ - h + t < p.data.shape.getD axis 0 by omega)]
      rfl
    · rw [List.getElem?_eq_none (by simp; omega), List.getElem?_eq_none (by simp; omega)]
  replace hσ : IsMedian _ (mad i) := hσ
  rw [hc] at hσ
  refine ⟨fun t => med (i.set axis t), mad i, fun t t1 t2 => hM t (by omega) (by omega), hσ, ?_⟩
  show data.get i = _
  simp only [e5 i, show i.set axis at_ = i from set_self_getD]
  have hpos : 0 < (if mad i = 0 then eps else mad i) := by
    split_ifs with h0
    · exact he
    · have hb : 0 ≤ mad i := by
        rw [isMedian_unique hσ (npMedian_isMedian _)]
        refine (median_bounds (lo := 0) (hi := ((List.range (2 * h + 1)).map fun t : ℕ =>
          |(lineAt p.data axis i).getD (at_ - h + t) 0 - med (i.set axis (at_ - h + t))|).sum) (by simp) ?_).1
        intro x hx
        refine ⟨?_, List.single_le_sum ?_ _ hx⟩
        · obtain ⟨t, -, rfl⟩ := List.mem_map.1 hx
          exact abs_nonneg _
        · intro y hy
          obtain ⟨t, -, rfl⟩ := List.mem_map.1 hy
          exact abs_nonneg _
      exact lt_of_le_of_ne hb (Ne.symm h0)
  simp only [lt_div_iff₀ hpos]

/-- **C71** (single spikes). A single spike in a line that is otherwise constant is removed, and nothing else is changed in that line, if the spike is at
least `2 h` samples from the first sample and more than `h` from the last, and higher than `threshold · eps`. -/
theorem C71_spike_partial (hm : Regular p.cm) (hsh : p.cm.shape = p.data.shape) (hd : EvenAlong p.cm d k s₀ s n) (h1 : 0 < h) (ht : 0 < threshold)
    (he : 0 < eps) {i : List ℕ} (hi : InRange p.data.shape i) {c : ℚ} {sp : ℕ} (hsp : OneSpike (lineAt p.data (p.cm.dims.idxOf d) i) c sp)
    (hs1 : 2 * h ≤ sp) (hs2 : sp + h < n) (hbig : threshold * eps < |(lineAt p.data (p.cm.dims.idxOf d) i).getD sp 0 - c|)
    (hq : p.hampel installed approximate false eps threshold [(d, .count (2 * h + 1))] true = .ok q) : q.data.get i = c := by
  obtain ⟨data, med, mad, bn₁, bn₂, e1, e2, e3, e4, e5⟩ :=
    hampel_one (installed := installed) (approximate := approximate) (eps := eps) hm hsh hd h1 (by omega) ht
  rw [e1] at hq
  cases hq
  have hax := dim_length hm hsh hd
  set axis := p.cm.dims.idxOf d with haxis
  have hlen : axis < i.length := by rw [(inRange_iff.1 hi).1]; exact axis_of_pos (by omega)
  have hL : (lineAt p.data axis i).length = n := by rw [lineAt_length, hax]
  have hat : i.getD axis 0 < n := by
    rw [← hax]
    exact inRange_axis hi (axis_of_pos (by omega))
  have hmed : ∀ t < n, med (i.set axis t) = c := by
    intro t htn
    obtain ⟨l, hl, e⟩ := e3 (i.set axis t) (inRange_set hi (by omega))
    rw [lineAt_set] at hl
    rw [e, getD_set_self hlen]
    exact engineLine_spike h1 hsp hs1 (by omega) hl (by omega)
  have hmi : med i = c := by
    have := hmed _ hat
    rwa [set_self_getD] at this
  have hmad : mad i = 0 := by
    obtain ⟨l, hl, e⟩ := e4 i hi
    rw [e]
    refine engineLine_spike (c := 0) (s := sp) h1 ?_ hs1 ?_ hl ?_
    · intro t htl hts
      rw [lineAt_length] at htl
      rw [lineAt_getD _ _ _ htl]
      show |p.data.get (i.set axis t) - med (i.set axis t)| = 0
      simp only at htl
      have h2 := hsp t (by omega) hts
      rw [lineAt_getD _ _ _ (by omega)] at h2
      rw [h2, hmed t (by omega), sub_self, abs_zero]
    · rw [lineAt_length]
      show sp + h < p.data.shape.getD axis 0
      omega
    · rw [lineAt_length]
      show i.getD axis 0 < p.data.shape.getD axis 0
      omega
  show data.get i = c
  rw [e5 i, hmi, hmad, if_pos rfl]
  split_ifs with hcase
  · rfl
  · rw [lt_div_iff₀ he, not_lt] at hcase
    have h2 : (lineAt p.data axis i).getD (i.getD axis 0) 0 = p.data.get i := lineAt_self _ _ (by omega)
    by_cases hsx : i.getD axis 0 = sp
    · rw [← hsx, h2] at hbig
      exact absurd hbig (not_lt.2 hcase)
    · rw [← h2]
      exact hsp _ (by omega) hsx

end

/-! ### Any windows -/

theorem windowSizeStep_pos {m : CM} {samples odd enforce : Bool} {lo : ℤ} (hlo : 1 ≤ lo) {x : String × WinReq} {s0 s1 : List ℤ} (h0 : ∀ s ∈ s0, 1 ≤ s)
    (h : windowSizeStep m samples odd enforce lo s0 x = .ok s1) : ∀ s ∈ s1, 1 ≤ s := by
  unfold windowSizeStep at h
  split at h
  · obtain ⟨a, -, h⟩ := bind_split h
    obtain ⟨b, hb, h⟩ := bind_split h
    cases h
    intro s hs
    rcases List.mem_or_eq_of_mem_set hs with hs | rfl
    · exact h0 s hs
    · unfold adjustCount at hb
      split_ifs at hb <;> (cases hb; omega)
  · cases h

theorem windowSizes_pos {m : CM} {samples odd enforce : Bool} {lo : ℤ} (hlo : 1 ≤ lo) : ∀ {kw : Dict WinReq} {s0 size : List ℤ}, (∀ s ∈ s0, 1 ≤ s) →
    kw.foldlM (windowSizeStep m samples odd enforce lo) s0 = .ok size → ∀ s ∈ size, 1 ≤ s
  | [], s0, size, h0, h => by
    cases h
    exact h0
  | x :: kw, s0, size, h0, h => by
    rw [List.foldlM_cons] at h
    obtain ⟨s1, hs1, h⟩ := bind_split h
    exact windowSizes_pos hlo (windowSizeStep_pos hlo h0 hs1) h

theorem patchWindowSize_pos {m : CM} {kw : Dict WinReq} {samples odd enforce : Bool} {lo : ℤ} (hlo : 1 ≤ lo) {size : List ℤ}
    (h : patchWindowSize m kw samples odd lo enforce = .ok size) : ∀ s ∈ size, 1 ≤ s := by
  have h0 : ∀ s ∈ m.dims.map (fun _ => (1 : ℤ)), 1 ≤ s := by
    intro s hs
    obtain ⟨_, -, rfl⟩ := List.mem_map.1 hs
    exact le_rfl
  unfold patchWindowSize at h
  split_ifs at h
  · cases h
    exact h0
  · exact windowSizes_pos hlo h0 h

theorem hampelData_bounds {installed approximate : Bool} {eps threshold : ℚ} {size : List ℕ} (hs : ∀ s ∈ size, 0 < s) {a r : Nd ℚ}
    (h : hampelData installed approximate eps threshold size a = .ok r) {lo hi : ℚ} (hb : ∀ i, InRange a.shape i → lo ≤ a.get i ∧ a.get i ≤ hi) :
    r.shape = a.shape ∧ ∀ i, InRange a.shape i → lo ≤ r.get i ∧ r.get i ≤ hi := by
  obtain ⟨med, mad, h1, -, h3, h4⟩ := hampelData_ok h
  refine ⟨h3, fun i hi => ?_⟩
  rw [h4 i]
  generalize (if mad.get i = 0 then eps else mad.get i) = σ
  split_ifs
  · exact (neighbourMedian_bounds hs h1 hb).2 i hi
  · exact hb i hi

theorem toFloat32_small {z : ℤ} (h : |z| < 2 ^ 24) : toFloat32 z = z := by
  unfold toFloat32
  simp only
  rw [if_pos]
  rw [absQ_abs, ← Int.cast_abs, Int.floor_intCast]
  by_cases h0 : |z|.toNat = 0
  · rw [h0]; decide
  · rw [Nat.log2_lt h0]
    have := abs_nonneg z
    omega

theorem rint_within {lo hi : ℤ} {x : ℚ} (h : (lo : ℚ) ≤ x ∧ x ≤ hi) : (lo : ℚ) ≤ rint x ∧ (rint x : ℚ) ≤ hi := by
  have h1 := rint_mono h.1
  have h2 := rint_mono h.2
  rw [rint_int] at h1 h2
  exact ⟨by exact_mod_cast h1, by exact_mod_cast h2⟩

section
variable {installed approximate : Bool} {eps threshold : ℚ} {p q : PatchM ℚ} {kw : Dict WinReq} {samples : Bool}

/-- **C71** (range). Whatever the windows, a Hampel filter of floats keeps the coordinates and the shape, and no sample leaves the range of the data. So
constant data stay as they are. -/
theorem C71_within (h : p.hampel installed approximate false eps threshold kw samples = .ok q) {lo hi : ℚ}
    (hb : ∀ i, InRange p.data.shape i → lo ≤ p.data.get i ∧ p.data.get i ≤ hi) :
    q.cm = p.cm ∧ q.data.shape = p.data.shape ∧ ∀ i, InRange p.data.shape i → lo ≤ q.data.get i ∧ q.data.get i ≤ hi := by
  unfold PatchM.hampel at h
  split_ifs at h
  obtain ⟨size, h1, h⟩ := bind_split h
  obtain ⟨data, h2, h⟩ := bind_split h
  cases h
  refine ⟨rfl, hampelData_bounds ?_ h2 hb⟩
  intro s hs
  obtain ⟨z, hz, rfl⟩ := List.mem_map.1 hs
  have := patchWindowSize_pos (by norm_num) h1 z hz
  omega

/-- **C71** (integers). The same for integers, as long as they have at most 24 bits; the result consists of integers. -/
theorem C71_integers_partial (h : p.hampel installed approximate true eps threshold kw samples = .ok q) {lo hi : ℤ} (hlo : -2 ^ 24 < lo) (hhi : hi < 2 ^ 24)
    (hb : ∀ i, InRange p.data.shape i → ∃ z : ℤ, p.data.get i = z ∧ lo ≤ z ∧ z ≤ hi) :
    q.cm = p.cm ∧ q.data.shape = p.data.shape ∧ ∀ i, InRange p.data.shape i → ∃ z : ℤ, q.data.get i = z ∧ lo ≤ z ∧ z ≤ hi := by
  unfold PatchM.hampel at h
  split_ifs at h
  obtain ⟨size, h1, h⟩ := bind_split h
  obtain ⟨data, h2, h⟩ := bind_split h
  cases h
  unfold hampelTyped at h2
  rw [if_pos rfl] at h2
  obtain ⟨r, h4, h3⟩ := bind_split h2
  cases h3
  have key := hampelData_bounds (a := ⟨p.data.shape, fun i => toFloat32 (p.data.get i)⟩) (lo := lo) (hi := hi) (fun s hs => ?_) h4 (fun i hir => ?_)
  · refine ⟨rfl, key.1, fun i hi => ⟨rint (r.get i), rfl, ?_⟩⟩
    have := rint_within (key.2 i hi)
    exact ⟨by exact_mod_cast this.1, by exact_mod_cast this.2⟩
  · obtain ⟨z, hz, rfl⟩ := List.mem_map.1 hs
    have := patchWindowSize_pos (by norm_num) h1 z hz
    omega
  · obtain ⟨z, e, z1, z2⟩ := hb i hir
    show (lo : ℚ) ≤ toFloat32 (p.data.get i) ∧ toFloat32 (p.data.get i) ≤ hi
    rw [e, toFloat32_small (by rw [abs_lt]; constructor <;> omega)]
    exact ⟨by exact_mod_cast z1, by exact_mod_cast z2⟩

/-- **C71** (refusals). A threshold that is not positive is refused, and so is a dimension that is not the patch's, one that is not evenly sampled, a window of
less than three samples, or an even number of samples. -/
theorem C71_refused {isInt : Bool} (h : threshold ≤ 0 ∨ ∃ d r, (d, r) ∈ kw ∧ (d ∉ p.cm.dims ∨
      (∀ ds k c, p.cm.ents.get? d ≠ some (ds, .one k (.range c))) ∨ (samples = true ∧ ∃ n, r = .count n ∧ (n < 3 ∨ n % 2 = 0)))) :
    ∃ e, p.hampel installed approximate isInt eps threshold kw samples = .error e := by
  unfold PatchM.hampel
  split_ifs with ht
  · exact ⟨_, rfl⟩
  · rcases h with h | ⟨d, r, hdr, h⟩
    · exact absurd h ht
    · cases hp : patchWindowSize p.cm kw samples true 3 false with
      | error e => exact ⟨e, rfl⟩
      | ok size =>
        exfalso
        obtain ⟨hd, ds, k, c, n0, hc, hn, hmin, hodd⟩ := (C42_sizes_accepted p.cm kw samples true 3 false).1 ⟨size, hp⟩ d r hdr
        rcases h with h | h | ⟨hs, n, rfl, h⟩
        · exact h hd
        · exact h _ _ _ hc
        · have : n0 = n := by
            rw [hs] at hn
            simp only [RangeCoord.sampleCount, RangeCoord.rawCount, if_true, bind, Except.bind, Bool.false_and, Bool.false_eq_true, if_false] at hn
            exact (Except.ok.inj hn).symm
          have := hodd rfl hs
          omega

end

/-! ### Cases -/

/-- Nine samples of 5 but for one of them. -/
def exPulse (x : ℚ) (at_ : ℕ) : PatchM ℚ := ⟨(exRow .float 0 1 9).cm, [9], fun i => if i.getD 0 0 = at_ then x else 5⟩

/-- The hypotheses of `C71_rule` and `C71_spike_partial` hold: a spike of 1000 at sample 4, with a window of three samples. -/
example : Regular (exPulse 1000 4).cm ∧ (exPulse 1000 4).cm.shape = (exPulse 1000 4).data.shape ∧ EvenAlong (exPulse 1000 4).cm "x" .float 0 1 9 ∧
    InRange (exPulse 1000 4).data.shape [4] ∧ Interior (exPulse 1000 4).data 0 2 [4] ∧ OneSpike (lineAt (exPulse 1000 4).data 0 [4]) 5 4 ∧
    ((exPulse 1000 4).hampel true true false (1 / 2 ^ 52) 10 [("x", .count 3)] true).map (fun q => q.data.get [4]) = .ok 5 ∧
    ((exPulse 1000 4).hampel false false false (1 / 2 ^ 52) 10 [("x", .count 3)] true).map (fun q => q.data.get [4]) = .ok 5 := by
  obtain ⟨h1, _, h3, h4⟩ := exRow_regular .float 0 (s := 1) one_ne_zero (n := 9) (by norm_num)
  refine ⟨h1, h3, h4, .cons (by decide) .nil, by unfold Interior; decide +kernel, by unfold OneSpike; decide +kernel, by decide +kernel, by decide +kernel⟩

/-- The hypotheses of `C71_within` and `C71_integers_partial` hold, at an end of the data as well. -/
example : ((exPulse 1000 1).hampel true true false (1 / 2 ^ 52) 10 [("x", .value (5 / 2))] false).map (fun q => q.data.get [0]) = .ok 5 ∧
    ((exPulse 1000 4).hampel true true true (1 / 2 ^ 23) 10 [("x", .count 3)] true).map (fun q => q.data.get [4]) = .ok 5 ∧
    (∀ i, InRange (exPulse 1000 4).data.shape i → ∃ z : ℤ, (exPulse 1000 4).data.get i = z ∧ 5 ≤ z ∧ z ≤ 1000) := by
  refine ⟨by decide +kernel, by decide +kernel, fun i _ => ?_⟩
  simp only [exPulse]
  split_ifs
  · exact ⟨1000, by norm_num, by norm_num, by norm_num⟩
  · exact ⟨5, by norm_num, by norm_num, by norm_num⟩

/-- Refused requests. -/
example : ((exPulse 1000 4).hampel true true false (1 / 2 ^ 52) 0 [("x", .count 3)] true).map (fun _ => ()) = .error .parameterError ∧
    ((exPulse 1000 4).hampel true true false (1 / 2 ^ 52) 10 [("x", .count 4)] true).map (fun _ => ()) = .error .parameterError ∧
    ((exPulse 1000 4).hampel true true false (1 / 2 ^ 52) 10 [("y", .count 3)] true).map (fun _ => ()) = .error .parameterError := by
  refine ⟨by decide +kernel, by decide +kernel, by decide +kernel⟩

/-- **C71 violated**: a spike in the first sample is not removed, with neither engine and in neither mode; with bottleneck, one in the second sample is not
removed either. -/
theorem C71_first_violated :
    ((exPulse 1000 0).hampel true true false (1 / 2 ^ 52) 10 [("x", .count 3)] true).map (fun q => q.data.get [0]) = .ok 1000 ∧
    ((exPulse 1000 0).hampel false true false (1 / 2 ^ 52) 10 [("x", .count 3)] true).map (fun q => q.data.get [0]) = .ok 1000 ∧
    ((exPulse 1000 0).hampel false false false (1 / 2 ^ 52) 10 [("x", .count 3)] true).map (fun q => q.data.get [0]) = .ok 1000 ∧
    ((exPulse 1000 1).hampel true true false (1 / 2 ^ 52) 10 [("x", .count 3)] true).map (fun q => q.data.get [1]) = .ok 1000 ∧
    ((exPulse 1000 1).hampel false true false (1 / 2 ^ 52) 10 [("x", .count 3)] true).map (fun q => q.data.get [1]) = .ok 5 := by
  refine ⟨by decide +kernel, by decide +kernel, by decide +kernel, by decide +kernel, by decide +kernel⟩

/-- **C71 violated**: integers of more than 24 bits are changed even if all of them are equal. -/
theorem C71_integers_violated : ((⟨(exRow .float 0 1 9).cm, [9], fun _ => 16777217⟩ : PatchM ℚ).hampel true true true (1 / 2 ^ 23) 10 [("x", .count 3)] true).map
    (fun q => q.data.get [4]) = .ok 16777216 := by decide +kernel

end Verif
