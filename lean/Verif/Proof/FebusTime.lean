import Verif.Proof.FebusRead
import Verif.Proof.Units
/-! # Reading a Febus zone with limits of time -/
namespace Verif
open Spec

namespace Zone
variable {α : Type} {z : Zone α} {dt : ℚ} {pad kept : ℕ}

theorem flatMap_drop {β} (f : β → List α) (k : ℕ) (l : List β) (hf : ∀ b ∈ l, (f b).length = k) (n : ℕ) :
    (l.drop n).flatMap f = (l.flatMap f).drop (k * n) := by
  induction l generalizing n with
  | nil => simp
  | cons b l ih =>
    cases n with
    | zero => simp
    | succ n =>
      rw [List.drop_succ_cons, ih (fun x hx => hf x (by simp [hx])), List.flatMap_cons]
      have hb := hf b (by simp)
      rw [show k * (n + 1) = (f b).length + k * n by rw [hb]; ring, List.drop_append]
      simp

theorem flatMap_take {β} (f : β → List α) (k : ℕ) (l : List β) (hf : ∀ b ∈ l, (f b).length = k) (n : ℕ) :
    (l.take n).flatMap f = (l.flatMap f).take (k * n) := by
  induction l generalizing n with
  | nil => simp
  | cons b l ih =>
    cases n with
    | zero => simp
    | succ n =>
      rw [List.take_succ_cons, List.flatMap_cons, ih (fun x hx => hf x (by simp [hx])), List.flatMap_cons]
      have hb := hf b (by simp)
      rw [show k * (n + 1) = (f b).length + k * n by rw [hb]; ring, List.take_append]
      simp

/-- The rows of a run of blocks. -/
theorem rows_window (h : FebusLayout z dt pad kept) (x y : ℕ) :
    (((z.blocks.drop x).take y).flatMap fun b => (b.drop ((pad - kept) / 2)).take kept) = ((zoneRows z pad kept).drop (kept * x)).take (kept * y) := by
  rw [flatMap_take _ kept, flatMap_drop _ kept]
  · rfl
  · exact fun b hb => kept_length h hb
  · exact fun b hb => kept_length h (List.mem_of_mem_drop hb)

/-- The labels with which the reader compares the limits of time: those of the samples plus one step. -/
def lateLabels (z : Zone α) (dt : ℚ) (pad kept : ℕ) : List ℚ :=
  (List.range (kept * z.blocks.length)).map fun i : ℕ => (z.clock dt pad kept).start + nanos dt + i * nanos dt

/-- A row which is between the limits lies in a block which is needed. -/
theorem needed_of_between (h : FebusLayout z dt pad kept) {a b : Option ℚ} (hab : ∀ v w, a = some v → b = some w → v ≤ w) (i : ℕ)
    (hb : Between 0 a b ((z.clock dt pad kept).start + nanos dt + (i : ℚ) * nanos dt)) :
    blockNeeded (a, b) ((z.clock dt pad kept).start + nanos dt + ((i / kept) * kept : ℕ) * nanos dt,
       (z.clock dt pad kept).start + nanos dt + ((i / kept + 1) * kept : ℕ) * nanos dt) = true := by
  have hk := h.some_kept
  have hpos := nanos_pos h
  have h1 : i / kept * kept ≤ i := Nat.div_mul_le_self _ _
  have h2 : i ≤ (i / kept + 1) * kept := by
    have := Nat.div_add_mod i kept
    have h3 := Nat.mod_lt i (show 0 < kept by omega)
    nlinarith
  have q1 : (((i / kept * kept : ℕ)) : ℚ) ≤ i := by exact_mod_cast h1
  have q2 : (i : ℚ) ≤ (((i / kept + 1) * kept : ℕ) : ℚ) := by exact_mod_cast h2
  have r1 := mul_le_mul_of_nonneg_right q1 hpos.le
  have r2 := mul_le_mul_of_nonneg_right q2 hpos.le
  unfold Between at hb
  unfold blockNeeded
  rw [Bool.and_eq_true]
  cases a with
  | none =>
    refine ⟨rfl, ?_⟩
    cases b with
    | none => rfl
    | some w =>
      simp only [Bool.not_eq_true', decide_eq_false_iff_not, not_lt]
      linarith
  | some v =>
    cases b with
    | none =>
      refine ⟨?_, rfl⟩
      simp only [Bool.not_eq_true', decide_eq_false_iff_not, not_lt]
      linarith
    | some w =>
      have hvw := hab v w rfl rfl
      simp only at hb
      rw [min_eq_left hvw, max_eq_right hvw] at hb
      simp only [Bool.not_eq_true', decide_eq_false_iff_not, not_lt]
      constructor <;> linarith [hb.1, hb.2]

theorem late_window (n x y : ℕ) (f : ℕ → ℚ) (h : x + y ≤ n) :
    (((List.range n).map f).drop x).take y = (List.range y).map fun i => f (x + i) := by
  apply List.ext_getElem
  · simp; omega
  · intro i h1 h2
    simp

theorem read_time (h : FebusLayout z dt pad kept) (hstep : nanos dt < 2 * 10 ^ 10) {a b : Option ℚ}
    (ha : ∀ v, a = some v → ∃ k : ℤ, v = k) (hb : ∀ v, b = some v → ∃ k : ℤ, v = k)
    (hab : ∀ v w, a = some v → b = some w → v ≤ w) :
    ∃ c : Coord, c.labels = (samplesBetween 0 a b (z.lateLabels dt pad kept)).map some ∧
    z.read (some (a, b)) none = .ok (if samplesBetween 0 a b (z.lateLabels dt pad kept) = [] then none
      else some ⟨c, .range z.cable, pickedBy 0 a b (z.lateLabels dt pad kept) (zoneRows z pad kept)⟩) := by
  rw [read_eq h]
  have hc := h.some_channels
  have hk := h.some_kept
  have hs := nanos_pos h
  simp only [channelsIn, dataAndTime, bind, Except.bind, timeFiltered]
  set n := z.blocks.length with hn
  set S := (z.clock dt pad kept).start + nanos dt with hS
  have hbt := blockTimes_eq h n
  rw [← hS] at hbt
  set f : ℕ → ℚ × ℚ := fun k : ℕ => (S + (k * kept : ℕ) * nanos dt, S + ((k + 1) * kept : ℕ) * nanos dt) with hf
  rw [show blockTimes (z.clock dt pad kept) (kept : ℤ) n = (List.range n).map f from hbt]
  set mask := ((List.range n).map f).map (blockNeeded (a, b)) with hmask
  have hget : ∀ k, mask[k]? = some true ↔ k < n ∧ blockNeeded (a, b) (f k) = true := by
    intro k
    rw [hmask]
    simp only [List.getElem?_map, List.map_map]
    by_cases hkn : k < n
    · simp [hkn]
    · simp [hkn]
  have hlate : z.lateLabels dt pad kept = (List.range (kept * n)).map fun i : ℕ => S + (i : ℚ) * nanos dt := rfl
  have hneed : ∀ i t, (z.lateLabels dt pad kept)[i]? = some t → Between 0 a b t → mask[i / kept]? = some true := by
    intro i t hi hbt
    rw [hlate, List.getElem?_map] at hi
    obtain ⟨j, hj, rfl⟩ := Option.map_eq_some_iff.1 hi
    obtain ⟨hj1, hj2⟩ := List.getElem?_eq_some_iff.1 hj
    simp at hj1 hj2
    subst hj2
    rw [hget]
    exact ⟨Nat.div_lt_of_lt_mul hj1, needed_of_between h hab i hbt⟩
  have hlen : (z.lateLabels dt pad kept).length = (zoneRows z pad kept).length := by
    rw [hlate, zoneRows_length h]; simp [hn]
  by_cases hany : true ∈ mask
  · -- some blocks are needed
    obtain ⟨f1, f2⟩ := firstTrue_spec hany
    obtain ⟨l1, l2⟩ := lastTrue_spec hany
    set k0 := firstTrue mask with hk0
    set k1 := lastTrue mask with hk1
    rw [hget] at f1 l1
    have hle : k0 ≤ k1 := by
      by_contra hc
      exact l2 k0 (by omega) ((hget k0).2 f1)
    have hmem : ∀ k, (k < n ∧ blockNeeded (a, b) (f k) = true) → f k ∈ ((List.range n).map f).filter (blockNeeded (a, b)) := by
      intro k hk
      exact List.mem_filter.2 ⟨List.mem_map.2 ⟨k, by simpa using hk.1, rfl⟩, hk.2⟩
    have hmem' : ∀ p ∈ ((List.range n).map f).filter (blockNeeded (a, b)), ∃ k, k0 ≤ k ∧ k ≤ k1 ∧ p = f k := by
      intro p hp
      obtain ⟨hp1, hp2⟩ := List.mem_filter.1 hp
      obtain ⟨k, hk, rfl⟩ := List.mem_map.1 hp1
      have hkm : mask[k]? = some true := (hget k).2 ⟨by simpa using hk, hp2⟩
      refine ⟨k, ?_, ?_, rfl⟩
      · by_contra hlt
        exact f2 k (by omega) hkm
      · by_contra hlt
        exact l2 k (by omega) hkm
    have hmin : earliestOf ((((List.range n).map f).filter (blockNeeded (a, b))).map (·.1)) = S + (k0 * kept : ℕ) * nanos dt := by
      apply earliestOf_eq
      · exact List.mem_map.2 ⟨_, hmem k0 f1, rfl⟩
      · intro y hy
        obtain ⟨p, hp, rfl⟩ := List.mem_map.1 hy
        obtain ⟨k, e1, e2, rfl⟩ := hmem' p hp
        have : ((k0 * kept : ℕ) : ℚ) ≤ ((k * kept : ℕ) : ℚ) := by exact_mod_cast Nat.mul_le_mul_right _ e1
        have := mul_le_mul_of_nonneg_right this hs.le
        simp only [hf]
        linarith
    have hmax : latestOf ((((List.range n).map f).filter (blockNeeded (a, b))).map (·.2)) = S + ((k1 + 1) * kept : ℕ) * nanos dt := by
      apply latestOf_eq
      · exact List.mem_map.2 ⟨_, hmem k1 l1, rfl⟩
      · intro y hy
        obtain ⟨p, hp, rfl⟩ := List.mem_map.1 hy
        obtain ⟨k, e1, e2, rfl⟩ := hmem' p hp
        have : (((k + 1) * kept : ℕ) : ℚ) ≤ (((k1 + 1) * kept : ℕ) : ℚ) := by exact_mod_cast Nat.mul_le_mul_right _ (by omega)
        have := mul_le_mul_of_nonneg_right this hs.le
        simp only [hf]
        linarith
    have hne : (((List.range n).map f).filter (blockNeeded (a, b))).isEmpty = false := by
      rw [List.isEmpty_eq_false_iff]
      exact List.ne_nil_of_mem (hmem k0 f1)
    rw [hne]
    simp only [Bool.false_eq_true, if_false]
    set W := ((zoneRows z pad kept).drop (kept * k0)).take (kept * (k1 + 1 - k0)) with hW
    have hcube : cube ((z.blocks.drop k0).take (k1 + 1 - k0)) (rowSlice pad kept) {} = W := by
      rw [rowSlice, cube_spec h _ (fun x hx => List.mem_of_mem_drop (List.mem_of_mem_take hx))]
      have : (cutList ({} : PySlice) : List α → List α) = id := by funext l; exact cutList_all l
      rw [this, List.map_id, rows_window h]
    have hWlen : W.length = kept * (k1 + 1 - k0) := by
      rw [hW, List.length_take, List.length_drop, zoneRows_length h, ← hn]
      have : kept * k0 + kept * (k1 + 1 - k0) ≤ kept * n := by
        rw [← Nat.mul_add]
        exact Nat.mul_le_mul_left _ (by omega)
      omega
    have hWw : ∀ r ∈ W, r.length = z.nchan := fun r hr =>
      zoneRows_width h r (List.mem_of_mem_drop (List.mem_of_mem_take hr))
    have hcount : 1 ≤ kept * (k1 + 1 - k0) := Nat.mul_pos hk (by omega)
    rw [hcube, reshapeRows_rows hc W hWw]
    simp only
    have hsize : (⟨z.nchan, W⟩ : Sheet α).size ≠ 0 := by
      simp only [Sheet.size, hWlen]
      exact (Nat.mul_pos hcount hc).ne'
    rw [if_neg hsize, hmin, hmax]
    have hstop : S + (((k1 + 1) * kept : ℕ) : ℚ) * nanos dt = S + ((k0 * kept : ℕ) : ℚ) * nanos dt + nanos dt * ((kept * (k1 + 1 - k0) : ℕ) : ℚ) := by
      have : (k1 + 1) * kept = k0 * kept + kept * (k1 + 1 - k0) := by
        have : k1 + 1 = k0 + (k1 + 1 - k0) := by omega
        conv_lhs => rw [this]
        ring
      rw [this]; push_cast; ring
    rw [hstop]
    have hstep' : (z.clock dt pad kept).step = nanos dt := rfl
    have hrange := range_of_length (a := S + ((k0 * kept : ℕ) : ℚ) * nanos dt) (b := S + ((k0 * kept : ℕ) : ℚ) * nanos dt + nanos dt * ((kept * (k1 + 1 - k0) : ℕ) : ℚ))
      (s := nanos dt) hs hcount (by
        have : (1 : ℚ) ≤ ((kept * (k1 + 1 - k0) : ℕ) : ℚ) := by exact_mod_cast hcount
        nlinarith) true (Or.inl rfl)
    set r : RangeCoord := ⟨S + ((k0 * kept : ℕ) : ℚ) * nanos dt, S + ((k0 * kept : ℕ) : ℚ) * nanos dt + nanos dt * ((kept * (k1 + 1 - k0) : ℕ) : ℚ),
      nanos dt, kept * (k1 + 1 - k0)⟩ with hr
    have hv : r.Valid := valid_canonical hs.ne' hcount
    obtain ⟨d, sl, s1, s2, s3, s4, s5⟩ := select_parallel hv a b
    have hvals : r.values = ((z.lateLabels dt pad kept).drop (kept * k0)).take (kept * (k1 + 1 - k0)) := by
      rw [hv.values_eq, hlate, late_window]
      · apply List.map_congr_left
        intro i _
        simp only [hr]
        push_cast; ring
      · rw [← Nat.mul_add]
        exact Nat.mul_le_mul_left _ (by omega)
    have habs : |r.step| = nanos dt := abs_of_pos hs
    rw [habs] at s2 s3 s4 s5
    have hint : ∀ t ∈ z.lateLabels dt pad kept, ∃ k : ℤ, t = k := by
      intro t ht
      rw [hlate] at ht
      obtain ⟨i, _, rfl⟩ := List.mem_map.1 ht
      obtain ⟨⟨q1, e1⟩, _⟩ := nanos_nearest dt
      obtain ⟨⟨q2, e2⟩, _⟩ := nanos_nearest (z.time0 + z.origin.2 / 1000 + (((pad - kept) / 2 : ℕ) : ℤ) * dt)
      refine ⟨q2 + q1 + i * q1, ?_⟩
      rw [hS]
      change nanos _ + nanos dt + _ = _
      rw [e1, e2]
      push_cast; ring
    have hexact : ∀ t ∈ r.values, (Between (nanos dt / (2 * 10 ^ 10)) a b t ↔ Between 0 a b t) := by
      intro t ht
      rw [hvals] at ht
      have hp : (0 : ℚ) < 2 * 10 ^ 10 := by norm_num
      exact between_int_exact (by positivity) (by rw [div_lt_one hp]; exact hstep) ha hb
        (hint t (List.mem_of_mem_drop (List.mem_of_mem_take ht)))
    have hwin : ∀ i t, (z.lateLabels dt pad kept)[i]? = some t → Between 0 a b t → kept * k0 ≤ i ∧ i < kept * k0 + kept * (k1 + 1 - k0) := by
      intro i t hi hbt
      have hm := hneed i t hi hbt
      have e1 : k0 ≤ i / kept := by
        by_contra hlt
        exact f2 _ (by omega) hm
      have e2 : i / kept ≤ k1 := by
        by_contra hlt
        exact l2 _ (by omega) hm
      constructor
      · calc kept * k0 ≤ kept * (i / kept) := Nat.mul_le_mul_left _ e1
          _ ≤ i := Nat.mul_div_le _ _
      · rw [← Nat.mul_add, show k0 + (k1 + 1 - k0) = k1 + 1 by omega]
        calc i < kept * (i / kept + 1) := Nat.lt_mul_div_succ i (by omega)
          _ ≤ kept * (k1 + 1) := Nat.mul_le_mul_left _ (by omega)
    have hsb : samplesBetween (nanos dt / (2 * 10 ^ 10)) a b r.values = samplesBetween 0 a b (z.lateLabels dt pad kept) := by
      rw [samplesBetween_congr hexact, samplesBetween_eq_pickedBy, samplesBetween_eq_pickedBy, hvals]
      exact (pickedBy_window rfl _ _ hwin).symm
    have hpb : cutList sl W = pickedBy 0 a b (z.lateLabels dt pad kept) (zoneRows z pad kept) := by
      rw [s4 W hWlen, pickedBy_congr hexact, hvals]
      exact (pickedBy_window hlen _ _ hwin).symm
    rw [hsb] at s2 s5
    refine ⟨d, s2, ?_⟩
    rw [hstep']
    rw [show ((⟨z.nchan, W⟩ : Sheet α).rows.length : ℤ) = ((kept * (k1 + 1 - k0) : ℕ) : ℤ) by rw [← hWlen]]
    obtain ⟨m, hm1, hm2⟩ := bind_split hrange
    rw [hm1]
    simp only
    rw [hm2]
    simp only [s1, pure, Except.pure]
    rw [hpb]
    have hpl := pickedBy_length 0 a b (z.lateLabels dt pad kept) (zoneRows z pad kept) hlen.symm
    by_cases he : samplesBetween 0 a b (z.lateLabels dt pad kept) = []
    · rw [if_pos he]
      rw [he] at hpl
      rw [if_pos]
      simp only [Sheet.size, hpl]
      simp
    · rw [if_neg he]
      have hpos : 0 < (samplesBetween 0 a b (z.lateLabels dt pad kept)).length := List.length_pos_iff.2 he
      rw [if_neg]
      · unfold Recording.new
        rw [if_pos ⟨by rw [s5, hpl], rfl⟩]
      · simp only [Sheet.size, hpl]
        exact (Nat.mul_pos hpos hc).ne'
  · -- no block is needed
    have hnone : ∀ t ∈ z.lateLabels dt pad kept, ¬ Between 0 a b t := by
      intro t ht hbt
      obtain ⟨i, hi⟩ := List.mem_iff_getElem?.1 ht
      exact hany (List.mem_of_getElem? (hneed i t hi hbt))
    have he : samplesBetween 0 a b (z.lateLabels dt pad kept) = [] := by
      unfold samplesBetween
      rw [List.filter_eq_nil_iff]
      intro t ht
      simpa using hnone t ht
    have hempty : ((List.range n).map f).filter (blockNeeded (a, b)) = [] := by
      rw [List.filter_eq_nil_iff]
      intro p hp hp2
      exact hany (List.mem_map.2 ⟨p, hp, hp2⟩)
    refine ⟨.part 0, by rw [he]; rfl, ?_⟩
    rw [if_pos he, hempty, lastTrue_none hany]
    simp only [List.isEmpty_nil, if_true, Nat.zero_add, Nat.zero_sub, List.take_zero]
    have hcube : (cube ([] : List (List (List α))) (rowSlice pad kept) {}).flatten = [] := rfl
    rw [hcube]
    have hresh : reshapeRows z.nchan ([] : List α) = .ok ⟨z.nchan, []⟩ := by
      have := reshapeRows_rows hc ([] : List (List α)) (by simp)
      simpa using this
    rw [hresh]
    simp [Sheet.size, pure, Except.pure]

end Zone
end Verif

namespace Verif
open Spec
namespace Zone
variable {α : Type} {z : Zone α} {dt : ℚ} {pad kept : ℕ}

theorem reshapeRows_width {k : ℕ} {l : List α} {t : Sheet α} (h : reshapeRows k l = .ok t) : t.width = k := by
  unfold reshapeRows at h
  split_ifs at h
  cases h
  rfl

theorem timeFiltered_width {c : RangeCoord} {rows : ℤ} {rs cs : PySlice} {lims : Option ℚ × Option ℚ} {t : Sheet α} {tc : Coord}
    (h : z.timeFiltered c rows rs cs lims = .ok (t, tc)) : t.width = z.nchan := by
  unfold timeFiltered at h
  obtain ⟨t0, h1, h2⟩ := bind_split h
  have hw := reshapeRows_width h1
  split_ifs at h2 with hz
  · cases h2; exact hw
  · obtain ⟨r, _, h3⟩ := bind_split h2
    obtain ⟨d, _, h4⟩ := bind_split h3
    cases d with
    | range r' =>
      obtain ⟨⟨new, s⟩, _, h5⟩ := bind_split h4
      cases h5
      exact hw
    | mono v => cases h4
    | arr v => cases h4
    | part n => cases h4

theorem both_refused (h : FebusLayout z dt pad kept) (lims : Option ℚ × Option ℚ) (a b : Option ℚ)
    (hsome : (samplesBetween (z.spacing.1 / (2 * 10 ^ 10)) a b z.cable.values).length ≠ z.nchan) (w : Recording α) :
    z.read (some lims) (some (a, b)) ≠ .ok (some w) := by
  obtain ⟨d, sl, h1, h2, h3, h4, h5⟩ := select_parallel (cable_valid h) a b
  have habs : |z.cable.step| = z.spacing.1 := abs_of_pos h.outwards
  rw [habs] at h2 h3 h4 h5
  rw [read_eq h]
  intro hr
  simp only [channelsIn, h1] at hr
  obtain ⟨⟨d', sl'⟩, e1, hr⟩ := bind_split hr
  cases e1
  obtain ⟨⟨t, tc⟩, e2, hr⟩ := bind_split hr
  have hw := timeFiltered_width e2
  simp only at hr
  split_ifs at hr with hz
  · cases hr
  · obtain ⟨r, e3, hr⟩ := bind_split hr
    unfold Recording.new at e3
    split_ifs at e3 with hsh
    apply hsome
    rw [← h5, hsh.2, hw]

end Zone
end Verif
