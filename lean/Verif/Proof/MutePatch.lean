import Verif.Proof.Mute
/-! # Lemmas: mutes of patches -/
namespace Verif
open Spec

theorem stepNumber_add (k : Kind) (a b : ℚ) : stepNumber k (a + b) = stepNumber k a + stepNumber k b := by
  unfold stepNumber; cases k <;> simp; ring

theorem stepNumber_sub (k : Kind) (a b : ℚ) : stepNumber k (a - b) = stepNumber k a - stepNumber k b := by
  unfold stepNumber; cases k <;> simp; ring

theorem stepNumber_mul (k : Kind) (a b : ℚ) : stepNumber k (a * b) = a * stepNumber k b := by
  unfold stepNumber; cases k <;> simp; ring

theorem stepNumber_mono (k : Kind) {a b : ℚ} (h : a ≤ b) : stepNumber k a ≤ stepNumber k b := by
  unfold stepNumber; cases k <;> simp <;> first | exact h | (gcongr)

theorem stepNumber_abs (k : Kind) (a : ℚ) : stepNumber k |a| = |stepNumber k a| := by
  unfold stepNumber; cases k <;> simp
  rw [abs_div]; norm_num

theorem stepNumber_min (k : Kind) (a b : ℚ) : stepNumber k (min a b) = min (stepNumber k a) (stepNumber k b) := by
  rcases le_total a b with h | h
  · rw [min_eq_left h, min_eq_left (stepNumber_mono k h)]
  · rw [min_eq_right h, min_eq_right (stepNumber_mono k h)]

theorem stepNumber_max (k : Kind) (a b : ℚ) : stepNumber k (max a b) = max (stepNumber k a) (stepNumber k b) := by
  rcases le_total a b with h | h
  · rw [max_eq_right h, max_eq_right (stepNumber_mono k h)]
  · rw [max_eq_left h, max_eq_left (stepNumber_mono k h)]

theorem lo_lowest {r : RangeCoord} (hv : r.Valid) (k : Kind) : stepNumber k (Coord.lo (.range r)) = lowest k r := by
  show stepNumber k r.cmin = _
  rw [hv.cmin_eq, stepNumber_min]; rfl

theorem hi_highest {r : RangeCoord} (hv : r.Valid) (k : Kind) : stepNumber k (Coord.hi (.range r)) = highest k r := by
  show stepNumber k r.cmax = _
  rw [hv.cmax_eq, stepNumber_max]; rfl

theorem seconds_number (k : Kind) (v : ℚ) : stepNumber k (if k = .time then v * 1000000000 else v) = v := by
  unfold stepNumber; cases k <;> simp; norm_num

theorem seconds_nonneg (k : Kind) (v : ℚ) : 0 ≤ (if k = .time then v * 1000000000 else v) ↔ 0 ≤ v := by
  split
  · constructor <;> intro h <;> linarith
  · rfl

theorem offset_spec {r : RangeCoord} (hv : r.Valid) (k : Kind) (relative : Bool) (v : ℚ) :
    Coord.offset k (.range r) relative v = whereIs k r relative v - lowest k r := by
  unfold Coord.offset Coord.compatible whereIs
  rw [stepFloat_number, stepNumber_sub, lo_lowest hv]
  congr 1
  cases relative
  · simp [seconds_number]
  · simp only [seconds_nonneg, if_true]
    by_cases h : 0 ≤ v
    · rw [if_pos h, if_pos h, stepNumber_add, lo_lowest hv, seconds_number]
    · rw [if_neg h, if_neg h, stepNumber_add, hi_highest hv, seconds_number]

/-- Relative values from the start do not depend on the coordinate. -/
theorem offset_start (c : Coord) (k : Kind) {v : ℚ} (h : 0 ≤ v) : c.offset k true v = v := by
  unfold Coord.offset Coord.compatible
  simp only [seconds_nonneg, if_pos h, if_true]
  rw [add_sub_cancel_left, stepFloat_number, seconds_number]

theorem rangeNumber_spec {m : CM} {d : String} {k : Kind} {r : RangeCoord} (hd : Even m d k r) (hv : r.Valid) : m.rangeNumber d = .ok (extent k r) := by
  unfold CM.rangeNumber
  rw [hd.2]
  simp only
  congr 1
  rw [stepFloat_number, absQ_eq, hv.cmin_eq, hv.cmax_eq, stepNumber_add, stepNumber_abs]
  unfold extent
  have hl : (1 : ℚ) ≤ r.len := by exact_mod_cast hv.len_pos
  have : max r.start (r.start + (r.len - 1) * r.step) - min r.start (r.start + (r.len - 1) * r.step) = (r.len - 1) * |r.step| := by
    rw [max_sub_min_eq_abs']
    rw [show r.start - (r.start + (r.len - 1) * r.step) = -((r.len - 1) * r.step) by ring, abs_neg, abs_mul, abs_of_nonneg (by linarith)]
  rw [this, stepNumber_mul, stepNumber_abs]
  ring

theorem extent_pos {r : RangeCoord} (hv : r.Valid) (k : Kind) : 0 < extent k r := by
  unfold extent
  refine mul_pos (by exact_mod_cast hv.len_pos) (abs_pos.2 ?_)
  intro h0
  have : stepNumber k r.step = stepNumber k 0 := by rw [h0]; unfold stepNumber; cases k <;> simp
  exact hv.step_ne (stepNumber_inj this)

/-- Labels of an evenly sampled dimension. -/
theorem place_even {p : PatchM ℚ} (hm : Regular p.cm) {d : String} {k : Kind} {r : RangeCoord} (hd : Even p.cm d k r) {i : List ℕ}
    (hi : posAlong p d i < lenDim p.cm d) :
    place p d i = stepNumber k (r.values.getD (posAlong p d i) 0) ∧ posAlong p d i < r.len := by
  have hw : Coord.Wf (.range r) := hm.classes _ _ _ _ (Dict.mem_of_get? hd.2)
  have hv : r.Valid := hw
  have hlen : lenDim p.cm d = r.values.length := by
    unfold lenDim Ents.lenOf
    rw [hd.2]
    show Coord.length (.range r) = _
    rw [← labels_length hw, labels_vals (by simp), List.length_map]; rfl
  rw [hlen] at hi
  refine ⟨?_, by rwa [hv.length_values] at hi⟩
  unfold place
  rw [label_dim hd.2, hd.2, labels_vals (by simp), List.getD_eq_getElem?_getD, List.getElem?_map]
  show (match some ([d], MCoord.one k (.range r)), some ((Option.map some r.values[posAlong p d i]?).getD none) with
    | some (_, .one k _), some (some v) => stepNumber k v
    | _, _ => 0) = _
  rw [List.getElem?_eq_getElem hi]
  simp [List.getElem?_eq_getElem hi]

theorem distances_spec {p : PatchM ℚ} (hm : Regular p.cm) {d : String} {k : Kind} {r : RangeCoord} (hd : Even p.cm d k r) {i : List ℕ}
    (hi : posAlong p d i < lenDim p.cm d) : p.cm.distances d (posAlong p d i) = place p d i - lowest k r := by
  have hv : r.Valid := hm.classes _ _ _ _ (Dict.mem_of_get? hd.2)
  rw [(place_even hm hd hi).1]
  unfold CM.distances
  rw [hd.2]
  simp only
  rw [stepFloat_number, stepFloat_number, lo_lowest hv]; rfl

theorem posAlong_lt {p : PatchM ℚ} (hsh : p.cm.shape = p.data.shape) {d : String} (hd : d ∈ p.cm.dims) {i : List ℕ} (hi : InRange p.data.shape i) :
    posAlong p d i < lenDim p.cm d := by
  rw [← shape_getD hsh hd]
  have hlt : p.cm.dims.idxOf d < p.data.shape.length := by
    rw [shape_dims hsh hd, List.length_map]; exact List.idxOf_lt_length_of_mem hd
  unfold posAlong
  unfold InRange at hi
  rw [List.forall₂_iff_get] at hi
  have h2 := hi.2 (p.cm.dims.idxOf d) (by rw [hi.1]; exact hlt) hlt
  simp only [List.get_eq_getElem] at h2
  rw [List.getD_eq_getElem?_getD, List.getD_eq_getElem?_getD, List.getElem?_eq_getElem (by rw [hi.1]; exact hlt), List.getElem?_eq_getElem hlt]
  exact h2

/-- Multiplying with the mask. -/
theorem applyMute_spec {p : PatchM ℚ} (hsh : p.cm.shape = p.data.shape) (invert : Bool) (inside : List ℕ → Bool) (region : List ℕ → Prop)
    (h : ∀ i, InRange p.data.shape i → (inside i = true ↔ region i)) : ∃ q, p.applyMute invert inside = .ok q ∧ Muted p q invert region := by
  refine ⟨⟨p.cm, ⟨p.data.shape, fun i => p.data.get i * (if inside i = invert then 1 else 0)⟩⟩, ?_, rfl, rfl, fun i hi hr => ?_, fun i hi hr => ?_⟩
  · unfold PatchM.applyMute PatchM.new
    rw [if_pos hsh]
  · have := (h i hi).2 hr
    simp only [this]
    cases invert <;> simp
  · have : inside i = false := by
      rw [← Bool.not_eq_true]; exact fun hn => hr ((h i hi).1 hn)
    simp only [this]
    cases invert <;> simp

/-- The values of a boundary. -/
def Bound.All (P : ℚ → Prop) : Bound → Prop
  | .pair a b => P a ∧ P b
  | .hole => True
  | .value v => P v

/-- One line from its boundaries. -/
theorem slots_line {off1 off2 A B : ℚ → ℚ} {t : ℚ × ℚ} {x y : Bound} (hx : x.All fun v => off1 v = A v - t.1) (hy : y.All fun v => off2 v = B v - t.2)
    {l : Line} (h : lineThrough A B x y = some l) :
    ∃ l', (((⟨none, none⟩ : Slots).fillFst off1 x).fillSnd off2 y).line = .ok l' ∧ SameUp t l' l := by
  unfold lineThrough at h
  split at h
  · rename_i a b c d
    simp only [Option.some.injEq] at h
    subst h
    refine ⟨_, rfl, ?_, fun o => ?_⟩
    · unfold along
      simp only [hx.1, hx.2, hy.1, hy.2]
      refine Prod.ext ?_ ?_ <;> simp only <;> ring
    · unfold OnLine along
      simp only [hx.1, hx.2, hy.1, hy.2, Prod.ext_iff]
      refine exists_congr fun s => and_congr ?_ ?_
      · constructor <;> intro h <;> linarith
      · constructor <;> intro h <;> linarith
  · rename_i a
    simp only [Option.some.injEq] at h
    subst h
    refine ⟨_, rfl, ?_, fun o => ?_⟩
    · unfold along
      simp
    · unfold OnLine along
      have hx : off1 a = A a - t.1 := hx
      simp only [hx, Prod.ext_iff]
      constructor
      · rintro ⟨s, h1, h2⟩
        exact ⟨s + t.2, by simp at h1 ⊢; linarith, by simp at h2 ⊢; linarith⟩
      · rintro ⟨s, h1, h2⟩
        exact ⟨s - t.2, by simp at h1 ⊢; linarith, by simp at h2 ⊢; linarith⟩
  · rename_i a
    simp only [Option.some.injEq] at h
    subst h
    refine ⟨_, rfl, ?_, fun o => ?_⟩
    · unfold along
      simp
    · unfold OnLine along
      have hy : off2 a = B a - t.2 := hy
      simp only [hy, Prod.ext_iff]
      constructor
      · rintro ⟨s, h1, h2⟩
        exact ⟨s + t.1, by simp at h1 ⊢; linarith, by simp at h2 ⊢; linarith⟩
      · rintro ⟨s, h1, h2⟩
        exact ⟨s - t.1, by simp at h1 ⊢; linarith, by simp at h2 ⊢; linarith⟩
  · cases h

/-- Directions of lines given by numbers. -/
theorem along_constant {A B : ℚ → ℚ} {x y : Bound} {l : Line} (h : lineThrough A B x y = some l) (hc : constant x y = true) :
    along l = (0, 1) ∨ along l = (1, 0) := by
  unfold lineThrough at h
  split at h
  · cases hc
  · simp only [Option.some.injEq] at h
    subst h
    left; simp [along]
  · simp only [Option.some.injEq] at h
    subst h
    right; simp [along]
  · cases h

theorem fillLines_spec {off1 off2 A B : ℚ → ℚ} {t : ℚ × ℚ} {r1 r2 : Bound × Bound} (h11 : r1.1.All fun v => off1 v = A v - t.1)
    (h12 : r1.2.All fun v => off1 v = A v - t.1) (h21 : r2.1.All fun v => off2 v = B v - t.2) (h22 : r2.2.All fun v => off2 v = B v - t.2)
    {l m : Line} (hl : lineThrough A B r1.1 r2.1 = some l) (hm : lineThrough A B r1.2 r2.2 = some m) :
    ∃ l' m' fill, fillLines off1 off2 r1 r2 = .ok (l', m', fill) ∧ SameUp t l' l ∧ SameUp t m' m ∧
      FillOk fill (constant r1.1 r2.1) (constant r1.2 r2.2) := by
  obtain ⟨l', hl', sl⟩ := slots_line h11 h21 hl
  obtain ⟨m', hm', sm⟩ := slots_line h12 h22 hm
  refine ⟨l', m', fillIndex 1 (fillIndex 0 (fillIndex 1 (fillIndex 0 none r1.1) r1.2) r2.1) r2.2, ?_, sl, sm, ?_⟩
  · unfold fillLines
    rw [hl', hm']
    rfl
  · clear hl' hm' sl sm h11 h12 h21 h22
    obtain ⟨a, b⟩ := r1
    obtain ⟨c, d⟩ := r2
    simp only at hl hm ⊢
    unfold FillOk
    cases a <;> cases c <;> simp [lineThrough] at hl <;> cases b <;> cases d <;> simp [lineThrough] at hm <;> simp [constant, fillIndex]

/-- The values are converted by the right coordinates. -/
theorem offsets_spec {m : CM} {d1 d2 : String} {k1 k2 : Kind} {c1 c2 : RangeCoord} (hd1 : Even m d1 k1 c1) (hd2 : Even m d2 k2 c2) (v1 : c1.Valid)
    (v2 : c2.Valid) (relative : Bool) {r1 r2 : Bound × Bound} (ho : RightOrder m d1 d2 relative r1 r2) :
    ∃ off1 off2, m.offsetAt 0 relative = .ok off1 ∧ m.offsetAt 1 relative = .ok off2 ∧
      (∀ b, b = r1.1 ∨ b = r1.2 → b.All fun v => off1 v = whereIs k1 c1 relative v - lowest k1 c1) ∧
      (∀ b, b = r2.1 ∨ b = r2.2 → b.All fun v => off2 v = whereIs k2 c2 relative v - lowest k2 c2) := by
  rcases ho with ⟨rest, hr⟩ | ⟨rest, hr, rfl, h1, h2, h3, h4⟩
  · refine ⟨Coord.offset k1 (.range c1) relative, Coord.offset k2 (.range c2) relative, ?_, ?_, ?_, ?_⟩
    · unfold CM.offsetAt
      rw [hr]
      show (match m.ents.get? d1 with | some (_, .one _ (.part _)) => _ | some (_, .one k c) => _ | _ => _) = _
      rw [hd1.2]
    · unfold CM.offsetAt
      rw [hr]
      show (match m.ents.get? d2 with | some (_, .one _ (.part _)) => _ | some (_, .one k c) => _ | _ => _) = _
      rw [hd2.2]
    · intro b _
      cases b <;> simp [Bound.All, offset_spec v1]
    · intro b _
      cases b <;> simp [Bound.All, offset_spec v2]
  · have hw : ∀ (k : Kind) (c : RangeCoord) (v : ℚ), 0 ≤ v → whereIs k c true v - lowest k c = v := by
      intro k c v h
      unfold whereIs
      simp [h]
    refine ⟨Coord.offset k2 (.range c2) true, Coord.offset k1 (.range c1) true, ?_, ?_, ?_, ?_⟩
    · unfold CM.offsetAt
      rw [hr]
      show (match m.ents.get? d2 with | some (_, .one _ (.part _)) => _ | some (_, .one k c) => _ | _ => _) = _
      rw [hd2.2]
    · unfold CM.offsetAt
      rw [hr]
      show (match m.ents.get? d1 with | some (_, .one _ (.part _)) => _ | some (_, .one k c) => _ | _ => _) = _
      rw [hd1.2]
    · have key : ∀ b : Bound, NonNeg b → b.All fun v => Coord.offset k2 (.range c2) true v = whereIs k1 c1 true v - lowest k1 c1 := by
        intro b hb
        cases b with
        | pair a b => exact ⟨(offset_start _ _ hb.1).trans (hw _ _ _ hb.1).symm, (offset_start _ _ hb.2).trans (hw _ _ _ hb.2).symm⟩
        | hole => trivial
        | value v =>
          have hb : 0 ≤ v := hb
          exact (offset_start _ _ hb).trans (hw _ _ _ hb).symm
      rintro b (rfl | rfl)
      · exact key _ h1
      · exact key _ h2
    · have key : ∀ b : Bound, NonNeg b → b.All fun v => Coord.offset k1 (.range c1) true v = whereIs k2 c2 true v - lowest k2 c2 := by
        intro b hb
        cases b with
        | pair a b => exact ⟨(offset_start _ _ hb.1).trans (hw _ _ _ hb.1).symm, (offset_start _ _ hb.2).trans (hw _ _ _ hb.2).symm⟩
        | hole => trivial
        | value v =>
          have hb : 0 ≤ v := hb
          exact (offset_start _ _ hb).trans (hw _ _ _ hb).symm
      rintro b (rfl | rfl)
      · exact key _ h3
      · exact key _ h4

/-- A mute with two lines, from its geometry. -/
theorem lineMute_two {p : PatchM ℚ} (hsh : p.cm.shape = p.data.shape) (argsort : List ℚ → List ℕ) {d1 d2 : String} (h1 : d1 ∈ p.cm.dims)
    (h2 : d2 ∈ p.cm.dims) {r1 r2 : Bound × Bound} {relative : Bool} (invert : Bool) {g : MuteGeo} (hg : p.cm.muteGeo d1 d2 r1 r2 relative = .ok g)
    (region : List ℕ → Prop)
    (h : ∀ i, InRange p.data.shape i → (g.inside (p.cm.distances d1 (posAlong p d1 i), p.cm.distances d2 (posAlong p d2 i)) = true ↔ region i)) :
    ∃ q, p.lineMute argsort [(d1, r1), (d2, r2)] invert relative = .ok q ∧ Muted p q invert region := by
  obtain ⟨q, hq, hmut⟩ := applyMute_spec hsh invert
    (fun i => g.inside (p.cm.distances d1 (i.getD (p.cm.dims.idxOf d1) 0), p.cm.distances d2 (i.getD (p.cm.dims.idxOf d2) 0))) region h
  refine ⟨q, ?_, hmut⟩
  unfold PatchM.lineMute
  rw [if_neg (by simp [Dict.keys, h1, h2])]
  simp only [hg, bind, Except.bind]
  exact hq

theorem muteGeo_eq {m : CM} {d1 d2 : String} {k1 k2 : Kind} {c1 c2 : RangeCoord} (hd1 : Even m d1 k1 c1) (hd2 : Even m d2 k2 c2) (v1 : c1.Valid)
    (v2 : c2.Valid) {relative : Bool} {r1 r2 : Bound × Bound} (ho : RightOrder m d1 d2 relative r1 r2) {l l2 : Line}
    (hl : lineThrough (whereIs k1 c1 relative) (whereIs k2 c2 relative) r1.1 r2.1 = some l)
    (hm : lineThrough (whereIs k1 c1 relative) (whereIs k2 c2 relative) r1.2 r2.2 = some l2) :
    ∃ l' m' fill, m.muteGeo d1 d2 r1 r2 relative = lineParams (extent k1 c1, extent k2 c2) l' m' fill ∧ SameUp (lowest k1 c1, lowest k2 c2) l' l ∧
      SameUp (lowest k1 c1, lowest k2 c2) m' l2 ∧ FillOk fill (constant r1.1 r2.1) (constant r1.2 r2.2) := by
  obtain ⟨off1, off2, ho1, ho2, a1, a2⟩ := offsets_spec hd1 hd2 v1 v2 relative ho
  obtain ⟨l', m', fill, hf, sl, sm, hfill⟩ := fillLines_spec (t := (lowest k1 c1, lowest k2 c2)) (a1 _ (.inl rfl)) (a1 _ (.inr rfl)) (a2 _ (.inl rfl))
    (a2 _ (.inr rfl)) hl hm
  refine ⟨l', m', fill, ?_, sl, sm, hfill⟩
  unfold CM.muteGeo
  simp only [rangeNumber_spec hd1 v1, rangeNumber_spec hd2 v2, ho1, ho2, hf, bind, Except.bind]

theorem inner_constants {e f : ℚ} {u v : ℚ × ℚ} (hu : u = (0, 1) ∨ u = (1, 0)) (hv : v = (0, 1) ∨ v = (1, 0)) : 0 ≤ inner e f u v := by
  rcases hu with rfl | rfl <;> rcases hv with rfl | rfl <;> unfold inner <;> simp <;> exact mul_self_nonneg _

theorem wedge_spec {p : PatchM ℚ} (hm : Regular p.cm) (hsh : p.cm.shape = p.data.shape) (argsort : List ℚ → List ℕ) {d1 d2 : String} {k1 k2 : Kind}
    {c1 c2 : RangeCoord} (hd1 : Even p.cm d1 k1 c1) (hd2 : Even p.cm d2 k2 c2) {relative : Bool} (invert : Bool) {r1 r2 : Bound × Bound}
    (ho : RightOrder p.cm d1 d2 relative r1 r2) {l m : Line}
    (hl : lineThrough (whereIs k1 c1 relative) (whereIs k2 c2 relative) r1.1 r2.1 = some l)
    (hm2 : lineThrough (whereIs k1 c1 relative) (whereIs k2 c2 relative) r1.2 r2.2 = some m)
    (hlong : Long (extent k1 c1) (extent k2 c2) (along l) (along m)) (hskew : Skew (extent k1 c1) (extent k2 c2) (along l) (along m)) {u v : ℚ × ℚ}
    (hop : Opens (extent k1 c1) (extent k2 c2) (constant r1.1 r2.1) (constant r1.2 r2.2) (along l) (along m) u v) :
    ∃ q, p.lineMute argsort [(d1, r1), (d2, r2)] invert relative = .ok q ∧
      Muted p q invert fun i => InWedge l m u v (place p d1 i, place p d2 i) := by
  have v1 : c1.Valid := hm.classes _ _ _ _ (Dict.mem_of_get? hd1.2)
  have v2 : c2.Valid := hm.classes _ _ _ _ (Dict.mem_of_get? hd2.2)
  obtain ⟨l', m', fill, hg, sl, sm, hfill⟩ := muteGeo_eq hd1 hd2 v1 v2 ho hl hm2
  obtain ⟨g, hrun, hins⟩ := lineParams_skew (l := l') (m := m') (extent_pos v1 k1) (extent_pos v2 k2) hfill
    (fun h1 h2 => by rw [sl.1, sm.1]; exact inner_constants (along_constant hl h1) (along_constant hm2 h2))
    (by rw [sl.1, sm.1]; exact hlong) (by rw [sl.1, sm.1]; exact hskew) (u := u) (v := v) (by rw [sl.1, sm.1]; exact hop)
  refine lineMute_two hsh argsort hd1.1 hd2.1 invert (hg.trans hrun) _ fun i hi => ?_
  rw [hins, wedge_up sl sm, distances_spec hm hd1 (posAlong_lt hsh hd1.1 hi), distances_spec hm hd2 (posAlong_lt hsh hd2.1 hi)]
  simp only [sub_add_cancel]

theorem strip_spec {p : PatchM ℚ} (hm : Regular p.cm) (hsh : p.cm.shape = p.data.shape) (argsort : List ℚ → List ℕ) {d1 d2 : String} {k1 k2 : Kind}
    {c1 c2 : RangeCoord} (hd1 : Even p.cm d1 k1 c1) (hd2 : Even p.cm d2 k2 c2) {relative : Bool} (invert : Bool) {r1 r2 : Bound × Bound}
    (ho : RightOrder p.cm d1 d2 relative r1 r2) {l m : Line}
    (hl : lineThrough (whereIs k1 c1 relative) (whereIs k2 c2 relative) r1.1 r2.1 = some l)
    (hm2 : lineThrough (whereIs k1 c1 relative) (whereIs k2 c2 relative) r1.2 r2.2 = some m)
    (hlong : Long (extent k1 c1) (extent k2 c2) (along l) (along m)) (hp : (along l).1 * (along m).2 - (along l).2 * (along m).1 = 0) :
    ∃ q, p.lineMute argsort [(d1, r1), (d2, r2)] invert relative = .ok q ∧
      Muted p q invert fun i => InStrip l m (place p d1 i, place p d2 i) := by
  have v1 : c1.Valid := hm.classes _ _ _ _ (Dict.mem_of_get? hd1.2)
  have v2 : c2.Valid := hm.classes _ _ _ _ (Dict.mem_of_get? hd2.2)
  obtain ⟨l', m', fill, hg, sl, sm, hfill⟩ := muteGeo_eq hd1 hd2 v1 v2 ho hl hm2
  obtain ⟨g, hrun, hins⟩ := lineParams_parallel (l := l') (m := m') (extent_pos v1 k1) (extent_pos v2 k2) (fill := fill)
    (by rw [sl.1, sm.1]; exact hlong) (by rw [sl.1, sm.1]; exact hp)
  refine lineMute_two hsh argsort hd1.1 hd2.1 invert (hg.trans hrun) _ fun i hi => ?_
  rw [hins, strip_up sl sm, distances_spec hm hd1 (posAlong_lt hsh hd1.1 hi), distances_spec hm hd2 (posAlong_lt hsh hd2.1 hi)]
  simp only [sub_add_cancel]

/-- The sides of a line with a given slope. -/
theorem slope_side {range : ℚ} (hr : 0 < range) {s : Option ℚ} (hs : ∀ x ∈ s, 0 ≤ x) {x y : ℚ} (hx : 0 ≤ x) (hy : 0 ≤ y) :
    (0 < (slopeDir range s).1 * y - (slopeDir range s).2 * x ↔ Below x y s) ∧
    ((slopeDir range s).1 * y - (slopeDir range s).2 * x < 0 ↔ Above x y s) ∧ 0 ≤ (slopeDir range s).1 ∧ 0 ≤ (slopeDir range s).2 := by
  cases s with
  | none =>
    simp only [slopeDir, Below, Above, one_mul, zero_mul, sub_zero]
    exact ⟨trivial, ⟨fun h => absurd h (not_lt.2 hy), False.elim⟩, zero_le_one, le_refl _⟩
  | some s =>
    have h0 : 0 ≤ s := hs s rfl
    simp only [slopeDir, Below, Above]
    by_cases hz : s = 0
    · rw [if_pos hz, hz]
      simp only [one_mul, zero_mul, zero_sub]
      refine ⟨⟨fun h => ?_, fun h => absurd h (not_lt.2 hx)⟩, by simp, le_refl _, zero_le_one⟩
      linarith
    · rw [if_neg hz]
      have hp : 0 < s := lt_of_le_of_ne h0 (Ne.symm hz)
      have hrs : 0 < range / s := div_pos hr hp
      have e : range * y - range / s * x = range / s * (s * y - x) := by
        rw [mul_sub, ← mul_assoc, div_mul_cancel₀ _ hz]
      simp only [e]
      refine ⟨⟨fun h => ?_, fun h => mul_pos hrs (by linarith)⟩, ⟨fun h => ?_, fun h => mul_neg_of_pos_of_neg hrs (by linarith)⟩, hr.le, hrs.le⟩
      · have := (mul_pos_iff_of_pos_left hrs).1 h
        linarith
      · by_contra hn
        push Not at hn
        have := mul_nonneg hrs.le (show 0 ≤ s * y - x by linarith)
        linarith

/-- The lines of two slopes. -/
theorem slopes_inside {e f : ℚ} (he : 0 < e) (hf : 0 < f) {range : ℚ} (hr : 0 < range) {s1 s2 : Option ℚ} (h1 : ∀ x ∈ s1, 0 ≤ x)
    (h2 : ∀ x ∈ s2, 0 ≤ x) (hlong : Long e f (slopeDir range s1) (slopeDir range s2))
    (hsk : s1 = s2 ∨ 1 / 10 ^ 8 < |(slopeDir range s1).1 * (slopeDir range s2).2 - (slopeDir range s1).2 * (slopeDir range s2).1|)
    (fill : Option ℕ) :
    ∃ g, lineParams (e, f) ⟨(0, 0), slopeDir range s1⟩ ⟨(0, 0), slopeDir range s2⟩ fill = .ok g ∧
      ∀ x y, 0 ≤ x → 0 ≤ y → (g.inside (x, y) = true ↔ BetweenSlopes s1 s2 x y) := by
  have a1 : along ⟨(0, 0), slopeDir range s1⟩ = slopeDir range s1 := by simp [along]
  have a2 : along ⟨(0, 0), slopeDir range s2⟩ = slopeDir range s2 := by simp [along]
  obtain ⟨par, hpar, hrun⟩ := lineParams_eq (l := ⟨(0, 0), slopeDir range s1⟩) (m := ⟨(0, 0), slopeDir range s2⟩) fill (by rw [a1, a2]; exact hlong)
  rw [a1, a2] at hpar hrun
  have hface : facing par fill ((slopeDir range s1).1 / e, (slopeDir range s1).2 / f) ((slopeDir range s2).1 / e, (slopeDir range s2).2 / f) =
      .ok (((slopeDir range s1).1 / e, (slopeDir range s1).2 / f), ((slopeDir range s2).1 / e, (slopeDir range s2).2 / f)) := by
    unfold facing
    rw [if_pos]
    obtain ⟨-, -, p1, p2⟩ := slope_side hr h1 (le_refl 0) (le_refl 0)
    obtain ⟨-, -, p3, p4⟩ := slope_side hr h2 (le_refl 0) (le_refl 0)
    unfold dot
    simp only
    exact add_nonneg (mul_nonneg (div_nonneg p1 he.le) (div_nonneg p3 he.le)) (mul_nonneg (div_nonneg p2 hf.le) (div_nonneg p4 hf.le))
  have horig : (if par then some ((0, 0), (0, 0)) else (intersection ⟨(0, 0), slopeDir range s1⟩ ⟨(0, 0), slopeDir range s2⟩).map fun o => (o, o)) =
      (some ((0, 0), (0, 0)) : Option ((ℚ × ℚ) × (ℚ × ℚ))) := by
    cases hb : par
    · rcases hsk with rfl | hsk
      · exfalso
        have : par = true := by
          rw [hpar]
          have pu : 0 < inner e f (slopeDir range s1) (slopeDir range s1) := lt_of_lt_of_le (by norm_num) hlong.1
          have := mul_pos pu pu
          nlinarith
        rw [hb] at this; cases this
      · obtain ⟨o, ho⟩ := intersection_skew (l := ⟨(0, 0), slopeDir range s1⟩) (m := ⟨(0, 0), slopeDir range s2⟩) (by rw [a1, a2]; exact hsk)
        have hx0 : (slopeDir range s1).1 * (slopeDir range s2).2 - (slopeDir range s1).2 * (slopeDir range s2).1 ≠ 0 := by
          intro h0
          rw [h0] at hsk
          norm_num at hsk
        obtain ⟨on1, on2⟩ := intersection_on ho
        have : o = (0, 0) := on_unique (l := ⟨(0, 0), slopeDir range s1⟩) (m := ⟨(0, 0), slopeDir range s2⟩) (by rw [a1, a2]; exact hx0) on1 on2
          ⟨0, by simp⟩ ⟨0, by simp⟩
        rw [ho, this]; rfl
    · rfl
  refine ⟨⟨some ((0, 0), (0, 0)), (e, f), ((slopeDir range s1).1 / e, (slopeDir range s1).2 / f), ((slopeDir range s2).1 / e, (slopeDir range s2).2 / f), par⟩,
    ?_, fun x y hx hy => ?_⟩
  · rw [hrun, hface, horig]
    rfl
  · unfold MuteGeo.inside MuteGeo.from
    simp only [sub_zero, Bool.and_eq_true, Bool.or_eq_true, decide_eq_true_eq]
    have e1 := cross_scale (e := e) (f := f) (slopeDir range s1) (x, y)
    have e2 := cross_scale (e := e) (f := f) (slopeDir range s2) (x, y)
    simp only at e1 e2
    have hef : 0 < e * f := mul_pos he hf
    rw [e1, e2, div_mul_div_comm, div_lt_iff₀ (mul_pos hef hef), zero_mul]
    obtain ⟨b1, c1, p1, p2⟩ := slope_side hr h1 hx hy
    obtain ⟨b2, c2, p3, p4⟩ := slope_side hr h2 hx hy
    unfold BetweenSlopes
    rw [← b1, ← b2, ← c1, ← c2, mul_neg_iff]
    set u := slopeDir range s1
    set v := slopeDir range s2
    have hdots : ∀ u v : ℚ × ℚ, 0 ≤ u.1 → 0 ≤ u.2 → 0 ≤ v.1 → 0 ≤ v.2 → 0 < u.1 * y - u.2 * x → v.1 * y - v.2 * x < 0 →
        0 < dot (u.1 / e, u.2 / f) (x / e, y / f) ∧ 0 < dot (v.1 / e, v.2 / f) (x / e, y / f) := by
      intro u v q1 q2 q3 q4 g1 g2
      have m1 := mul_nonneg q2 hx
      have m2 := mul_nonneg q3 hy
      have u1 : 0 < u.1 := by
        rcases q1.lt_or_eq with h | h
        · exact h
        · rw [← h] at g1; linarith
      have y0 : 0 < y := by
        rcases hy.lt_or_eq with h | h
        · exact h
        · rw [← h] at g1; linarith
      have v2 : 0 < v.2 := by
        rcases q4.lt_or_eq with h | h
        · exact h
        · rw [← h] at g2; linarith
      have x0 : 0 < x := by
        rcases hx.lt_or_eq with h | h
        · exact h
        · rw [← h] at g2; linarith
      unfold dot
      simp only
      constructor
      · exact add_pos_of_pos_of_nonneg (mul_pos (div_pos u1 he) (div_pos x0 he)) (mul_nonneg (div_nonneg q2 hf.le) (div_nonneg hy hf.le))
      · exact add_pos_of_nonneg_of_pos (mul_nonneg (div_nonneg q3 he.le) (div_nonneg hx he.le)) (mul_pos (div_pos v2 hf) (div_pos y0 hf))
    constructor
    · rintro ⟨⟨g1, g2⟩ | ⟨g1, g2⟩, -⟩
      · exact Or.inr ⟨g2, g1⟩
      · exact Or.inl ⟨g1, g2⟩
    · rintro (⟨g1, g2⟩ | ⟨g1, g2⟩)
      · exact ⟨Or.inr ⟨g1, g2⟩, Or.inr (hdots v u p3 p4 p1 p2 g2 g1).symm⟩
      · exact ⟨Or.inl ⟨g2, g1⟩, Or.inr (hdots u v p1 p2 p3 p4 g2 g1)⟩

end Verif
