import Verif.Proof.Interp
import Verif.Props.Calculus
import Verif.Props.Units
/-!
# C68: interpolation
-/
namespace Verif
open Spec

/-- **C68, straight lines.** Interpolating (`kind="linear"`) to given numbers gives a patch with these labels along the dimension, all other
coordinates unchanged, and each sample on the straight line through the two samples around it in the order of the labels, or the first
or last two where it lies outside; the labels need not be sorted. -/
theorem C68_linear {p q : PatchM ℚ} (hm : Regular p.cm) (hsh : p.cm.shape = p.data.shape) {d : String} (hd : Distinguished p.cm d)
    {k : Kind} {xs : List ℚ} (h : p.interpolate .linear d (some (k, xs)) = .ok q) : Regridded p q d xs ∧ OnSegments p q d xs := by
  obtain ⟨hd, k', c, hc, hn, hl⟩ := hd
  obtain ⟨s, cm, hs, hcm, rfl, hR⟩ := interpolate_spec hm hsh hd hc h
  cases hs
  exact ⟨hR, (interpAxis_spec hm hsh hd hc hn hl cm hR.dims xs).1⟩

/-- **C68, nearest.** With `kind="nearest"` each sample is that of the nearest label. -/
theorem C68_nearest {p q : PatchM ℚ} (hm : Regular p.cm) (hsh : p.cm.shape = p.data.shape) {d : String} (hd : Distinguished p.cm d)
    {k : Kind} {xs : List ℚ} (h : p.interpolate .nearest d (some (k, xs)) = .ok q) : Regridded p q d xs ∧ FromNearest p q d xs := by
  obtain ⟨hd, k', c, hc, hn, hl⟩ := hd
  obtain ⟨s, cm, hs, hcm, rfl, hR⟩ := interpolate_spec hm hsh hd hc h
  cases hs
  exact ⟨hR, (interpAxis_spec hm hsh hd hc hn hl cm hR.dims xs).2⟩

/-- **C68, success.** Interpolation to labels that can be stored always succeeds. -/
theorem C68_done {p : PatchM ℚ} (hm : Regular p.cm) (hr : Readable p.cm) (hsh : p.cm.shape = p.data.shape) {d : String}
    (hd : Distinguished p.cm d) (kind : InterpKind) (k : Kind) {xs : List ℚ} (hx : Storable xs) :
    ∃ q, p.interpolate kind d (some (k, xs)) = .ok q := by
  obtain ⟨hd, k', c, hc, hn, hl⟩ := hd
  obtain ⟨y, hy, _⟩ := C14_represents_partial k xs hx
  obtain ⟨cm, hcm⟩ := regrid_total hm hr hd (a := .nested [d] (.one k (.arr xs))) (k' := k) (xs := xs) rfl
    (y := .one k y) (by show (getCoordData k xs).map _ = _; rw [hy]; rfl)
  obtain ⟨h1, h2, h3, h4, _⟩ := regrid_regular hm hd (a := .nested [d] (.one k (.arr xs))) rfl hcm
  refine ⟨⟨cm, p.data.interpAxis kind (p.cm.dims.idxOf d) c.vals xs⟩, ?_⟩
  unfold PatchM.interpolate
  rw [if_neg (not_not.2 hd), hc]
  simp only [interpSamples, bind, Except.bind, hcm]
  unfold PatchM.new
  rw [if_pos]
  rw [h4]
  show _ = p.data.shape.set _ _
  rw [shape_dims hsh hd, map_set_idx hm.distinct]

/-- **C68, samples are kept.** Where a new label is an old label, the data are the old data, with either kind. -/
theorem C68_kept {p q : PatchM ℚ} (hm : Regular p.cm) (hsh : p.cm.shape = p.data.shape) {d : String} (hd : Distinguished p.cm d)
    {kind : InterpKind} {k : Kind} {xs : List ℚ} (h : p.interpolate kind d (some (k, xs)) = .ok q) {i j : List ℕ} {x : ℚ}
    (hi : InRange q.data.shape i) (hx : xs[posAlong q d i]? = some x) (hj : LineSample p d i j x) : q.data.get i = p.data.get j := by
  have huniq : ∀ j', LineSample p d i j' x → j' = j := by
    intro j' hj'
    obtain ⟨hd, k', c, hc, hn, hl⟩ := hd
    obtain ⟨s, cm, hs, hcm, rfl, hR⟩ := interpolate_spec hm hsh hd hc h
    cases hs
    have hnp : ∀ n, c ≠ .part n := by rintro n rfl; simp [Coord.vals] at hl
    have hls := lineSample_iff hm hsh hd hc (dim_vals_length hm hd hc hnp) hnp (n := xs.length) hi
    obtain ⟨t, rfl, ht⟩ := (hls _ _).1 hj
    obtain ⟨u, rfl, hu⟩ := (hls _ _).1 hj'
    obtain ⟨ht1, ht⟩ := List.getElem?_eq_some_iff.1 ht
    obtain ⟨hu1, hu⟩ := List.getElem?_eq_some_iff.1 hu
    rw [(List.Nodup.getElem_inj_iff hn).1 (hu.trans ht.symm)]
  cases kind with
  | linear =>
    obtain ⟨j', k', a, b, hA, he⟩ := (C68_linear hm hsh hd h).2 i hi x hx
    have hab := hA.less
    rw [he]
    rcases hA.next _ _ hj with hxa | hbx
    · have hax : a ≤ x := hA.above.elim id fun f => f _ _ hj
      have e : x = a := le_antisymm hxa hax
      subst e
      rw [sub_self, zero_div, mul_zero, add_zero, huniq _ hA.left]
    · have hxb : x ≤ b := hA.below.elim id fun f => f _ _ hj
      have e : x = b := le_antisymm hxb hbx
      subst e
      rw [div_self (show x - a ≠ 0 by intro h0; linarith), huniq _ hA.right]
      ring
  | nearest =>
    obtain ⟨j', a, hA, hmin, he⟩ := (C68_nearest hm hsh hd h).2 i hi x hx
    have := hmin _ _ hj
    rw [sub_self, abs_zero] at this
    have e : x = a := by
      have := abs_nonpos_iff.1 this
      linarith
    subst e
    rw [he, huniq _ hA]

/-- **C68, own labels.** Interpolating to the labels the patch has changes no sample. -/
theorem C68_same {p q : PatchM ℚ} (hm : Regular p.cm) (hsh : p.cm.shape = p.data.shape) {d : String} (hd : Distinguished p.cm d)
    {kind : InterpKind} {k : Kind} {c : Coord} (hc : p.cm.ents.get? d = some ([d], .one k c))
    (h : p.interpolate kind d (some (k, c.vals)) = .ok q) :
    q.data.shape = p.data.shape ∧ ∀ i, InRange p.data.shape i → q.data.get i = p.data.get i := by
  obtain ⟨hdd, k', c', hc', hn, hl⟩ := hd
  rw [hc] at hc'; cases hc'
  have hnp : ∀ n, c ≠ .part n := by rintro n rfl; simp [Coord.vals] at hl
  have hlen := dim_vals_length hm hdd hc hnp
  obtain ⟨s, cm, hs, hcm, hq, hR⟩ := interpolate_spec hm hsh hdd hc h
  cases hs
  have hshape : q.data.shape = p.data.shape := by
    rw [hR.shape, shape_dims hsh hdd]
    refine List.map_congr_left fun e he => ?_
    split_ifs with hed
    · rw [hed]; exact hlen
    · rfl
  refine ⟨hshape, fun i hi => ?_⟩
  have hpos : posAlong q d i = posAlong p d i := by unfold posAlong; rw [hR.dims]
  have hlt : posAlong p d i < c.vals.length := by
    rw [hlen]; exact posAlong_lt hsh hdd hi
  refine C68_kept hm hsh ⟨hdd, k, c, hc, hn, hl⟩ h (hshape ▸ hi) (x := c.vals[posAlong p d i]) ?_ ?_
  · rw [hpos, List.getElem?_eq_getElem hlt]
  · refine ⟨hi, fun _ _ _ => rfl, ?_⟩
    rw [label_dim hc, labels_vals hnp, List.getD_eq_getElem?_getD, List.getElem?_map, List.getElem?_eq_getElem hlt]
    rfl

/-- **C68, straight data.** Data on a straight line along the dimension stay on it, also outside of the labels. -/
theorem C68_straight {p q : PatchM ℚ} (hm : Regular p.cm) (hsh : p.cm.shape = p.data.shape) {d : String} (hd : Distinguished p.cm d)
    {k : Kind} {xs : List ℚ} (h : p.interpolate .linear d (some (k, xs)) = .ok q) {i : List ℕ} {x : ℚ} (hi : InRange q.data.shape i)
    (hx : xs[posAlong q d i]? = some x) {u v : ℚ} (hlin : ∀ j y, LineSample p d i j y → p.data.get j = u + v * y) :
    q.data.get i = u + v * x := by
  obtain ⟨j, l, a, b, hA, he⟩ := (C68_linear hm hsh hd h).2 i hi x hx
  have hab : b - a ≠ 0 := by have := hA.less; intro h; linarith
  rw [he, hlin _ _ hA.left, hlin _ _ hA.right]
  field_simp
  ring

/-- **C68, even labels.** `interpolate(dim=None)` of labels that are numbers, not all equal, gives as many labels, evenly from the least to
the greatest (or the other way round, for descending labels), and the data in between. -/
theorem C68_even {p q : PatchM ℚ} (hm : Regular p.cm) (hsh : p.cm.shape = p.data.shape) {d : String} (hd : Distinguished p.cm d)
    {k : Kind} (hk : k ≠ .time) {vs : List ℚ} {c : Coord} (hc : p.cm.ents.get? d = some ([d], .one k c)) (hcv : c = .mono vs ∨ c = .arr vs)
    {lo hi : ℚ} (hlo : IsMin vs lo) (hhi : IsMax vs hi) (h : p.interpolate .linear d none = .ok q) :
    ∃ xs, (xs = progression lo ((hi - lo) / (vs.length - 1)) vs.length ∨
        (vs.Pairwise (· > ·) ∧ xs = progression hi (-((hi - lo) / (vs.length - 1))) vs.length)) ∧ Storable xs ∧
      Regridded p q d xs ∧ OnSegments p q d xs := by
  obtain ⟨hdd, k', c', hc', hn, hl⟩ := hd
  rw [hc] at hc'; cases hc'
  have hvs : c.vals = vs := by rcases hcv with rfl | rfl <;> rfl
  rw [hvs] at hn hl
  have hne : lo < hi := by
    rcases lt_or_eq_of_le (hlo.2 _ hhi.1) with h | h
    · exact h
    · exfalso
      have h0 : vs[0] = vs[1] := by
        have a0 := hlo.2 _ (List.getElem_mem (show 0 < vs.length by omega))
        have a1 := hlo.2 _ (List.getElem_mem (show 1 < vs.length by omega))
        have b0 := hhi.2 _ (List.getElem_mem (show 0 < vs.length by omega))
        have b1 := hhi.2 _ (List.getElem_mem (show 1 < vs.length by omega))
        linarith
      have := (List.Nodup.getElem_inj_iff hn).1 h0
      omega
  obtain ⟨s, cm, hs, hcm, rfl, hR⟩ := interpolate_spec hm hsh hdd hc h
  have hst : (hi - lo) / ((vs.length : ℚ) - 1) ≠ 0 := by
    have : (2 : ℚ) ≤ vs.length := by exact_mod_cast hl
    exact div_ne_zero (by linarith) (by linarith)
  have hO := (interpAxis_spec hm hsh hdd hc (hvs ▸ hn) (hvs ▸ hl) cm hR.dims s.2).1
  refine ⟨s.2, ?_, ?_, hR, hO⟩
  all_goals
    have key : ∃ rev, s.2 = (if rev then progression hi (-((hi - lo) / (vs.length - 1))) vs.length
        else progression lo ((hi - lo) / (vs.length - 1)) vs.length) ∧ (rev = true → vs.Pairwise (· > ·)) := by
      rcases hcv with rfl | rfl
      · obtain ⟨r, h1, _, _, _, h2⟩ := C13_snap_number k hk (Coord.mono vs).isReverse vs lo hi hlo hhi hne
        unfold interpSamples snapCoord at hs
        simp only [h1, bind, Except.bind, Except.map] at hs
        cases hs
        refine ⟨_, h2, fun hr => ?_⟩
        have hw : (Coord.mono vs).Wf := hm.classes _ _ _ _ (Dict.mem_of_get? hc)
        rcases hw.1 with hw | hw
        · rw [show (Coord.mono vs).isReverse = false from isReverse_of_inc hw] at hr
          cases hr
        · exact hw
      · obtain ⟨r, h1, _, _, _, h2⟩ := C13_snap_number k hk false vs lo hi hlo hhi hne
        unfold interpSamples snapCoord at hs
        simp only [h1, bind, Except.bind, Except.map] at hs
        cases hs
        exact ⟨_, h2, fun h => by cases h⟩
    obtain ⟨rev, h1, h2⟩ := key
  · cases rev with
    | true => exact Or.inr ⟨h2 rfl, h1⟩
    | false => exact Or.inl h1
  · rw [h1]
    cases rev with
    | true => exact Or.inr (Or.inl ⟨_, _, _, neg_ne_zero.2 hst, rfl⟩)
    | false => exact Or.inr (Or.inl ⟨_, _, _, hst, rfl⟩)

/-- **C68, even labels stay.** `interpolate(dim=None)` along an evenly sampled dimension changes neither labels nor data. -/
theorem C68_even_same {p q : PatchM ℚ} (hm : Regular p.cm) (hsh : p.cm.shape = p.data.shape) {d : String} (hd : Distinguished p.cm d)
    {kind : InterpKind} {k : Kind} {r : RangeCoord} (hc : p.cm.ents.get? d = some ([d], .one k (.range r)))
    (h : p.interpolate kind d none = .ok q) :
    q.data.shape = p.data.shape ∧ ∀ i, InRange p.data.shape i → q.data.get i = p.data.get i ∧ label q d i = label p d i := by
  have h' : p.interpolate kind d (some (k, (Coord.range r).vals)) = .ok q := by
    rw [← h]
    unfold PatchM.interpolate
    rw [hc]
    rfl
  obtain ⟨h1, h2⟩ := C68_same hm hsh hd hc h'
  obtain ⟨s, cm, hs, hcm, hq, hR⟩ := interpolate_spec hm hsh hd.1 hc h'
  cases hs
  refine ⟨h1, fun i hi => ⟨h2 i hi, ?_⟩⟩
  have hw : (Coord.range r).Wf := hm.classes _ _ _ _ (Dict.mem_of_get? hc)
  have hst : Storable (Coord.range r).vals := Or.inr (Or.inl ⟨_, _, _, hw.1, hw.values_eq⟩)
  rw [hR.own hst i (h1 ▸ hi), label_dim hc]
  have hpos : posAlong q d i = posAlong p d i := by unfold posAlong; rw [hR.dims]
  rw [hpos, labels_vals (by rintro n ⟨⟩), List.getD_eq_getElem?_getD, List.getElem?_map]
  cases (Coord.range r).vals[posAlong p d i]? <;> rfl

theorem exField_times : Distinguished exField.cm "time" := ⟨by decide, .time, _, rfl, by decide +kernel, by decide +kernel⟩
theorem exField_places : Distinguished exField.cm "distance" := ⟨by decide, .float, _, rfl, by decide +kernel, by decide +kernel⟩

theorem exUnlike : Storable [500000000, 2000000000, 4000000000] := by
  refine Or.inr (Or.inr (Or.inr ?_))
  rintro ⟨m, h⟩
  have h1 := h 0 _ _ rfl rfl
  have h2 := h 1 _ _ rfl rfl
  rw [abs_le] at h1 h2
  rcases abs_cases m with ⟨hm, _⟩ | ⟨hm, _⟩ <;> rw [hm] at h1 h2 <;> linarith [h1.1, h1.2, h2.1, h2.2]
example : Regular exField.cm ∧ Readable exField.cm ∧ exField.cm.shape = exField.data.shape ∧ Distinguished exField.cm "time" ∧
    Storable [500000000, 2000000000, 4000000000] ∧ LineSample exField "time" [1, 0] [1, 2] 3000000000 ∧
    (exField.interpolate .linear "time" (some (.time, [500000000, 2000000000, 4000000000]))).map
      (fun q => (q.data.get [1, 0], q.data.get [1, 1], q.data.get [1, 2])) = .ok (10 + 1 / 2, 10 + 5, 10 + 13) ∧
    (exField.interpolate .nearest "time" (some (.time, [400000000, 2100000000, 4000000000]))).map
      (fun q => (q.data.get [1, 0], q.data.get [1, 1], q.data.get [1, 2])) = .ok (10, 19, 19) :=
  ⟨exField_regular, exField_readable, exField_shape, exField_times, exUnlike, ⟨by unfold InRange; decide +kernel, by unfold SameLine; decide +kernel, by decide +kernel⟩, by decide +kernel, by decide +kernel⟩

example : (exField.interpolate .linear "time" none).map (fun q => (q.data.get [0, 1], label q "time" [0, 1])) = .ok (3, some (some 1500000000)) ∧
    (exField.interpolate .linear "distance" none).map (fun q => q.data.get [2, 1]) = .ok (exField.data.get [2, 1]) := by decide +kernel

/-- Labels of a number dimension which are not even. -/
def exFan : PatchM ℚ := ⟨⟨["distance"], [("distance", ["distance"], .one .float (.mono [9, 4, 3, 1]))]⟩, [4], fun i => 10 * (i.getD 0 0 : ℚ)⟩
theorem exFan_regular : Regular exFan.cm := by
  refine ⟨CM.mk?_wf (m := exFan.cm) (if_pos (by decide +kernel)) (by decide +kernel), by unfold DistinctDims; decide +kernel, ?_, ?_, ?_⟩
  · intro name ds c h
    simp only [exFan, List.mem_cons, Prod.mk.injEq, List.not_mem_nil, or_false] at h
    obtain ⟨_, rfl, _⟩ := h; decide
  · intro name ds k c h
    simp only [exFan, List.mem_cons, Prod.mk.injEq, List.not_mem_nil, or_false] at h
    obtain ⟨_, _, h⟩ := h; cases h
    exact ⟨Or.inr (by decide +kernel), by simp⟩
  · have : exFan.cm.ents.keys.all (fun n => matchesPrefixSuffix exFan.cm.dims n == false) = true := by decide +kernel
    rw [List.all_eq_true] at this
    intro n hn
    simpa using this n hn
example : exFan.cm.shape = exFan.data.shape ∧ Distinguished exFan.cm "distance" ∧ IsMin [9, 4, 3, 1] 1 ∧ IsMax [9, 4, 3, 1] 9 ∧
    (exFan.interpolate .linear "distance" none).map (fun q => (label q "distance" [1], q.data.get [1])) =
      .ok (some (some (9 - 8 / 3)), 10 * (8 / 15)) := by
  refine ⟨by decide +kernel, ⟨by decide, .float, _, rfl, by decide +kernel, by decide +kernel⟩, ?_, ?_, by decide +kernel⟩
  · exact ⟨by simp, by intro x hx; simp at hx; rcases hx with rfl | rfl | rfl | rfl <;> norm_num⟩
  · exact ⟨by simp, by intro x hx; simp at hx; rcases hx with rfl | rfl | rfl | rfl <;> norm_num⟩

/-- **C68, violated: seconds.** The other functions of a patch take numbers for a time dimension as seconds. Here they are taken as
nanoseconds and become the labels: the value of the field `t²` one second after the start is 1, but interpolating to `time=[1.0]` gives
0.000000001, in a patch whose time labels are floats. -/
theorem C68_seconds_violated :
    (exField.interpolate .linear "time" (some (.float, [1]))).map
      (fun q => (q.data.get [0, 0], label q "time" [0, 0], q.cm.ents.map fun e => match e.2.2 with | .one k _ => some k | _ => none)) =
      .ok (1 / 1000000000, some (some 1), [some .float, some .float, some .float]) ∧ exField.data.get [0, 1] = 1 ∧
      label exField "time" [0, 1] = some (some 1000000000) := by decide +kernel

/-- **C68, violated: units.** The new coordinate has no units whatever units the old one had: unless the labels are times, they are lost. -/
theorem C68_units_violated (k : Kind) (hk : k ≠ .time) (xs : List ℚ) (hx : Storable xs) :
    ∃ u, interpUCoord k xs = .ok u ∧ u.coord.labels = xs.map some ∧ u.units = none := by
  obtain ⟨c, hc, hv⟩ := C14_represents_partial k xs hx
  refine ⟨(⟨k, c, none⟩ : UCoord).setLabeled none, ?_, ?_, ?_⟩
  · simp only [interpUCoord, bind, Except.bind, hc]; rfl
  · exact hv.1
  · cases k <;> first | rfl | exact absurd rfl hk
example : Storable [500000000, 2000000000, 4000000000] := exUnlike

end Verif
