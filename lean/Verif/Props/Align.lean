import Verif.Proof.Align
import Verif.Props.PatchOps
/-!
# Aligning traces (C44)

`Spec.Aligned` says where the samples and labels are, `Spec.ShiftOk` how many samples a requested shift is and `Spec.MovedTo`
that a sample is found under a label some steps further.
-/
namespace Verif
open Spec

/-- A shift along `distance` for each of two times. -/
def exLag : CM := ⟨["time", "distance"],
  [("time", ["time"], .one .int (.arr [3, 1])), ("distance", ["distance"], .one .int (.range exUp)),
   ("lag", ["time"], .one .int (.mono [2, -1])), ("lat", ["distance"], .one .int (.mono [9, 4, 3, 1]))]⟩

theorem exLag_ok : exLag.dims.all (dimOk exLag.ents) && exLag.ents.all (fun p => entryOk exLag.dims exLag.ents p.2.1 p.2.2) = true := by
  decide +kernel

theorem exLag_regular : Regular exLag := by
  refine ⟨CM.mk?_wf (if_pos exLag_ok) (by decide +kernel), by unfold DistinctDims; decide +kernel, ?_, ?_, ?_⟩
  · intro name ds c h
    simp only [exLag, List.mem_cons, Prod.mk.injEq, List.not_mem_nil, or_false] at h
    rcases h with ⟨_, rfl, _⟩ | ⟨_, rfl, _⟩ | ⟨_, rfl, _⟩ | ⟨_, rfl, _⟩ <;> decide
  · intro name ds k c h
    simp only [exLag, List.mem_cons, Prod.mk.injEq, List.not_mem_nil, or_false] at h
    rcases h with ⟨_, _, h⟩ | ⟨_, _, h⟩ | ⟨_, _, h⟩ | ⟨_, _, h⟩ <;> cases h
    · simp [Coord.Wf]
    · exact exUp_built.valid
    · exact ⟨Or.inr (by decide +kernel), by simp⟩
    · exact ⟨Or.inr (by decide +kernel), by simp⟩
  · have : exLag.ents.keys.all (fun n => matchesPrefixSuffix exLag.dims n == false) = true := by decide +kernel
    rw [List.all_eq_true] at this
    intro n hn
    simpa using this n hn

def exLagPatch : PatchM ℕ := ⟨exLag, [2, 4], fun i => 10 * i.getD 0 0 + i.getD 1 0⟩

/-- A label on a coordinate which is not attached to `dim` does not depend on the place along `dim`. -/
theorem label_set {α} (p : PatchM α) {dim name : String} {ds : List String} {c : MCoord} (hn : p.cm.ents.get? name = some (ds, c))
    (hd : dim ∉ ds) (i : List ℕ) (x : ℕ) (hdim : dim ∈ p.cm.dims) : label p name (i.set (p.cm.dims.idxOf dim) x) = label p name i := by
  unfold label
  rw [hn]
  cases ds with
  | nil => rfl
  | cons d0 ds =>
    simp only
    unfold labelAt
    congr 2
    refine List.map_congr_left fun d hd' => ?_
    rw [List.getD_eq_getElem?_getD, List.getD_eq_getElem?_getD, List.getElem?_set_ne]
    intro h
    have : dim = d := List.idxOf_inj hdim |>.1 h
    exact hd (this ▸ hd')

/-- C44. If the alignment succeeds, each trace is moved by the number of samples its shift amounts to; `same` keeps the
coordinate of the dimension. Missing: that it succeeds, see the violations. -/
theorem C44_aligned_partial {α β} {cast : α → β} {fill : β} {p : PatchM α} {q : PatchM β} (hm : Regular p.cm) (hd : p.cm.dims ≠ [])
    (hsh : p.cm.shape = p.data.shape) {dim name : String} (hatt : ∀ c, p.cm.ents.get? name ≠ some ([], c)) {mode : AlignMode}
    {samples isInt reverse : Bool} (h : p.alignToCoord cast fill dim name mode samples isInt reverse = .ok q) :
    ∃ k c g first n, p.cm.ents.get? dim = some ([dim], .one k (.range c)) ∧ Aligned cast fill p q dim name g first n ∧
      (∀ i v, InRange p.data.shape i → label p name i = some (some v) → ShiftOk c samples (if reverse then -1 else 1) v (g v)) ∧
      (mode = .same → first = 0 ∧ n = lenDim p.cm dim) := by
  obtain ⟨k, c, g, first, n, h1, _, _, _, _, h2, h3, h4, _⟩ := align_spec hm hd hsh hatt h
  exact ⟨k, c, g, first, n, h1, h2, h3, h4⟩

/-- C44. In `full` mode every sample is found again, under its label moved by its trace's shift. -/
theorem C44_full {α β} {cast : α → β} {fill : β} {p : PatchM α} {q : PatchM β} (hm : Regular p.cm) (hd : p.cm.dims ≠ [])
    (hsh : p.cm.shape = p.data.shape) {dim name : String} (hatt : ∀ c, p.cm.ents.get? name ≠ some ([], c))
    {samples isInt reverse : Bool} (h : p.alignToCoord cast fill dim name .full samples isInt reverse = .ok q) :
    ∃ k c, p.cm.ents.get? dim = some ([dim], .one k (.range c)) ∧ ∀ i v, InRange p.data.shape i → label p name i = some (some v) →
      ∃ s j, ShiftOk c samples (if reverse then -1 else 1) v s ∧ InRange q.data.shape j ∧ MovedTo p q dim c s i j ∧
        q.data.get j = cast (p.data.get i) := by
  obtain ⟨k, c, g, first, n, h1, hs, hdim, hne, ⟨ds, mc, hn, hds⟩, h2, h3, _, h4, _⟩ := align_spec hm hd hsh hatt h
  refine ⟨k, c, h1, fun i v hi hv => ?_⟩
  obtain ⟨g1, g2⟩ := h4 rfl i v hi hv
  have hshape : p.data.shape = p.cm.dims.map p.cm.ents.lenOf := by
    rw [← hsh]; unfold CM.shape; rw [if_neg hd]
  have hax : p.cm.dims.idxOf dim < i.length := by
    rw [inRange_length hi, hshape]; simpa using List.idxOf_lt_length_of_mem hdim
  have hpos : posAlong p dim i < lenDim p.cm dim := by
    rw [hshape] at hi; exact inRange_getD hi hdim
  obtain ⟨x, hx⟩ : ∃ x : ℕ, (posAlong p dim i : ℤ) + g v - first = x := Int.eq_ofNat_of_zero_le g1
  set j := i.set (p.cm.dims.idxOf dim) x with hj
  have hjx : posAlong p dim j = x := by
    unfold posAlong
    rw [hj, List.getD_eq_getElem?_getD, List.getElem?_set, if_pos rfl, if_pos hax]; rfl
  have hjr : InRange q.data.shape j := by
    rw [h2.shape]
    rw [hshape] at hi
    unfold InRange at hi ⊢
    rw [List.forall₂_iff_get] at hi ⊢
    refine ⟨by rw [hj, List.length_set, hi.1]; simp, fun t t1 t2 => ?_⟩
    simp only [List.length_map] at t2
    have := hi.2 t (by rw [hi.1]; simpa using t2) (by simpa using t2)
    simp only [List.get_eq_getElem, List.getElem_map] at this ⊢
    simp only [hj, List.getElem_set]
    by_cases he : p.cm.dims[t] = dim
    · rw [if_pos he, if_pos (by rw [← he]; exact hm.distinct.idxOf_getElem t t2)]
      omega
    · rw [if_neg he, if_neg (by
        intro h; apply he; rw [← List.getElem_idxOf (List.idxOf_lt_length_of_mem hdim)]; simp [← h])]
      exact this
  have hjl : label p name j = some (some v) := by rw [hj, label_set p hn hds i x hdim, hv]
  refine ⟨g v, j, h3 i v hi hv, hjr, ⟨⟨x, rfl⟩, c.start + posAlong p dim i * c.step, ?_, ?_⟩, ?_⟩
  · have hv' : c.Valid := hm.classes _ _ _ _ (Dict.mem_of_get? h1)
    unfold label
    rw [h1]
    have hl : c.len = lenDim p.cm dim := (dim_one hm hdim h1).2
    simp only
    rw [labelAt_own (k := k) hv' (by rw [hl]; exact hpos)]
    rfl
  · rw [h2.own k c h1 j hjr, hjx]
    congr 2
    have : (g v : ℚ) = x + first - posAlong p dim i := by exact_mod_cast (by omega : g v = (x : ℤ) + first - posAlong p dim i)
    rw [this]; push_cast; ring
  · rw [h2.data j v hjr hjl (posAlong p dim i) (by rw [hjx]; omega), if_pos ⟨by omega, by exact_mod_cast hpos⟩]
    congr 2
    rw [Int.toNat_natCast, hj, List.set_set]
    unfold posAlong
    apply List.ext_getElem (by simp)
    intro t t1 t2
    rw [List.getElem_set]
    split_ifs with he
    · subst he
      rw [List.getD_eq_getElem?_getD, List.getElem?_eq_getElem hax]; rfl
    · rfl

/-- C44. In `valid` mode every sample of the result is a sample of the patch: nothing is filled in. -/
theorem C44_valid {α β} {cast : α → β} {fill : β} {p : PatchM α} {q : PatchM β} (hm : Regular p.cm) (hd : p.cm.dims ≠ [])
    (hsh : p.cm.shape = p.data.shape) {dim name : String} (hatt : ∀ c, p.cm.ents.get? name ≠ some ([], c))
    {samples isInt reverse : Bool} (h : p.alignToCoord cast fill dim name .valid samples isInt reverse = .ok q) :
    ∃ k c, p.cm.ents.get? dim = some ([dim], .one k (.range c)) ∧ ∀ j, InRange q.data.shape j → ∃ v s i, label p name j = some (some v) ∧
      label p name i = some (some v) ∧ ShiftOk c samples (if reverse then -1 else 1) v s ∧ InRange p.data.shape i ∧ MovedTo p q dim c s i j ∧
        q.data.get j = cast (p.data.get i) := by
  obtain ⟨k, c, g, first, n, h1, hs, hdim, hne, ⟨ds, mc, hn, hds⟩, h2, h3, _, _, h4, _⟩ := align_spec hm hd hsh hatt h
  refine ⟨k, c, h1, fun j hj => ?_⟩
  obtain ⟨v, hv⟩ := h2.value j hj
  obtain ⟨g1, g2⟩ := h4 rfl j v hj hv
  have hshape : p.data.shape = p.cm.dims.map p.cm.ents.lenOf := by
    rw [← hsh]; unfold CM.shape; rw [if_neg hd]
  have hj' := hj
  rw [h2.shape] at hj'
  have hax : p.cm.dims.idxOf dim < j.length := by
    rw [inRange_length hj']; simpa using List.idxOf_lt_length_of_mem hdim
  obtain ⟨x, hx⟩ : ∃ x : ℕ, (posAlong p dim j : ℤ) + first - g v = x := Int.eq_ofNat_of_zero_le g1
  set i := j.set (p.cm.dims.idxOf dim) x with hi
  have hix : posAlong p dim i = x := by
    unfold posAlong
    rw [hi, List.getD_eq_getElem?_getD, List.getElem?_set, if_pos rfl, if_pos hax]; rfl
  have hir : InRange p.data.shape i := by
    rw [hshape]
    unfold InRange at hj' ⊢
    rw [List.forall₂_iff_get] at hj' ⊢
    refine ⟨by rw [hi, List.length_set, hj'.1]; simp, fun t t1 t2 => ?_⟩
    simp only [List.length_map] at t2
    have := hj'.2 t (by rw [hj'.1]; simpa using t2) (by simpa using t2)
    simp only [List.get_eq_getElem, List.getElem_map] at this ⊢
    simp only [hi, List.getElem_set]
    by_cases he : p.cm.dims[t] = dim
    · rw [he, if_pos (by rw [← he]; exact hm.distinct.idxOf_getElem t t2)]
      have : p.cm.ents.lenOf dim = lenDim p.cm dim := rfl
      omega
    · rw [if_neg (by
        intro h; apply he; rw [← List.getElem_idxOf (List.idxOf_lt_length_of_mem hdim)]; simp [← h])]
      rw [if_neg he] at this
      exact this
  have hil : label p name i = some (some v) := by rw [hi, label_set p hn hds j x hdim, hv]
  refine ⟨v, g v, i, hv, hil, h3 i v hir hil, hir, ⟨⟨posAlong p dim j, ?_⟩, c.start + x * c.step, ?_, ?_⟩, ?_⟩
  · rw [hi, List.set_set]
    unfold posAlong
    apply List.ext_getElem (by simp)
    intro t t1 t2
    rw [List.getElem_set]
    split_ifs with he
    · subst he
      rw [List.getD_eq_getElem?_getD, List.getElem?_eq_getElem hax]; rfl
    · rfl
  · have hv' : c.Valid := hm.classes _ _ _ _ (Dict.mem_of_get? h1)
    unfold label
    rw [h1]
    have hl : c.len = lenDim p.cm dim := (dim_one hm hdim h1).2
    simp only
    have hpi : i.getD (p.cm.dims.idxOf dim) 0 = x := hix
    rw [labelAt_own (k := k) hv' (by rw [hl, hpi]; omega), hpi]
  · rw [h2.own k c h1 j hj]
    congr 2
    have : (g v : ℚ) = posAlong p dim j + first - x := by exact_mod_cast (by omega : g v = (posAlong p dim j : ℤ) + first - x)
    rw [this]; push_cast; ring
  · rw [h2.data j v hj hv x (by omega), if_pos ⟨by omega, by omega⟩]
    rfl

/-- C44. Aligning in `full` mode and then again with `reverse`, by shifts which are whole numbers of samples, brings every
sample back to its label. -/
theorem C44_reverse {α β γ} {cast : α → β} {cast' : β → γ} {fill : β} {fill' : γ} {p : PatchM α} {q : PatchM β} {r : PatchM γ}
    (hm : Regular p.cm) (hd : p.cm.dims ≠ []) (hsh : p.cm.shape = p.data.shape) {dim name : String}
    (hatt : ∀ c, p.cm.ents.get? name ≠ some ([], c)) (hst : ∀ ds k x, p.cm.ents.get? name = some (ds, .one k x) → Storable x.vals)
    {samples isInt isInt' reverse : Bool} (h : p.alignToCoord cast fill dim name .full samples isInt reverse = .ok q)
    (h' : q.alignToCoord cast' fill' dim name .full samples isInt' (!reverse) = .ok r) :
    ∃ k c, p.cm.ents.get? dim = some ([dim], .one k (.range c)) ∧ ∀ i v, InRange p.data.shape i → label p name i = some (some v) →
      (∃ m : ℤ, v = if samples then (m : ℚ) else m * c.step) →
      ∃ j, InRange r.data.shape j ∧ (∃ x, j = i.set (p.cm.dims.idxOf dim) x) ∧ label r dim j = label p dim i ∧
        r.data.get j = cast' (cast (p.data.get i)) := by
  obtain ⟨k, c, hc, hf⟩ := C44_full hm hd hsh hatt h
  refine ⟨k, c, hc, fun i v hi hv ⟨m, hmv⟩ => ?_⟩
  obtain ⟨s, j, s1, hj, ⟨⟨x, e1⟩, t, e2, e3⟩, e4⟩ := hf i v hi hv
  obtain ⟨k2, c2, g, first, n, hc2, hstep, hdim, hne, ⟨ds, mc, hn, hds⟩, hA, _, _, hfull, _, hq, hqs⟩ := align_spec hm hd hsh hatt h
  rw [hc] at hc2; cases hc2
  have hvq : label q name j = some (some v) := by
    rw [hA.labels name ds mc hn hds (fun k x e => hst ds k x (e ▸ hn)) j hj, e1, label_set p hn hds i x hdim, hv]
  have hattq : ∀ c, q.cm.ents.get? name ≠ some ([], c) := by
    intro c hc'
    unfold label at hvq
    rw [hc'] at hvq; cases hvq
  have hn0 : n ≠ 0 := by
    obtain ⟨g1, g2⟩ := hfull rfl i v hi hv
    omega
  obtain ⟨e, f1, f2, f3, f4⟩ := hA.coord k c hc hn0
  obtain ⟨k3, c3, hc3, hf3⟩ := C44_full hq (by rw [hA.dims]; exact hd) hqs hattq h'
  rw [f1] at hc3; cases hc3
  obtain ⟨s', l, s2, hl, ⟨⟨y, d1⟩, t', d2, d3⟩, d4⟩ := hf3 j v hj hvq
  refine ⟨l, hl, ⟨y, ?_⟩, ?_, by rw [d4, e4]⟩
  · rw [d1, e1, hA.dims, List.set_set]
  · rw [e3] at d2
    simp only [Option.some.injEq] at d2
    have hss : s' = -s := by
      cases samples with
      | true =>
        rw [if_pos rfl] at hmv
        rw [s1.inSamples rfl m hmv, s2.inSamples rfl m hmv]
        cases reverse <;> simp
      | false =>
        simp only [Bool.false_eq_true, if_false] at hmv
        rw [s1.grid rfl m hmv, s2.grid rfl m (by rw [f3]; exact hmv)]
        cases reverse <;> simp
    rw [d3, e2, ← d2, hss, f3]
    congr 2
    push_cast; ring

/-- The hypotheses are met: shifts by 2 and -1 samples. -/
example : Regular exLagPatch.cm ∧ exLagPatch.cm.dims ≠ [] ∧ exLagPatch.cm.shape = exLagPatch.data.shape ∧
    (∀ c, exLagPatch.cm.ents.get? "lag" ≠ some ([], c)) ∧
    (exLagPatch.alignToCoord id 99 "distance" "lag" .full true true false).map (fun q => (q.data.shape, (List.range 7).map fun x => q.data.get [0, x])) =
      .ok ([2, 7], [99, 99, 99, 0, 1, 2, 3]) ∧
    (exLagPatch.alignToCoord id 99 "distance" "lag" .full true true false).map (fun q => ((List.range 7).map fun x => q.data.get [1, x])) =
      .ok [10, 11, 12, 13, 99, 99, 99] ∧
    (exLagPatch.alignToCoord id 99 "distance" "lag" .full true true false).map (fun q => (label q "distance" [0, 0], label q "lag" [1, 0], label q "lat" [0, 0])) =
      .ok (some (some 2), some (some (-1)), none) :=
  ⟨exLag_regular, by decide, by decide +kernel, (fun c h => nomatch h), by decide +kernel, by decide +kernel, by decide +kernel⟩

example : (exLagPatch.alignToCoord id 99 "distance" "lag" .valid true true false).map (fun q => (q.data.shape, q.data.get [0, 0], q.data.get [1, 0], label q "distance" [0, 0])) =
      .ok ([2, 1], 0, 13, some (some 11)) ∧
    (exLagPatch.alignToCoord id 99 "distance" "lag" .same true true false).map (fun q => (q.data.shape, (List.range 4).map fun x => q.data.get [0, x])) =
      .ok ([2, 4], [99, 99, 0, 1]) ∧
    ((exLagPatch.alignToCoord id 99 "distance" "lag" .full true true false).bind fun q =>
      q.alignToCoord id 98 "distance" "lag" .full true true true).map (fun r => (r.data.shape, (List.range 10).map fun x => r.data.get [0, x])) =
      .ok ([2, 10], [99, 99, 99, 0, 1, 2, 3, 98, 98, 98]) := by
  refine ⟨by decide +kernel, by decide +kernel, by decide +kernel⟩

/-- `exLagPatch` with other shifts. -/
def lagged (l : List ℚ) (c : RangeCoord) : PatchM (Option ℚ) :=
  ⟨⟨["time", "distance"], [("time", ["time"], .one .int (.arr [3, 1])), ("distance", ["distance"], .one .int (.range c)),
    ("lag", ["time"], .one .int (.mono l))]⟩, [2, 4], fun i => some (10 * (i.getD 0 0 : ℚ) + i.getD 1 0 + 1 / 2)⟩

/-- C44. How far a trace is moved depends on the other traces: a shift of 1, a third of the step, moves it by one sample, but not
at all if another trace is shifted by more than the length of the coordinate. -/
theorem C44_others_violated :
    ((lagged [1, 2] exUp).alignToCoord id none "distance" "lag" .full false true false).map (fun q => (label q "distance" [0, 0], q.data.get [0, 0])) =
      .ok (some (some 8), some (1 / 2)) ∧
    ((lagged [1, 30] exUp).alignToCoord id none "distance" "lag" .full false true false).map (fun q => (label q "distance" [0, 0], q.data.get [0, 0])) =
      .ok (some (some 5), some (1 / 2)) := by
  constructor <;> decide +kernel

/-- C44. With a fill value which is an integer the result has integer type: the data lose their fractions. -/
theorem C44_fill_violated :
    (lagged [1, 2] exUp).data.get [0, 0] = some (1 / 2) ∧
    ((lagged [1, 2] exUp).alignToCoord castToInt (some 0) "distance" "lag" .full true true false).map (fun q => q.data.get [0, 0]) = .ok (some 0) := by
  constructor <;> decide +kernel

/-- C44. No time is common to all traces if they are moved apart by more than their length: `valid` raises a `ValueError` then,
although a result with no samples is given if they are moved by exactly their length. A decreasing coordinate cannot be aligned. -/
theorem C44_raises_violated :
    ((lagged [3, -2] exUp).alignToCoord id none "distance" "lag" .valid true true false).map (fun q => q.data.shape) = .error .valueError ∧
    ((lagged [3, -1] exUp).alignToCoord id none "distance" "lag" .valid true true false).map (fun q => q.data.shape) = .ok [2, 0] ∧
    ((lagged [1, 2] exDown).alignToCoord id none "distance" "lag" .full true true false).map (fun q => q.data.shape) = .error .coordError := by
  refine ⟨?_, ?_, ?_⟩ <;> decide +kernel

end Verif
