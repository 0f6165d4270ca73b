import Verif.Proof.Where
import Verif.Props.Arith
/-! # Choosing between samples (C92) -/
namespace Verif
open Spec

variable {α : Type}

theorem broadcastLen_left {a c : ℕ} : Nd.broadcastLen a c = .ok a ↔ c = 1 ∨ c = a := by
  unfold Nd.broadcastLen
  split_ifs with h1 h2 h3
  · simp [h1]
  · subst h2
    constructor
    · intro h; cases h; exact Or.inr rfl
    · rintro (h | h) <;> rw [h]
  · simp [h3]
  · constructor
    · intro h; cases h
    · rintro (h | h)
      · exact absurd h h3
      · exact absurd h.symm h1

theorem zip_left {l : List ℕ} : ∀ {x : List ℕ}, x.length = l.length →
    ((l.zip x).mapM (fun p : ℕ × ℕ => Nd.broadcastLen p.1 p.2) = .ok l ↔ ∀ t < l.length, x.getD t 0 = 1 ∨ x.getD t 0 = l.getD t 0) := by
  induction l with
  | nil => intro x _; exact ⟨fun _ t ht => absurd ht (Nat.not_lt_zero t), fun _ => rfl⟩
  | cons a l ih =>
    intro x hx
    obtain ⟨c, x, rfl⟩ : ∃ c x', x = c :: x' := by cases x with
      | nil => cases hx
      | cons c x => exact ⟨c, x, rfl⟩
    have hx' : x.length = l.length := by simpa using hx
    rw [List.zip_cons_cons, List.mapM_cons]
    constructor
    · intro h
      simp only [bind, Except.bind] at h
      split at h
      · cases h
      rename_i u hu
      split at h
      · cases h
      rename_i us hus
      have : u = a ∧ us = l := by cases h; exact ⟨rfl, rfl⟩
      obtain ⟨rfl, rfl⟩ := this
      intro t ht
      cases t with
      | zero => exact broadcastLen_left.1 hu
      | succ t => exact (ih hx').1 hus t (by simpa using ht)
    · intro h
      have h0 := h 0 (by simp)
      have h1 := (ih hx').2 fun t ht => h (t + 1) (by simpa using ht)
      have h2 := broadcastLen_left.2 (show c = 1 ∨ c = a from h0)
      rw [h2, h1]; rfl

theorem broadcastShapes_left {a c : List ℕ} : Nd.broadcastShapes a c = .ok a ↔ FitsIn c a := by
  constructor
  · intro h
    have hl := broadcastShapes_length h
    have hle : c.length ≤ a.length := by omega
    unfold Nd.broadcastShapes at h
    rw [show c.length - a.length = 0 by omega, List.replicate_zero, List.nil_append] at h
    rw [zip_left (by simp; omega)] at h
    refine ⟨hle, fun t ht => ?_⟩
    have := h (a.length - c.length + t) (by omega)
    rwa [List.getD_eq_getElem?_getD, List.getElem?_append_right (by simp), List.length_replicate, Nat.add_sub_cancel_left,
      ← List.getD_eq_getElem?_getD] at this
  · rintro ⟨hle, h⟩
    unfold Nd.broadcastShapes
    rw [show c.length - a.length = 0 by omega, List.replicate_zero, List.nil_append, zip_left (by simp; omega)]
    intro t ht
    by_cases h1 : t < a.length - c.length
    · left
      rw [List.getD_eq_getElem?_getD, List.getElem?_append_left (by simpa using h1), List.getElem?_replicate, if_pos h1]; rfl
    · have := h (t - (a.length - c.length)) (by omega)
      rw [show a.length - c.length + (t - (a.length - c.length)) = t by omega] at this
      rwa [List.getD_eq_getElem?_getD, List.getElem?_append_right (by simpa using h1), List.length_replicate, ← List.getD_eq_getElem?_getD]

/-- **C92** (the condition is a patch; what is missing: `Joinable` and `Labelled`, and the fill samples are an array or a scalar). The result has
the samples of the patch that have a counterpart in the condition, those with the same labels, and no others; it is the sample of the patch where
this counterpart is true and the fill sample elsewhere. -/
theorem C92_condition_partial (argsort : List ℚ → List ℕ) (ha : IsArgsort argsort) (p r : PatchM α) (cond : PatchM Bool) (other : Nd α)
    (hp : Plain p) (hc : Plain cond) (hJ : Joinable p.cm cond.cm) (ho : Overlays p.cm cond.cm) (hl : Labelled p.cm)
    (h : p.where argsort true (.patch cond) (.array other) = .ok r) :
    FitsIn other.shape r.data.shape ∧ Picked (fun i a c => if c then a else other.get (castTo other.shape i)) p cond r := by
  unfold PatchM.where PatchM.alignWith at h
  simp only [bind, Except.bind] at h
  split at h
  · cases h
  rename_i x hx
  obtain ⟨ab, hab, rfl⟩ := except_map_ok hx
  simp only [PatchM.alignOther, if_true] at h
  obtain ⟨P, Q, hL⟩ := alignPatches_laidOut ha hp.regular hc.regular hp.listed hc.listed hp.ne hc.ne hp.shape hc.shape hJ (overlays_equals ho) hab
  obtain ⟨h1, h2, h3, h4, h5, h6, h7⟩ := choose_new (p := ab.1) (c := ab.2.data) (b := other) hL.left.csh h
  refine ⟨by rw [h2]; exact broadcastShapes_left.1 h4, laidOut_picked hp hc hJ ho hl hL h1 h2 h3 ?_⟩
  intro i hi
  rw [h2] at hi
  have hil := inRange_length hi
  have hlen : ab.1.data.shape.length = ab.2.data.shape.length := by rw [hL.left.shape, hL.right.shape]; simp
  rw [h7 i hi, castTo_full (by rw [hil, ← hlen]), clip_same hi]

/-- **C92** (the fill samples are a patch; what is missing: `Joinable` and `Labelled`, and the condition is an array). The result has the samples of
the patch that have a counterpart in the other patch, those with the same labels, and no others; it is the sample of the patch where the condition
is true and this counterpart elsewhere. The condition is that at the position in the result: see `C92_position_violated`. -/
theorem C92_other_partial (argsort : List ℚ → List ℕ) (ha : IsArgsort argsort) (p r : PatchM α) (cond : Nd Bool) (other : PatchM α)
    (hp : Plain p) (hq : Plain other) (hJ : Joinable p.cm other.cm) (ho : Overlays p.cm other.cm) (hl : Labelled p.cm)
    (h : p.where argsort true (.array cond) (.patch other) = .ok r) :
    FitsIn cond.shape r.data.shape ∧ Picked (fun i a b => if cond.get (castTo cond.shape i) then a else b) p other r := by
  unfold PatchM.where PatchM.alignWith PatchM.alignOther at h
  simp only [bind, Except.bind] at h
  split at h
  · cases h
  rename_i s hs
  split at hs
  · cases hs
  rename_i ab hab
  simp only [PatchM.alignWith, pure, Except.pure] at hs
  cases hs
  simp only [if_true] at h
  obtain ⟨P, Q, hL⟩ := alignPatches_laidOut ha hp.regular hq.regular hp.listed hq.listed hp.ne hq.ne hp.shape hq.shape hJ (overlays_equals ho) hab
  obtain ⟨h1, h2, h3, h4, h5, h6, h7⟩ := choose_new (p := ab.1) (c := cond) (b := ab.2.data) hL.left.csh h
  refine ⟨by rw [h2]; exact broadcastShapes_left.1 h3, laidOut_picked hp hq hJ ho hl hL h1 h2 h4 ?_⟩
  intro i hi
  rw [h2] at hi
  have hil := inRange_length hi
  have hlen : ab.1.data.shape.length = ab.2.data.shape.length := by rw [hL.left.shape, hL.right.shape]; simp
  rw [h7 i hi, castTo_full (s := ab.2.data.shape) (by rw [hil, ← hlen]), clip_same hi]

theorem choose_total {p : PatchM α} {c : Nd Bool} {b : Nd α} (hcs : p.cm.shape = p.data.shape) (h1 : FitsIn c.shape p.data.shape)
    (h2 : FitsIn b.shape p.data.shape) : ∃ r, (do let a ← Nd.choose c p.data b; PatchM.new p.cm a) = .ok r := by
  rw [← broadcastShapes_left] at h1 h2
  unfold Nd.choose
  rw [h1]
  simp only [bind, Except.bind]
  rw [h2]
  simp only [pure, Except.pure]
  unfold PatchM.new
  exact ⟨_, if_pos hcs⟩

/-- **C92** (arrays). A condition and fill samples that are arrays or scalars are taken exactly if they fit in the shape of the patch. Nothing but
the samples changes: they are those of the patch where the condition is true, the fill samples elsewhere. -/
theorem C92_arrays (argsort : List ℚ → List ℕ) (p : PatchM α) (cond : Nd Bool) (other : Nd α) (hps : p.cm.shape = p.data.shape) :
    ((∃ r, p.where argsort true (.array cond) (.array other) = .ok r) ↔ FitsIn cond.shape p.data.shape ∧ FitsIn other.shape p.data.shape) ∧
    ∀ r, p.where argsort true (.array cond) (.array other) = .ok r → r.cm = p.cm ∧ r.data.shape = p.data.shape ∧
      ∀ i, InRange p.data.shape i → r.data.get i = if cond.get (castTo cond.shape i) then p.data.get i else other.get (castTo other.shape i) := by
  have hw : p.where argsort true (.array cond) (.array other) = (do let a ← Nd.choose cond p.data other; PatchM.new p.cm a) := rfl
  rw [hw]
  refine ⟨⟨?_, ?_⟩, ?_⟩
  · rintro ⟨r, hr⟩
    obtain ⟨_, _, h3, h4, _⟩ := choose_new hps hr
    exact ⟨broadcastShapes_left.1 h3, broadcastShapes_left.1 h4⟩
  · rintro ⟨h1, h2⟩
    exact choose_total hps h1 h2
  · intro r hr
    obtain ⟨h1, h2, _, _, _, _, h7⟩ := choose_new hps hr
    exact ⟨h1, h2, h7⟩

theorem fitsIn_self (s : List ℕ) : FitsIn s s := ⟨le_rfl, fun t _ => Or.inr (by simp)⟩

/-- **C92** (patches with the same coordinates). A condition and fill samples with the coordinates of the patch can always be used, and nothing but the
samples changes. -/
theorem C92_same (argsort : List ℚ → List ℕ) (p : PatchM α) (cond : PatchM Bool) (other : PatchM α) (hp : Regular p.cm) (hps : p.cm.shape = p.data.shape)
    (hc : cond.cm = p.cm) (hcs : cond.cm.shape = cond.data.shape) (ho : other.cm = p.cm) (hos : other.cm.shape = other.data.shape) :
    ∃ r, p.where argsort true (.patch cond) (.patch other) = .ok r ∧ r.cm = p.cm ∧ r.data.shape = p.data.shape ∧
      ∀ i, InRange p.data.shape i → r.data.get i = if cond.data.get i then p.data.get i else other.data.get i := by
  have hself : p.cm.equals p.cm (fun _ => none) (fun _ => none) = true := by
    rw [cmEquals_iff]
    refine ⟨fun _ => Iff.rfl, fun _ => Iff.rfl, fun x c d _ hc hd => ?_⟩
    rw [hc] at hd; cases hd
    obtain ⟨ds, c⟩ := c
    refine nearCoord_self ?_
    rintro k x rfl
    exact hp.classes _ _ _ _ (Dict.mem_of_get? hc)
  have e1 : alignPatches argsort p cond = .ok (p, cond) := by
    unfold alignPatches; rw [hc]; exact if_pos hself
  have e2 : alignPatches argsort p other = .ok (p, other) := by
    unfold alignPatches; rw [ho]; exact if_pos hself
  have hw : p.where argsort true (.patch cond) (.patch other) = (do let a ← Nd.choose cond.data p.data other.data; PatchM.new p.cm a) := by
    have e3 : p.alignWith argsort (.patch cond) = .ok (p, .patch cond) := by
      show (alignPatches argsort p cond).map _ = _
      rw [e1]; rfl
    have e4 : p.alignOther argsort (.patch cond) (.patch other) = .ok (p, .patch cond, .patch other) := by
      show (do
        let r ← alignPatches argsort p other
        let s ← r.1.alignWith argsort (.patch cond)
        return (s.1, s.2, Operand.patch r.2)) = _
      rw [e2]
      simp only [bind, Except.bind]
      rw [e3]
      rfl
    unfold PatchM.where
    rw [e3]
    simp only [bind, Except.bind]
    rw [e4]
    rfl
  rw [hw]
  have s1 : cond.data.shape = p.data.shape := by rw [← hcs, hc, hps]
  have s2 : other.data.shape = p.data.shape := by rw [← hos, ho, hps]
  obtain ⟨r, hr⟩ := choose_total (p := p) (c := cond.data) (b := other.data) hps (by rw [s1]; exact fitsIn_self _) (by rw [s2]; exact fitsIn_self _)
  obtain ⟨h1, h2, _, _, _, _, h7⟩ := choose_new hps hr
  refine ⟨r, hr, h1, h2, fun i hi => ?_⟩
  rw [h7 i hi, s1, s2, castTo_self hi]

/-- **C92.** A condition whose samples are not booleans is refused. -/
theorem C92_not_boolean (argsort : List ℚ → List ℕ) (p : PatchM α) (cond : Operand Bool) (other : Operand α) :
    (∀ r, p.where argsort false cond other ≠ .ok r) ∧ ∀ c o, p.where argsort false (.array c) (.array o) = .error .valueError := by
  refine ⟨fun r h => ?_, fun c o => rfl⟩
  unfold PatchM.where at h
  simp only [bind, Except.bind] at h
  split at h
  · cases h
  split at h
  · cases h
  simp at h

/-- Part of the distances of `exPatch` and another one. -/
def exReach : CM := ⟨["distance"], [("distance", ["distance"], .one .int (.mono [8, 14, 21]))]⟩

/-- The distances 14 and 21. -/
def exFar : PatchM Bool := ⟨exReach, [3], fun i => decide (i ≠ [0])⟩

/-- A sample for each of these distances. -/
def exFill : PatchM ℕ := ⟨exReach, [3], fun i => 100 * i.getD 0 0⟩

theorem exReach_regular : Regular exReach := by
  refine ⟨CM.mk?_wf (if_pos (show exReach.dims.all (dimOk exReach.ents) &&
      exReach.ents.all (fun p => entryOk exReach.dims exReach.ents p.2.1 p.2.2) = true by decide +kernel)) (by decide +kernel), ?_, ?_, ?_, ?_⟩
  · unfold DistinctDims; decide +kernel
  · intro name ds c h
    simp only [exReach, List.mem_cons, Prod.mk.injEq, List.not_mem_nil, or_false] at h
    obtain ⟨_, rfl, _⟩ := h
    decide
  · intro name ds k c h
    simp only [exReach, List.mem_cons, Prod.mk.injEq, List.not_mem_nil, or_false] at h
    obtain ⟨_, _, h⟩ := h
    cases h
    exact ⟨Or.inl (by decide +kernel), by simp⟩
  · have : exReach.ents.keys.all (fun n => matchesPrefixSuffix exReach.dims n == false) = true := by decide +kernel
    rw [List.all_eq_true] at this
    intro n hn
    simpa using this n hn

theorem exReach_listed : DimsListed exReach := by
  intro d hd
  simp only [exReach, List.mem_cons, List.not_mem_nil, or_false] at hd
  subst hd
  exact ⟨_, _, rfl⟩

theorem exReach_get {d : String} {k : Kind} {c : Coord} (h : exReach.ents.get? d = some ([d], .one k c)) : d = "distance" ∧ k = .int ∧ c = .mono [8, 14, 21] := by
  have := Dict.mem_of_get? h
  simp only [exReach, List.mem_cons, Prod.mk.injEq, MCoord.one.injEq, List.not_mem_nil, or_false] at this
  obtain ⟨rfl, _, rfl, rfl⟩ := this
  exact ⟨rfl, rfl, rfl⟩

theorem exShots_distance : exShots.cm.ents.get? "distance" = some (["distance"], .one .int (.mono [8, 14, 21])) := rfl

theorem exReach_joinable : Joinable exPatch.cm exReach := by
  have hJ := exShots_joinable
  have hm : ∀ d, d ∈ exReach.dims → d = "distance" := by intro d hd; simpa [exReach] using hd
  have hs : "distance" ∈ exShots.cm.dims := by decide
  refine ⟨hJ.left, ?_, ?_, ?_, ?_, ?_, ?_⟩
  · intro d k c _ h
    obtain ⟨rfl, rfl, rfl⟩ := exReach_get h
    exact hJ.right _ _ _ hs exShots_distance
  · intro d k c k' c' h1 _ h3 h4
    obtain ⟨rfl, rfl, rfl⟩ := exReach_get h4
    exact hJ.nodup _ _ _ _ _ h1 hs h3 exShots_distance
  · intro d k c k' c' h1 _ h3 h4
    obtain ⟨rfl, rfl, rfl⟩ := exReach_get h4
    exact hJ.close _ _ _ _ _ h1 hs h3 exShots_distance
  · intro d k c k' c' h1 _ h3 h4
    obtain ⟨rfl, rfl, rfl⟩ := exReach_get h4
    exact hJ.common _ _ _ _ _ h1 hs h3 exShots_distance
  · constructor
    · intro d hd hn
      rw [hm d hd] at hn
      exact absurd (by decide) hn
    · intro d hd hn
      simp only [exPatch, exCM, List.mem_cons, List.not_mem_nil, or_false] at hd
      rcases hd with rfl | rfl
      · rfl
      · exact absurd (by decide) hn
  · intro name hn
    have h1 : (exPatch.cm.ents.keys ++ exReach.ents.keys).all (fun n => matchesPrefixSuffix (exPatch.cm.dims ++ exReach.dims) n == false) = true := by
      decide +kernel
    rw [List.all_eq_true] at h1
    simpa using h1 name (by simpa using hn)

theorem exPatch_plain : Plain exPatch := ⟨exCM_regular, exCM_listed, by decide, by decide +kernel⟩

theorem exReach_overlays : Overlays exPatch.cm exReach := ⟨by decide, fun h => absurd (h "time" (by decide)) (by decide)⟩

theorem exPatch_labelled : Labelled exPatch.cm := by
  intro d k c hd h n hn
  rcases exCM_get hd h with ⟨_, rfl⟩ | ⟨_, rfl⟩ <;> cases hn

/-- Distances 8 and 14 are common to the patch and the condition, which is true at 14. -/
example : Plain exPatch ∧ Plain exFar ∧ Joinable exPatch.cm exFar.cm ∧ Overlays exPatch.cm exFar.cm ∧ Labelled exPatch.cm ∧
    (exPatch.where stableArgsort true (.patch exFar) (.array ⟨[], fun _ => 77⟩)).map
      (fun r => (r.data.shape, r.data.get [1, 0], r.data.get [1, 1], label r "distance" [1, 1])) = .ok ([2, 2], 77, 13, some (some 14)) :=
  ⟨exPatch_plain, ⟨exReach_regular, exReach_listed, by decide, by decide +kernel⟩, exReach_joinable, exReach_overlays, exPatch_labelled, by decide +kernel⟩

example : Plain exPatch ∧ Plain exFill ∧ Joinable exPatch.cm exFill.cm ∧ Overlays exPatch.cm exFill.cm ∧ Labelled exPatch.cm ∧
    (exPatch.where stableArgsort true (.array ⟨[2], fun i => decide (i = [0])⟩) (.patch exFill)).map
      (fun r => (r.data.shape, r.data.get [1, 0], r.data.get [1, 1], label r "distance" [1, 1])) = .ok ([2, 2], 11, 100, some (some 14)) :=
  ⟨exPatch_plain, ⟨exReach_regular, exReach_listed, by decide, by decide +kernel⟩, exReach_joinable, exReach_overlays, exPatch_labelled, by decide +kernel⟩

example : FitsIn [4] exPatch.data.shape ∧ FitsIn [] exPatch.data.shape ∧ FitsIn [2, 1] exPatch.data.shape ∧ ¬ FitsIn [2] exPatch.data.shape := by
  unfold FitsIn; decide

example : Regular exPatch.cm ∧ exPatch.cm.shape = exPatch.data.shape ∧ (⟨exCM, [2, 4], fun i => decide (i = [1, 2])⟩ : PatchM Bool).cm = exPatch.cm :=
  ⟨exCM_regular, by decide +kernel, rfl⟩

/-- Two patches with the distances 1 and 2 and the channels 1 and 2. -/
def squareOf {α : Type} (dims : List String) (a : List ℕ → α) : PatchM α :=
  ⟨⟨dims, [("distance", ["distance"], .one .int (.mono [1, 2])), ("channel", ["channel"], .one .int (.mono [1, 2]))]⟩, [2, 2], a⟩

/-- **C92 violated** (without `Overlays`): a condition with the same coordinates and the dimensions in another order is not transposed. The
sample at distance 1 and channel 2 is replaced, although the condition is true there; arithmetic refuses these patches. -/
theorem C92_transposed_violated :
    label (squareOf ["channel", "distance"] (fun i => decide (i = [1, 0]))) "distance" [1, 0] = some (some 1) ∧
    label (squareOf ["channel", "distance"] (fun i => decide (i = [1, 0]))) "channel" [1, 0] = some (some 2) ∧
    ((squareOf ["distance", "channel"] (fun i => 10 * i.getD 0 0 + i.getD 1 0)).where stableArgsort true
      (.patch (squareOf ["channel", "distance"] (fun i => decide (i = [1, 0])))) (.array ⟨[], fun _ => 77⟩)).map
      (fun r => (label r "distance" [0, 1], label r "channel" [0, 1], r.data.get [0, 1], r.data.get [1, 0])) = .ok (some (some 1), some (some 2), 77, 10) := by
  refine ⟨by decide +kernel, by decide +kernel, by decide +kernel⟩

/-- **C92 violated** (a condition that is an array and fill samples that are a patch): aligning can change the order of the samples or drop some, and
the condition is not changed with them. The condition is true for the first sample, at distance 8, but it is the sample at distance 1 that is
kept; and a condition with the shape of the patch is refused when the other patch has fewer samples. -/
theorem C92_position_violated :
    label (lineOf [8, 5, 1] [1, 9, 4]) "distance" [0] = some (some 8) ∧
    ((lineOf [8, 5, 1] [1, 9, 4]).where stableArgsort true (.array ⟨[3], fun i => decide (i = [0])⟩) (.patch ⟨(lineOf [1, 5, 8] [4, 9, 1]).cm, [3], fun _ => 77⟩)).map
      (fun r => (r.data.get [0], label r "distance" [0], r.data.get [2], label r "distance" [2])) = .ok (1, some (some 1), 77, some (some 8)) ∧
    ((lineOf [8, 5, 1] [1, 9, 4]).where stableArgsort true (.array ⟨[3], fun i => decide (i = [0])⟩) (.patch ⟨(lineOf [1, 5] [4, 9]).cm, [2], fun _ => 77⟩)).map
      (fun r => r.data.shape) = .error .valueError := by
  refine ⟨by decide +kernel, by decide +kernel, by decide +kernel⟩

end Verif
