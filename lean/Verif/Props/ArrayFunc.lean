import Verif.Spec.ArrayFunc
import Verif.Props.Aggregate
/-! # C106: numpy functions on patches -/
namespace Verif
open Spec

theorem expandShape_true : ∀ (ks : List Bool) (s : List ℕ), (∀ b ∈ ks, b = true) → Nd.expandShape ks s = s
  | [], s, _ => by unfold Nd.expandShape; rfl
  | true :: ks, [], h => by
    unfold Nd.expandShape
    exact expandShape_true ks [] fun b hb => h b (by simp [hb])
  | true :: ks, n :: s, h => by
    unfold Nd.expandShape
    rw [expandShape_true ks s fun b hb => h b (by simp [hb])]
  | false :: ks, s, h => by simpa using h false (by simp)

theorem expandShape_length : ∀ (ks : List Bool) (s : List ℕ), s.length + ks.count false ≤ (Nd.expandShape ks s).length
  | [], s => by unfold Nd.expandShape; simp
  | true :: ks, [] => by
    have := expandShape_length ks []
    unfold Nd.expandShape
    simpa using this
  | true :: ks, n :: s => by
    have := expandShape_length ks s
    unfold Nd.expandShape
    simp only [List.length_cons, List.count_cons_of_ne (show (true : Bool) ≠ false by decide)]
    omega
  | false :: ks, s => by
    have := expandShape_length ks s
    unfold Nd.expandShape
    simp only [List.length_cons, List.count_cons_self]
    omega

/-- **C106** (results of the same shape). Whatever the function, and whatever the other patches, a result with the shape of the first patch has its labels. -/
theorem C106_same {α β} (f : List (Nd α) → Nd β) (p : PatchM α) (others : List (PatchM α)) (axis : Option AxisArg) (hsh : p.cm.shape = p.data.shape)
    (hs : (f (p.data :: others.map fun p => p.data)).shape = p.data.shape) :
    ∃ q, p.applyFunc f others axis = .ok q ∧ LabelledAs p (f (p.data :: others.map fun p => p.data)) q := by
  refine ⟨⟨p.cm, f (p.data :: others.map fun p => p.data)⟩, ?_, rfl, rfl, fun _ => rfl, fun _ _ => rfl⟩
  unfold PatchM.applyFunc PatchM.reassemble
  rw [List.map_cons, if_pos hs]
  unfold PatchM.new
  rw [if_pos (by rw [hs]; exact hsh)]

/-- **C106** (refused). A result of another shape is refused if the function has no axis argument, or if it has no fewer axes than the patch (as with `np.diff` or
`np.concatenate`): it is never given labels. -/
theorem C106_refused {α β} (f : List (Nd α) → Nd β) {p : PatchM α} (others : List (PatchM α)) (hm : Regular p.cm) (hr : Readable p.cm) (hl : DimsListed p.cm)
    (hd : p.cm.dims ≠ []) (hsh : p.cm.shape = p.data.shape) (hs : (f (p.data :: others.map fun p => p.data)).shape ≠ p.data.shape) :
    p.applyFunc f others none = .error .parameterError ∧
    ∀ axis, AxesValid p.cm.dims.length axis → p.data.shape.length ≤ (f (p.data :: others.map fun p => p.data)).shape.length →
      p.applyFunc f others (some axis) = .error .coordError := by
  set a := f (p.data :: others.map fun p => p.data) with ha
  have hlen : p.data.shape.length = p.cm.dims.length := by rw [← hsh, cm_shape hd, List.length_map]
  refine ⟨?_, ?_⟩
  · unfold PatchM.applyFunc PatchM.reassemble
    rw [List.map_cons, ← ha, if_neg hs]
  · intro axis hv hge
    obtain ⟨h1, h2, _, _⟩ := C51_axes p.cm.dims.length axis hv
    set ax := normalizeAxes p.cm.dims.length axis with hax
    set names := ax.map (fun x => p.cm.dims.getD x "") with hnames
    have hlt : ∀ k ∈ ax, k < p.cm.dims.length := fun k hk => ((h2 k).1 hk).1
    have hget : ∀ k (h : k < p.cm.dims.length), p.cm.dims.getD k "" = p.cm.dims[k] := by
      intro k h
      rw [List.getD_eq_getElem?_getD, List.getElem?_eq_getElem h]; rfl
    have hnn : names.Nodup := by
      refine List.Nodup.map_on ?_ h1
      intro x hx y hy hxy
      rw [hget x (hlt x hx), hget y (hlt y hy)] at hxy
      exact (List.Nodup.getElem_inj_iff hm.distinct).1 hxy
    have hsub : ∀ d ∈ names, d ∈ p.cm.dims := by
      intro d hdn
      obtain ⟨k, hk, rfl⟩ := List.mem_map.1 hdn
      rw [hget k (hlt k hk)]; exact List.getElem_mem _
    obtain ⟨cm, hcm, hS⟩ := shrink hm hr hl hnn hsub (emptyOf_short hm hr hl hsub)
    have hcount : (Nd.keptAxes p.cm.dims.length ax).count true ≤ p.cm.dims.length := by
      refine le_trans List.count_le_length ?_
      unfold Nd.keptAxes; simp
    have hdims : cm.dims ≠ [] := by rw [hS.dims]; exact hd
    have hne : cm.shape ≠ (a.expandAxes (Nd.keptAxes p.cm.dims.length ax)).shape := by
      intro he
      by_cases hempty : ax = []
      · have hk : ∀ b ∈ Nd.keptAxes p.cm.dims.length ax, b = true := by
          intro b hb
          rw [hempty] at hb
          unfold Nd.keptAxes at hb
          obtain ⟨k, _, rfl⟩ := List.mem_map.1 hb
          rfl
        have hcs : cm.shape = p.data.shape := by
          rw [cm_shape hdims, hS.dims, ← hsh, cm_shape hd]
          refine List.map_congr_left fun d hdd => ?_
          rw [hS.len d hdd, hnames, hempty]
          simp
        rw [hcs] at he
        apply hs
        rw [he]
        exact (expandShape_true _ _ hk).symm
      · have h3 := congrArg List.length he
        rw [cm_shape hdims, List.length_map, hS.dims] at h3
        have h4 : a.shape.length + (Nd.keptAxes p.cm.dims.length ax).count false ≤ (a.expandAxes (Nd.keptAxes p.cm.dims.length ax)).shape.length :=
          expandShape_length _ _
        have h5 : 0 < (Nd.keptAxes p.cm.dims.length ax).count false := by
          obtain ⟨k, hk⟩ := List.exists_mem_of_ne_nil _ hempty
          refine List.count_pos_iff.2 ?_
          unfold Nd.keptAxes
          exact List.mem_map.2 ⟨k, List.mem_range.2 (hlt k hk), by simp [hk]⟩
        omega
    unfold PatchM.applyFunc PatchM.reassemble
    rw [List.map_cons, ← ha, if_neg hs]
    simp only [← hax]
    rw [if_neg (by omega), mapM_emptied hl hsub]
    simp only [bind, Except.bind]
    rw [hcm]
    simp only
    unfold PatchM.new
    rw [if_neg hne]

/-- `np.diff` along the last axis. -/
def exDiff (as : List (Nd ℕ)) : Nd ℕ :=
  match as with
  | a :: _ => ⟨[a.shape.getD 0 0, a.shape.getD 1 0 - 1], fun i => a.get [i.getD 0 0, i.getD 1 0 + 1] - a.get i⟩
  | [] => ⟨[], fun _ => 0⟩

/-- `np.cumsum` of two rows. -/
def exCum (as : List (Nd ℕ)) : Nd ℕ :=
  match as with
  | a :: _ => ⟨a.shape, fun i => ((List.range (i.getD 0 0 + 1)).map fun k => a.get [k, i.getD 1 0]).sum⟩
  | [] => ⟨[], fun _ => 0⟩

example : exPatch.cm.shape = exPatch.data.shape ∧ (exCum [exPatch.data]).shape = exPatch.data.shape ∧
    (exPatch.applyFunc exCum [] (some (.one 0))).map (fun q => (q.data.get [1, 2], label q "distance" [1, 2])) = .ok (14, label exPatch "distance" [1, 2]) := by
  refine ⟨?_, ?_, ?_⟩ <;> decide +kernel

example : exPatch.applyFunc exDiff [] none = .error .parameterError ∧ exPatch.applyFunc exDiff [] (some (.one (-1))) = .error .coordError := by
  obtain ⟨h1, h2⟩ := C106_refused exDiff (p := exPatch) [] exCM_regular exCM_readable exCM_listed (by decide) (by decide +kernel) (by decide +kernel)
  exact ⟨h1, h2 (.one (-1)) ⟨by decide, by decide⟩ (by decide +kernel)⟩

/-- Two times and two distances. -/
def exSquarePatch : PatchM ℕ :=
  ⟨⟨["time", "distance"], [("time", ["time"], .one .int (.mono [0, 1])), ("distance", ["distance"], .one .int (.mono [5, 7]))]⟩, [2, 2],
    fun i => 10 * i.getD 0 0 + i.getD 1 0⟩

/-- `np.transpose` of two axes. -/
def exTranspose (a : Nd ℕ) : Nd ℕ := ⟨[a.shape.getD 1 0, a.shape.getD 0 0], fun i => a.get [i.getD 1 0, i.getD 0 0]⟩

/-- **C106 violated** (functions which move elements): `np.transpose` of a patch with as many times as distances gives a patch whose elements have labels of others: the
sample of time 0 and distance 7 is now that of time 1 and distance 5. With other shapes it is refused. -/
theorem C106_moved_violated : Moves exTranspose (fun i => [i.getD 1 0, i.getD 0 0]) ∧
    (∃ q, exSquarePatch.applyFunc (fun as => exTranspose (as.headD ⟨[], fun _ => 0⟩)) [] none = .ok q ∧ q.data.get [1, 0] = exSquarePatch.data.get [0, 1] ∧
      label q "time" [1, 0] = some (some 1) ∧ label exSquarePatch "time" [0, 1] = some (some 0) ∧ ¬ LabelsMoved exSquarePatch q fun i => [i.getD 1 0, i.getD 0 0]) ∧
    exPatch.applyFunc (fun as => exTranspose (as.headD ⟨[], fun _ => 0⟩)) [] none = .error .parameterError := by
  refine ⟨fun _ _ => rfl, ?_, ?_⟩
  · obtain ⟨q, hq, h⟩ := C106_same (fun as => exTranspose (as.headD ⟨[], fun _ => 0⟩)) exSquarePatch [] none (by decide +kernel) (by decide +kernel)
    have e1 : label q "time" [1, 0] = some (some 1) := by rw [h.labels]; decide +kernel
    have e2 : label exSquarePatch "time" [0, 1] = some (some 0) := by decide +kernel
    refine ⟨q, hq, by rw [h.data]; rfl, e1, e2, fun hc => ?_⟩
    have := hc "time" (by decide) [1, 0] (by rw [h.shape]; exact .cons (show 1 < 2 by decide) (.cons (show 0 < 2 by decide) .nil))
    rw [e1] at this
    have h3 : label exSquarePatch "time" ((fun i : List ℕ => [i.getD 1 0, i.getD 0 0]) [1, 0]) = some (some 0) := e2
    rw [h3] at this
    exact absurd this (by decide)
  · exact (C106_refused _ (p := exPatch) [] exCM_regular exCM_readable exCM_listed (by decide) (by decide +kernel) (by decide +kernel)).1

/-- The patch of the same shape ten samples later. -/
def exLater : PatchM ℕ :=
  ⟨⟨["time", "distance"], [("time", ["time"], .one .int (.mono [10, 11])), ("distance", ["distance"], .one .int (.mono [5, 7]))]⟩, [2, 2],
    fun i => 10 * i.getD 0 0 + i.getD 1 0⟩

/-- `np.where(a < b, a, b)`, element by element. -/
def exWhere (as : List (Nd ℕ)) : Nd ℕ :=
  ⟨(as.headD ⟨[], fun _ => 0⟩).shape, fun i => min ((as.headD ⟨[], fun _ => 0⟩).get i) ((as.getD 1 ⟨[], fun _ => 0⟩).get i)⟩

/-- **C106 violated** (several patches): the labels of all patches but the first are not looked at. A function of two patches with no label of time in common puts elements
of different times together, where the operators on patches (C60) refuse or leave out what does not match. -/
theorem C106_others_violated : (∃ q, exSquarePatch.applyFunc exWhere [exLater] none = .ok q ∧ ∀ name i, label q name i = label exSquarePatch name i) ∧
    ∀ i ∈ [[0, 0], [0, 1], [1, 0], [1, 1]], ∀ j ∈ [[0, 0], [0, 1], [1, 0], [1, 1]], label exSquarePatch "time" i ≠ label exLater "time" j := by
  refine ⟨?_, by decide +kernel⟩
  obtain ⟨q, hq, h⟩ := C106_same exWhere exSquarePatch [exLater] none (by decide +kernel) (by decide +kernel)
  exact ⟨q, hq, h.labels⟩

end Verif
