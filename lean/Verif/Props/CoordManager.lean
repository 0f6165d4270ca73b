import Verif.Proof.CMWf
/-! # Coordinate managers stay well formed (C16) -/
namespace Verif
open Spec

/-- A manager with two dimensions and a coordinate attached to both. -/
def exCM : CM := ⟨["time", "distance"],
  [("time", ["time"], .one .int (.arr [3, 1])), ("distance", ["distance"], .one .int (.range exUp)),
   ("depth", ["distance"], .one .int (.mono [9, 4, 3, 1])),
   ("lat", ["time", "distance"], .nd ⟨[2, 4], fun i => some (10 * (i.getD 0 0 : ℚ) + i.getD 1 0)⟩)]⟩

theorem exCM_ok : exCM.dims.all (dimOk exCM.ents) && exCM.ents.all (fun p => entryOk exCM.dims exCM.ents p.2.1 p.2.2) = true := by
  decide +kernel

theorem exCM_wf : WellFormed exCM := CM.mk?_wf (if_pos exCM_ok) (by decide +kernel)
theorem exCM_distinct : DistinctDims exCM := by unfold DistinctDims; decide +kernel

theorem map_ok {α β : Type} {x : Except Err α} {f : α → β} {b : β} (h : x.map f = .ok b) : ∃ a, x = .ok a ∧ f a = b := by
  cases x with
  | error e => cases h
  | ok a => cases h; exact ⟨a, rfl, rfl⟩

/-- **C16.** What `get_coord_manager` builds is well formed. -/
theorem C16_built (coords : Dict CArg) (dims : List String) (m : CM) (h : getCoordManager coords dims = .ok m)
    (hk : (coords.map Prod.fst).Nodup) : WellFormed m ∧ (dims.Nodup → DistinctDims m) :=
  CM.getCoordManager_wf h hk

example : ((CM.nested exCM.ents).map Prod.fst).Nodup ∧
    (getCoordManager (CM.nested exCM.ents) exCM.dims).map CM.dims = .ok ["time", "distance"] := by decide +kernel

/-- **C16.** Every operation that succeeds on a well formed manager gives a well formed manager. -/
theorem C16_step (argsort : List ℚ → List ℕ) (m m' : CM) (op : CMOp) (hw : WellFormed m) (hk : KeywordsOk op)
    (h : m.step argsort op = .ok m') : WellFormed m' ∧ (FreshTargets m op → DistinctDims m → DistinctDims m') := by
  have lift : (WellFormed m' ∧ (DistinctDims m → DistinctDims m')) →
      WellFormed m' ∧ (FreshTargets m op → DistinctDims m → DistinctDims m') := fun x => ⟨x.1, fun _ => x.2⟩
  cases op with
  | update kw => exact lift (CM.update_wf h hw hk)
  | drop names => exact lift (CM.dropCoords_wf h hw)
  | disassociate names => exact lift (CM.disassociate_wf h hw)
  | setDims kw =>
    refine ⟨CM.setDims_wf h hw, fun hf hd => ?_⟩
    change m.setDims kw = _ at h
    unfold CM.setDims at h
    simp only [bind, Except.bind] at h
    split at h
    · cases h
    · rename_i dims hdims
      obtain ⟨rfl, _⟩ := CM.mk?_ok h
      exact CM.setDimsLoop_nodup hdims hd hf.2 hf.1
  | rename kw =>
    refine ⟨CM.rename_wf h hw, fun hf hd => ?_⟩
    change m.rename kw = _ at h
    unfold CM.rename at h
    simp only [bind, Except.bind] at h
    split at h
    · cases h
    · rename_i r hr
      obtain ⟨rfl, _⟩ := CM.mk?_ok h
      exact CM.renameLoop_nodup hr hd hf.2 hf.1
  | transpose dims => exact lift (CM.transpose_wf h hw)
  | squeeze dim => exact lift (CM.squeeze_wf h hw)
  | decimate dim n =>
    change (m.decimate dim n).map Prod.fst = _ at h
    cases h1 : m.decimate dim n with
    | error x => rw [h1] at h; cases h
    | ok r => rw [h1] at h; cases h; exact lift (CM.decimate_wf h1 hw)
  | flip names => exact lift (CM.flip_wf h hw)
  | select kw => exact lift (CM.selectCM_wf h hw)
  | sort names reverse =>
    change (m.sortCM argsort names reverse).map Prod.fst = _ at h
    cases h1 : m.sortCM argsort names reverse with
    | error x => rw [h1] at h; cases h
    | ok r => rw [h1] at h; cases h; exact lift (CM.sortCM_wf h1 hw)

example : WellFormed exCM ∧ KeywordsOk (.select [("distance", .between (some 8) (some 12))]) ∧
    (exCM.step stableArgsort (.select [("distance", .between (some 8) (some 12))])).map CM.shape = .ok [2, 2] :=
  ⟨exCM_wf, trivial, by decide +kernel⟩

/-- **C16.** A manager stays well formed, with distinct dimensions, through every history. -/
theorem C16_history_partial (argsort : List ℚ → List ℕ) (m m' : CM) (hw : WellFormed m) (hd : DistinctDims m)
    (h : History argsort m m') : WellFormed m' ∧ DistinctDims m' := by
  induction h with
  | start => exact ⟨hw, hd⟩
  | step op _ hk hf hs ih =>
    obtain ⟨w1, w2⟩ := C16_step argsort _ _ op ih.1 hk hs
    exact ⟨w1, w2 hf ih.2⟩

example : ∃ m', History stableArgsort exCM m' ∧ m'.dims = ["distance", "t"] := by
  obtain ⟨m1, h1, e1⟩ := map_ok (f := fun m : CM => (m.transpose []).map CM.dims)
    (x := exCM.step stableArgsort (.rename [("time", "t")])) (b := .ok ["distance", "t"]) (by decide +kernel)
  obtain ⟨m2, h2, e2⟩ := map_ok e1
  refine ⟨m2, .step (.transpose []) (.step (.rename [("time", "t")]) (.start _) trivial ?_ h1) trivial trivial h2, e2⟩
  simp only [FreshTargets]
  decide +kernel

/-- A manager with two dimensions of the same length. -/
def exSquare : CM := ⟨["time", "distance"],
  [("time", ["time"], .one .int (.arr [3, 1])), ("distance", ["distance"], .one .int (.arr [8, 6]))]⟩

/-- **C16, violated.** `rename_coord(time="distance")` and `set_dims(time="distance")` succeed and leave the manager
with the same dimension twice. -/
theorem C16_distinct_violated :
    (exSquare.dims.Nodup ∧ CM.mk? exSquare.dims exSquare.ents = .ok exSquare) ∧
    (exSquare.rename [("time", "distance")]).map CM.dims = .ok ["distance", "distance"] ∧
    (exSquare.setDims [("time", "distance")]).map CM.dims = .ok ["distance", "distance"] := by
  refine ⟨⟨by decide, if_pos (by decide +kernel)⟩, by decide +kernel, by decide +kernel⟩

/-- **C16.** `shape` is the tuple of the dimensions' lengths, and every coordinate of a well formed manager has the
part of it that belongs to its dimensions. -/
theorem C16_shape (m : CM) (hw : WellFormed m) (hne : m.dims ≠ []) :
    m.shape.length = m.dims.length ∧
    (∀ (k : ℕ) d, m.dims[k]? = some d → ∀ c, (d, [d], c) ∈ m.ents → c.shape = [m.shape.getD k 0]) ∧
    ∀ name ds c, (name, ds, c) ∈ m.ents → ds ≠ [] → c.shape = ds.map fun d => m.shape.getD (m.dims.idxOf d) 0 := by
  have hs : m.shape = m.dims.map m.ents.lenOf := by rw [CM.shape, if_neg hne]
  rw [hs]
  have key : ∀ d ∈ m.dims, (m.dims.map m.ents.lenOf).getD (m.dims.idxOf d) 0 = m.ents.lenOf d := by
    intro d hd
    have := List.idxOf_lt_length_of_mem hd
    simp [List.getD_eq_getElem?_getD, List.getElem?_eq_getElem this]
  refine ⟨by simp, ?_, ?_⟩
  · intro k d hk c hc
    have := CM.WellFormed.shape_eq hw hc (by simp)
    simp [this, List.getD_eq_getElem?_getD, List.getElem?_map, hk]
  · intro name ds c hc hne
    rw [CM.WellFormed.shape_eq hw hc hne]
    apply List.map_congr_left
    intro d hd
    exact (key d (hw.attached name ds c hc d hd)).symm

example : WellFormed exCM ∧ exCM.dims ≠ [] ∧ exCM.shape = [2, 4] := ⟨exCM_wf, by decide, by decide +kernel⟩

end Verif
