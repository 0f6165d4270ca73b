import Verif.Proof.Export
import Verif.Props.Patch
import Verif.Proof.CalculusPatch
/-!
# C103, C104: RSF and WAV files
-/
namespace Verif
open Spec
variable {α β : Type} {cast : α → β} {units : String → Option String} {p : PatchM α}

/-- **C103.** A patch with even dimensions of any number, all with units, is written to an RSF file in which every sample is where the format has it, and whose header describes the
dimensions in their order. -/
theorem C103_rsf (hm : Regular p.cm) (hd : p.cm.dims ≠ []) (hsh : p.cm.shape = p.data.shape) (he : EvenDims p) (hu : ∀ d ∈ p.cm.dims, units d ≠ none) :
    ∃ f, p.toRsf cast units = .ok f ∧ f.values.length = p.data.shape.prod ∧ f.axes.map RsfAxis.n = p.data.shape ∧
      (∀ i, InRange p.data.shape i → f.values[rsfOffset p.data.shape i]? = some (cast (p.data.get i))) ∧ List.Forall₂ (AxisOf p) p.cm.dims f.axes := by
  have hshape : p.data.shape = p.cm.dims.map fun d => lenDim p.cm d := by
    rw [← hsh]
    unfold CM.shape
    rw [if_neg hd]
    rfl
  have key : ∀ l : List String, (∀ d ∈ l, d ∈ p.cm.dims) → ∃ axes, (l.zip (l.map fun d => lenDim p.cm d)).mapM (p.rsfAxis units) = .ok axes ∧
      List.Forall₂ (AxisOf p) l axes ∧ axes.map RsfAxis.n = l.map fun d => lenDim p.cm d := by
    intro l
    induction l with
    | nil => intro _; exact ⟨[], rfl, .nil, rfl⟩
    | cons d l ih =>
      intro hl
      have hdm := hl d (by simp)
      obtain ⟨axes, h1, h2, h3⟩ := ih fun x hx => hl x (by simp [hx])
      obtain ⟨k, r, hc⟩ := he d hdm
      obtain ⟨u, hu⟩ := Option.ne_none_iff_exists'.1 (hu d hdm)
      have hax : p.rsfAxis units (d, lenDim p.cm d) = .ok (headerAxis d (lenDim p.cm d) (some (toSeconds k r.start), some (toSeconds k r.step)) u) := by
        unfold PatchM.rsfAxis
        simp only [bind, Except.bind, ownCoord_ok hc, hu]
        rfl
      refine ⟨headerAxis d (lenDim p.cm d) (some (toSeconds k r.start), some (toSeconds k r.step)) u :: axes, ?_, .cons ?_ h2, ?_⟩
      · rw [List.map_cons, List.zip_cons_cons, List.mapM_cons, hax, h1]
        rfl
      · have hv : r.Valid := hm.classes d [d] k (.range r) (Dict.mem_of_get? hc)
        have hlen : lenDim p.cm d = r.len := by
          show p.cm.ents.lenOf d = r.len
          unfold Ents.lenOf
          rw [hc]
          simp only [MCoord.len, one_shape, List.getD_cons_zero]
          rfl
        have hfields : (headerAxis d (lenDim p.cm d) (some (toSeconds k r.start), some (toSeconds k r.step)) u).label = d ∧
            (headerAxis d (lenDim p.cm d) (some (toSeconds k r.start), some (toSeconds k r.step)) u).n = lenDim p.cm d ∧
            (headerAxis d (lenDim p.cm d) (some (toSeconds k r.start), some (toSeconds k r.step)) u).d = some (toSeconds k r.step) := by
          unfold headerAxis
          split_ifs <;> exact ⟨rfl, rfl, rfl⟩
        refine ⟨hfields.1, hfields.2.1, ?_, toSeconds k r.start, toSeconds k r.step, k, .range r, hc, hfields.2.2, ?_, ?_⟩
        · intro ht
          unfold headerAxis
          rw [if_pos ht]
        · unfold headerAxis
          split_ifs <;> rfl
        · intro i hi
          refine ⟨r.start + posAlong p d i * r.step, ?_, ?_⟩
          · rw [label_dim hc]
            have hlt : posAlong p d i < r.len := by
              rw [← hlen]
              rw [hshape] at hi
              exact inRange_getD hi hdm
            congr 1
            rw [range_labels hv, List.getD_eq_getElem?_getD, List.getElem?_map]
            unfold progression
            rw [List.getElem?_map, List.getElem?_range hlt]
            simp [mul_comm]
          · rw [seconds_add]
            exact written_seconds _ _
      · rw [List.map_cons, List.map_cons, h3]
        congr 1
        unfold headerAxis
        split_ifs <;> rfl
  obtain ⟨axes, h1, h2, h3⟩ := key p.cm.dims fun _ h => h
  refine ⟨⟨axes, (fortranIndices p.data.shape).map fun i => cast (p.data.get i)⟩, ?_, ?_, ?_, fun i hi => ?_, h2⟩
  · unfold PatchM.toRsf
    rw [show p.cm.dims.zip p.data.shape = p.cm.dims.zip (p.cm.dims.map fun d => lenDim p.cm d) by rw [hshape], h1]
    rfl
  · simp [fortran_length]
  · rw [hshape]
    exact h3
  · show ((fortranIndices p.data.shape).map _)[_]? = _
    rw [List.getElem?_map, fortran_get _ _ hi]
    rfl

/-- Two times and three distances. -/
def exEven : PatchM ℕ :=
  ⟨⟨["distance", "time"], [("time", ["time"], .one .time (.range ⟨5000000000, 7000000000, 1000000000, 2⟩)), ("distance", ["distance"], .one .float (.range ⟨9, 3, -2, 3⟩))]⟩,
    ⟨[3, 2], fun i => i.getD 0 0 * 10 + i.getD 1 0⟩⟩

example : EvenDims exEven ∧ exEven.cm.shape = exEven.data.shape ∧ exEven.cm.dims ≠ [] := by
  refine ⟨?_, by decide +kernel, by decide⟩
  intro d hd
  simp only [exEven, List.mem_cons, List.not_mem_nil, or_false] at hd
  rcases hd with rfl | rfl
  · exact ⟨_, _, rfl⟩
  · exact ⟨_, _, rfl⟩

example : ((exEven.toRsf (fun x => x) fun _ => some "m").map fun f => (f.values, f.axes)) =
    .ok ([0, 10, 20, 1, 11, 21], [⟨3, some 9, some (-2), "distance", "m", none⟩, ⟨2, some 0, some 1, "time", "m", some (some 5)⟩]) := by decide +kernel

/-- **C103.** Patches with a dimension that is not evenly sampled, and (a restriction nowhere told of) with a dimension that has no units, are refused with an AttributeError. -/
theorem C103_refused (hw : WellFormed p.cm) (hd : p.cm.dims ≠ []) (hsh : p.cm.shape = p.data.shape)
    (h : (∃ d ∈ p.cm.dims, units d = none) ∨ ∃ d ∈ p.cm.dims, ∃ k l, p.cm.ents.get? d = some ([d], .one k (.arr l)) ∨ p.cm.ents.get? d = some ([d], .one k (.mono l))) :
    p.toRsf cast units = .error .attributeError := by
  have hshape : p.data.shape = p.cm.dims.map fun d => lenDim p.cm d := by
    rw [← hsh]
    unfold CM.shape
    rw [if_neg hd]
    rfl
  have hall : ∀ e ∈ p.cm.dims.zip p.data.shape, p.rsfAxis units e = .error .attributeError ∨ ∃ b, p.rsfAxis units e = .ok b := by
    intro e hx
    have hdm : e.1 ∈ p.cm.dims := (List.of_mem_zip (show (e.1, e.2) ∈ _ from hx)).1
    obtain ⟨c, n, hc, _⟩ := CM.WellFormed.get_dim hw hdm
    unfold PatchM.rsfAxis
    simp only [bind, Except.bind, ownCoord_ok hc]
    have hs : startStep c = .error .attributeError ∨ ∃ b, startStep c = .ok b := by
      unfold startStep
      split
      · exact Or.inr ⟨_, rfl⟩
      · exact Or.inr ⟨_, rfl⟩
      · exact Or.inl rfl
    rcases hs with hs | ⟨b, hs⟩
    · rw [hs]
      exact Or.inl rfl
    · rw [hs]
      cases units e.1 with
      | none => exact Or.inl rfl
      | some u => exact Or.inr ⟨_, rfl⟩
  have hmem : ∀ d ∈ p.cm.dims, (d, lenDim p.cm d) ∈ p.cm.dims.zip p.data.shape := by
    intro d hdm
    obtain ⟨j, hj⟩ := List.mem_iff_getElem?.1 hdm
    refine List.mem_of_getElem? (i := j) ?_
    rw [List.getElem?_zip_eq_some, hshape, List.getElem?_map, hj]
    exact ⟨rfl, rfl⟩
  have hx : ∃ e ∈ p.cm.dims.zip p.data.shape, p.rsfAxis units e = .error .attributeError := by
    rcases h with ⟨d, hdm, hu⟩ | ⟨d, hdm, k, l, hc⟩
    · refine ⟨_, hmem d hdm, ?_⟩
      rcases hall _ (hmem d hdm) with h | ⟨b, hb⟩
      · exact h
      · exfalso
        obtain ⟨c, n, hc, _⟩ := CM.WellFormed.get_dim hw hdm
        unfold PatchM.rsfAxis at hb
        simp only [bind, Except.bind, ownCoord_ok hc, hu] at hb
        cases hs : startStep c <;> rw [hs] at hb <;> cases hb
    · refine ⟨_, hmem d hdm, ?_⟩
      rcases hc with hc | hc
      · unfold PatchM.rsfAxis
        simp only [bind, Except.bind, ownCoord_ok hc]
        rfl
      · unfold PatchM.rsfAxis
        simp only [bind, Except.bind, ownCoord_ok hc]
        rfl
  unfold PatchM.toRsf
  rw [mapM_first_error hall hx]
  rfl

example : (exEven.toRsf (fun x => x) fun d => if d = "time" then some "s" else none).map RsfFile.values = .error .attributeError := by decide +kernel

/-- The name of the file of a label. -/
def exName (x : Option ℚ) : String := if x = some 9 then "9" else if x = some 7 then "7" else "5"

/-- **C104.** A patch of two dimensions, one of them even, ascending times, is written to a directory as one WAV file for each label of the other dimension (as long as no two labels have the
same name): it has the samples at that label in the order of the times, prepared, and the number of samples in a second, rounded. Other files of the directory stay. -/
theorem C104_directory {prepare : List α → List β} {show' : Option ℚ → String} {dir : Dict (WavFile β)} {o : String} (hm : Regular p.cm) (hsh : p.cm.shape = p.data.shape)
    (ho : p.cm.dims = [o, "time"] ∨ p.cm.dims = ["time", o]) (hne : o ≠ "time") {r : RangeCoord} (ht : p.cm.ents.get? "time" = some (["time"], .one .time (.range r)))
    (_hp : 0 < r.step) {k : Kind} {c : Coord} (hc : p.cm.ents.get? o = some ([o], .one k c)) (hdiff : (c.labels.map fun x => o ++ "_" ++ show' x ++ ".wav").Nodup) :
    ∃ (rate : ℤ) (res : Dict (WavFile β)), (1000000000 / r.step - 1 / 2 ≤ rate ∧ rate ≤ 1000000000 / r.step + 1 / 2) ∧ p.wavDir prepare show' dir = .ok res ∧
      (∀ j < lenDim p.cm o, ∀ x, c.labels[j]? = some x → Dict.get? res (o ++ "_" ++ show' x ++ ".wav") = some ⟨rate, [prepare (traceAt p j)]⟩) ∧
      ∀ n, (∀ x ∈ c.labels, n ≠ o ++ "_" ++ show' x ++ ".wav") → Dict.get? res n = Dict.get? dir n := by
  have hv : r.Valid := hm.classes "time" ["time"] .time (.range r) (Dict.mem_of_get? ht)
  have htr := traces_two hsh ho hne
  have hlen : c.labels.length = lenDim p.cm o := by
    show _ = p.cm.ents.lenOf o
    unfold Ents.lenOf
    rw [hc]
    simp only [MCoord.len, one_shape, List.getD_cons_zero]
    exact labels_length (hm.classes o [o] k c (Dict.mem_of_get? hc))
  set ys := ((List.range (lenDim p.cm o)).map (traceAt p)).map prepare with hys
  have hyl : ys.length = lenDim p.cm o := by simp [hys]
  have hnames : ((c.labels.zip ys).map fun e => o ++ "_" ++ show' e.1 ++ ".wav") = c.labels.map fun x => o ++ "_" ++ show' x ++ ".wav" := by
    rw [show (fun e : Option ℚ × List β => o ++ "_" ++ show' e.1 ++ ".wav") = (fun x => o ++ "_" ++ show' x ++ ".wav") ∘ Prod.fst from rfl, ← List.map_map,
      List.map_fst_zip (by rw [hyl, hlen])]
  obtain ⟨f1, f2⟩ := foldl_put (w := ⟨rint (1000000000 / r.step), ys⟩) (show' := show') (dim := o) (c.labels.zip ys) dir (by rw [hnames]; exact hdiff)
  refine ⟨rint (1000000000 / r.step), _, rint_bounds _, ?_, ?_, fun n hn => f2 n ?_⟩
  · unfold PatchM.wavDir PatchM.wavData
    have hr : wavRate (.one .time (.range r)) = .ok (rint (1000000000 / r.step)) := by
      unfold wavRate
      exact if_neg hv.step_ne
    simp only [bind, Except.bind, htr, ownCoord_ok ht, hr, ownCoord_ok hc]
    rfl
  · intro j hj x hx
    refine f1 (x, prepare (traceAt p j)) ?_
    have hy : ys[j]? = some (prepare (traceAt p j)) := by
      rw [hys, List.getElem?_map, List.getElem?_map, List.getElem?_range hj]
      rfl
    exact List.mem_of_getElem? (i := j) (by rw [List.getElem?_zip_eq_some]; exact ⟨hx, hy⟩)
  · rw [hnames, List.mem_map]
    rintro ⟨x, hx, rfl⟩
    exact hn x hx rfl

example : ((exEven.wavDir (fun l => l) exName []).map fun d => (d.map Prod.fst, d.map fun e => (e.2.rate, e.2.channels))) =
    .ok (["distance_9.wav", "distance_7.wav", "distance_5.wav"], [(1, [[0, 1]]), (1, [[10, 11]]), (1, [[20, 21]])]) := by decide +kernel

/-- The same with a label that comes twice. -/
def exDouble : PatchM ℕ :=
  ⟨⟨["distance", "time"], [("time", ["time"], .one .time (.range ⟨5000000000, 7000000000, 1000000000, 2⟩)), ("distance", ["distance"], .one .float (.arr [9, 7, 7]))]⟩,
    ⟨[3, 2], fun i => i.getD 0 0 * 10 + i.getD 1 0⟩⟩

/-- **C104 violated** (a label that comes twice): the second channel is overwritten by the third. -/
theorem C104_lost_violated : ((exDouble.wavDir (fun l => l) exName []).map fun d => (d.map Prod.fst, d.map fun e => e.2.channels)) =
    .ok (["distance_9.wav", "distance_7.wav"], [[[0, 1]], [[20, 21]]]) := by decide +kernel

/-- **C104.** Without times, or with another number of dimensions than two, nothing is written. -/
theorem C104_refused {prepare : List α → List β} {show' : Option ℚ → String} {dir : Dict (WavFile β)} :
    ("time" ∉ p.cm.dims → p.wavDir prepare show' dir = .error .patchCoordinateError) ∧
    ("time" ∈ p.cm.dims → p.cm.dims.length ≠ 2 → p.wavDir prepare show' dir = .error .assertionError) := by
  constructor
  · intro h
    have : p.wavTraces = .error .patchCoordinateError := by
      unfold PatchM.wavTraces
      rw [if_pos h]
    unfold PatchM.wavDir PatchM.wavData
    simp only [bind, Except.bind, this]
  · intro h h2
    have : p.wavTraces = .error .assertionError := by
      unfold PatchM.wavTraces
      rw [if_neg (by simpa using h)]
      split
      · rename_i h3 _
        rw [h3] at h2
        simp at h2
      · rfl
    unfold PatchM.wavDir PatchM.wavData
    simp only [bind, Except.bind, this]

example : ("time" ∈ (["time"] : List String)) ∧ (["time"] : List String).length ≠ 2 := by decide

end Verif
