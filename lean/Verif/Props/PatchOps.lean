import Verif.Proof.Squeeze
import Verif.Props.Patch
/-!
# Patch operations that drop, move or add samples

C45 (flip, pad, roll), C47 (dropna, fillna), C52 (decimate), C56 (drop_coords, squeeze), C57 (update_coords), C58
(append_dims).
-/
namespace Verif
open Spec

/-! ## Dropping coordinates -/

/-- **C56.** Dropping coordinates from a well formed manager always succeeds; it removes exactly the coordinates and
dimensions named and the coordinates attached to a dimension named. -/
theorem C56_drop (m : CM) (hw : WellFormed m) (names : List String) : ∃ m', m.dropCoords names = .ok m' ∧ Dropped m m' names :=
  dropCoords_spec hw names

/-- **C56.** `Patch.drop_coords` refuses to drop a dimension; otherwise it succeeds, leaves the data alone, and drops
exactly the coordinates named. -/
theorem C56_drop_patch {α} (p : PatchM α) (hw : WellFormed p.cm) (hsh : p.cm.shape = p.data.shape) (names : List String) :
    ((∃ n ∈ names, n ∈ p.cm.dims) → p.dropCoords names = .error .parameterError) ∧
    ((∀ n ∈ names, n ∉ p.cm.dims) → ∃ q, p.dropCoords names = .ok q ∧ q.data = p.data ∧ q.cm.dims = p.cm.dims ∧
      ∀ name, q.cm.ents.get? name = if name ∈ names then none else p.cm.ents.get? name) := by
  constructor
  · rintro ⟨n, h1, h2⟩
    unfold PatchM.dropCoords
    rw [if_pos (List.any_eq_true.2 ⟨n, h1, by simpa using h2⟩)]
  · intro hno
    obtain ⟨m', h1, hD⟩ := dropCoords_spec hw names
    have hdims : m'.dims = p.cm.dims := by
      rw [hD.dims, List.filter_eq_self]
      intro d hd
      simp only [decide_eq_true_iff]
      exact fun hc => hno d hc hd
    have hget : ∀ name, m'.ents.get? name = if name ∈ names then none else p.cm.ents.get? name := by
      intro name
      cases hn : p.cm.ents.get? name with
      | none => rw [hD.none name hn]; split_ifs <;> rfl
      | some v =>
        obtain ⟨ds, c⟩ := v
        split_ifs with hmem
        · exact hD.gone name ds c hn (Or.inl hmem)
        · refine hD.kept name ds c hn hmem fun d hd hc => hno d hc (hw.attached _ _ _ (Dict.mem_of_get? hn) d hd)
    have hshape : m'.shape = p.data.shape := by
      rw [← hsh]
      unfold CM.shape
      rw [hdims]
      congr 1
      refine List.map_congr_left fun d hd => ?_
      unfold Ents.lenOf
      rw [hget, if_neg fun hc => hno d hc hd]
    refine ⟨⟨m', p.data⟩, ?_, rfl, hdims, hget⟩
    unfold PatchM.dropCoords
    rw [if_neg]
    · rw [h1]
      show PatchM.new m' p.data = _
      unfold PatchM.new
      rw [if_pos hshape]
    · simp only [List.any_eq_true, not_exists, not_and, Bool.not_eq_true]
      intro n hn
      simpa using hno n hn

example : WellFormed exPatch.cm ∧ exPatch.cm.shape = exPatch.data.shape ∧
    (exPatch.dropCoords ["lat"]).map (fun q => (q.cm.ents.map Prod.fst)) = .ok ["time", "distance", "depth"] ∧
    (exPatch.dropCoords ["lat", "time"]).map (fun q => q.data.shape) = .error .parameterError ∧
    (exCM.dropCoords ["time"]).map (fun m => (m.dims, m.ents.map Prod.fst)) = .ok (["distance"], ["distance", "depth"]) :=
  ⟨exCM_wf, by decide +kernel, by decide +kernel, by decide +kernel, by decide +kernel⟩

/-- A patch with a dimension of length one. -/
def thinPatch : PatchM ℕ := ⟨⟨["time", "distance"],
  [("time", ["time"], .one .int (.arr [3])), ("distance", ["distance"], .one .int (.range exUp)),
   ("depth", ["distance"], .one .int (.mono [9, 4, 3, 1])), ("lat", ["time"], .one .int (.mono [7]))]⟩, [1, 4], fun i => 10 * i.getD 0 0 + i.getD 1 0⟩

theorem thin_wf : WellFormed thinPatch.cm :=
  CM.mk?_wf (m := thinPatch.cm) (if_pos (by decide +kernel)) (by decide +kernel)

/-- **C56.** If `Patch.squeeze` succeeds, it removes exactly the dimensions named, which have length one (without names:
all dimensions of length one), with the coordinates attached to them; every element stays under its remaining
labels. Missing for the full property: that it succeeds (see the violation below), and dimensions of length zero. -/
theorem C56_squeeze_partial {α} (p q : PatchM α) (hw : WellFormed p.cm) (hn : DistinctDims p.cm) (hd : p.cm.dims ≠ [])
    (hsh : p.cm.shape = p.data.shape) (dim : Option (List String)) (hz : dim = none → ∀ d ∈ p.cm.dims, lenDim p.cm d ≠ 0)
    (h : p.squeeze dim = .ok q) : Squeezed p q (dim.getD (p.cm.dims.filter fun d => lenDim p.cm d = 1)) :=
  squeeze_spec hw hn hd hsh hz h

example : WellFormed thinPatch.cm ∧ DistinctDims thinPatch.cm ∧ thinPatch.cm.dims ≠ [] ∧ thinPatch.cm.shape = thinPatch.data.shape ∧
    (∀ d ∈ thinPatch.cm.dims, lenDim thinPatch.cm d ≠ 0) ∧
    (thinPatch.squeeze none).map (fun q => (q.cm.dims, q.cm.ents.map Prod.fst, q.data.shape, q.data.get [2])) =
      .ok (["distance"], ["distance", "depth"], [4], 2) ∧
    (thinPatch.squeeze (some ["time"])).map (fun q => q.data.shape) = .ok [4] ∧
    (thinPatch.squeeze (some ["distance"])).map (fun q => q.data.shape) = .error .coordError :=
  ⟨thin_wf, by unfold DistinctDims; decide +kernel, by decide, by decide +kernel, by decide +kernel, by decide +kernel, by decide +kernel,
    by decide +kernel⟩

/-- A patch all of whose dimensions have length one. -/
def dotPatch : PatchM ℕ := ⟨⟨["time", "distance"],
  [("time", ["time"], .one .int (.arr [3])), ("distance", ["distance"], .one .int (.arr [5]))]⟩, [1, 1], fun _ => 8⟩

/-- A patch with a dimension of length zero. -/
def emptyPatch : PatchM ℕ := ⟨⟨["time", "distance"],
  [("time", ["time"], .one .int (.part 0)), ("distance", ["distance"], .one .int (.arr [5]))]⟩, [0, 1], fun _ => 8⟩

/-- **C56 violated**: squeezing a patch with a single sample raises, because a manager without dimensions claims the
shape `(0,)` while the data has the shape `()`. And squeezing a patch with an empty dimension and one of length one drops
both from the coordinates but only one from the data: the result has no dimension and data of one dimension. -/
theorem C56_squeeze_violated :
    WellFormed dotPatch.cm ∧ dotPatch.cm.shape = dotPatch.data.shape ∧
    (dotPatch.squeeze none).map (fun q => q.data.shape) = .error .coordError ∧
    WellFormed emptyPatch.cm ∧ emptyPatch.cm.shape = emptyPatch.data.shape ∧
    (emptyPatch.squeeze none).map (fun q => (q.cm.dims, q.data.shape)) = .ok ([], [0]) :=
  ⟨CM.mk?_wf (m := dotPatch.cm) (if_pos (by decide +kernel)) (by decide +kernel), by decide +kernel, by decide +kernel,
    CM.mk?_wf (m := emptyPatch.cm) (if_pos (by decide +kernel)) (by decide +kernel), by decide +kernel, by decide +kernel⟩

/-! ## Updating coordinates -/

/-- **C57.** If `Patch.update_coords` succeeds, it leaves the data alone and changes exactly the coordinates named; besides,
only coordinates attached to a dimension that was dropped or got another length disappear. Not covered: names such as
`time_min` that stand for an attribute of a coordinate (`hplain`). -/
theorem C57_update_partial {α} (p q : PatchM α) (hw : WellFormed p.cm) (kw : Dict CArg) (hk : (kw.map Prod.fst).Nodup)
    (hplain : ∀ name ∈ kw.map Prod.fst, matchesPrefixSuffix p.cm.dims name = false) (h : p.updateCoords kw = .ok q) :
    Updated p.cm q.cm kw ∧ q.data = p.data ∧ WellFormed q.cm ∧ q.cm.shape = q.data.shape := by
  unfold PatchM.updateCoords at h
  simp only [bind, Except.bind] at h
  split at h
  · cases h
  rename_i cm hcm
  obtain ⟨rfl, hs⟩ := new_ok h
  exact ⟨(update_spec hw hk hplain hcm).toUpdated, rfl, (CM.update_wf hcm hw hk).1, hs⟩

/-- The same for a coordinate manager, whose dimensions may change length. -/
theorem C57_update_manager_partial (m m' : CM) (hw : WellFormed m) (kw : Dict CArg) (hk : (kw.map Prod.fst).Nodup)
    (hplain : ∀ name ∈ kw.map Prod.fst, matchesPrefixSuffix m.dims name = false) (h : m.update kw = .ok m') : Updated m m' kw :=
  (update_spec hw hk hplain h).toUpdated

example : WellFormed exPatch.cm ∧
    (([("quality", CArg.nested ["distance"] (.one .int (.arr [1, 2, 1, 2]))), ("depth", .drop), ("distance", .simple (.one .int (.arr [5, 9, 7, 1])))] :
      Dict CArg).map Prod.fst).Nodup ∧
    (exPatch.updateCoords [("quality", .nested ["distance"] (.one .int (.arr [1, 2, 1, 2]))), ("depth", .drop),
      ("distance", .simple (.one .int (.arr [5, 9, 7, 1])))]).map (fun q => (q.cm.ents.map Prod.fst, label q "distance" [0, 2])) =
      .ok (["time", "distance", "lat", "quality"], some (some 7)) ∧
    (exCM.update [("distance", .simple (.one .int (.arr [5, 9, 7])))]).map (fun m => (m.ents.map Prod.fst, m.shape)) =
      .ok (["time", "distance"], [2, 3]) ∧
    ["quality", "depth", "distance"].all (fun n => matchesPrefixSuffix exPatch.cm.dims n == false) = true :=
  ⟨exCM_wf, by decide +kernel, by decide +kernel, by decide +kernel, by decide +kernel⟩

/-- **C58.** If `Patch.append_dims` succeeds (the new names being new, and not of the form `time_min`), the new dimensions
come last in the order given, every element is copied along them, and all old labels are kept. -/
theorem C58_append_partial {α} (p q : PatchM α) (hw : WellFormed p.cm) (hd : p.cm.dims ≠ []) (hsh : p.cm.shape = p.data.shape)
    (kw : Dict MCoord) (hk : (kw.map Prod.fst).Nodup) (hplain : ∀ name ∈ kw.map Prod.fst, matchesPrefixSuffix p.cm.dims name = false)
    (hfresh : ∀ name ∈ kw.map Prod.fst, p.cm.ents.get? name = none) (h : p.appendDims kw = .ok q) : Extended p q kw :=
  appendDims_spec hw hd hsh hk hplain hfresh h

example : WellFormed exPatch.cm ∧ exPatch.cm.dims ≠ [] ∧ exPatch.cm.shape = exPatch.data.shape ∧
    exPatch.cm.ents.get? "shot" = none ∧ matchesPrefixSuffix exPatch.cm.dims "shot" = false ∧
    (exPatch.appendDims [("shot", .one .int (.arr [4, 2, 7])), ("blank", .one .int (.part 1))]).map
      (fun q => (q.cm.dims, q.data.shape, q.data.get [1, 1, 2, 0])) = .ok (["time", "distance", "shot", "blank"], [2, 4, 3, 1], 11) ∧
    (exPatch.appendDims [("shot", .one .int (.arr [4, 2, 7])), ("blank", .one .int (.part 1))]).map
      (fun q => (label q "shot" [1, 1, 2, 0], label q "depth" [1, 1, 2, 0])) = .ok (some (some 7), some (some 4)) := by
  refine ⟨exCM_wf, by decide, by decide +kernel, ?_, by decide +kernel, by decide +kernel, by decide +kernel⟩
  rfl

/-! ## Decimating -/

/-- **C52.** If `Patch.decimate(dim=n, filter_type=None)` with `n > 0` succeeds, the result consists of the samples at
positions `0, n, 2n, …` along the dimension, with their labels on that dimension and on every coordinate not attached to
it. Other coordinates attached to the dimension disappear (unless `n` keeps every sample). -/
theorem C52_decimate_partial {α} (p q : PatchM α) (hm : Regular p.cm) (hd : p.cm.dims ≠ []) (hsh : p.cm.shape = p.data.shape)
    (dim : String) (n : ℤ) (hn : 0 < n) (h : p.decimate dim n = .ok q) :
    dim ∈ p.cm.dims ∧ Thinned p q dim ((List.range (lenDim p.cm dim)).filter fun i => n ∣ (i : ℤ)) ∧
      Regular q.cm ∧ q.cm.shape = q.data.shape :=
  decimate_spec hm hd hsh hn h

example : Regular exPatch.cm ∧ exPatch.cm.dims ≠ [] ∧ exPatch.cm.shape = exPatch.data.shape ∧
    (exPatch.decimate "distance" 2).map (fun q => (q.data.shape, q.data.get [1, 1], label q "distance" [1, 1], label q "depth" [1, 1])) =
      .ok ([2, 2], 12, some (some 11), none) ∧
    (exPatch.decimate "distance" 3).map (fun q => (q.data.shape, q.data.get [1, 1], label q "distance" [1, 1])) =
      .ok ([2, 2], 13, some (some 14)) :=
  ⟨exCM_regular, by decide, by decide +kernel, by decide +kernel, by decide +kernel⟩

/-- **C52 violated** (negative factors are accepted): decimating by -1 reverses the data and the dimension, but not the
other coordinates attached to it: the sample at distance 14, which was at depth 1, is now said to be at depth 9. -/
theorem C52_negative_violated :
    (exPatch.decimate "distance" (-1)).map (fun q => (q.data.get [1, 0], label q "distance" [1, 0], label q "depth" [1, 0])) =
      .ok (13, some (some 14), some (some 9)) ∧
    (exPatch.data.get [1, 3], label exPatch "distance" [1, 3], label exPatch "depth" [1, 3]) = (13, some (some 14), some (some 1)) := by
  constructor <;> decide +kernel

/-! ## Dropping and filling nulls -/

/-- **C47.** If `Patch.dropna(dim, how)` succeeds, the labels kept along the dimension are, in their old order, exactly those
without a null sample (`how="any"`), or with a sample that is not null (`how="all"`); every sample kept has its labels on the
dimension and on every coordinate not attached to it. -/
theorem C47_dropna_partial {α} (nul : α → Bool) (all : Bool) (p q : PatchM α) (hm : Regular p.cm) (hd : p.cm.dims ≠ [])
    (hsh : p.cm.shape = p.data.shape) (dim : String) (h : p.dropna nul dim all = .ok q) :
    dim ∈ p.cm.dims ∧
      (∃ ps, Thinned p q dim ps ∧ ps.Pairwise (· < ·) ∧ ∀ k, k ∈ ps ↔ k < lenDim p.cm dim ∧ Clean nul all p dim k) ∧
      Regular q.cm ∧ q.cm.shape = q.data.shape :=
  dropna_spec hm hd hsh h

/-- **C47.** After `dropna(dim, how="any")` no sample is null. -/
theorem C47_no_nulls_left {α} (nul : α → Bool) (p q : PatchM α) (hm : Regular p.cm) (hd : p.cm.dims ≠ [])
    (hsh : p.cm.shape = p.data.shape) (dim : String) (h : p.dropna nul dim false = .ok q) :
    ∀ i, InRange q.data.shape i → nul (q.data.get i) = false := by
  obtain ⟨hdim, ⟨ps, hT, _, hps⟩, _, _⟩ := dropna_spec hm hd hsh h
  intro i hi
  obtain ⟨h1, h2⟩ := hT.data i hi
  rw [h2]
  have hi' := hi
  rw [hT.shape] at hi'
  have hpos := origin_getD (red := keepAlong p.cm dim ps) hdim (by simpa using inRange_length hi')
  have hk : (origin p.cm.dims (keepAlong p.cm dim ps) i).getD (p.cm.dims.idxOf dim) 0 ∈ ps := by
    rw [hpos]
    have hlt := inRange_getD hi' hdim
    have e : keepAlong p.cm dim ps dim = ps := by unfold keepAlong; rw [if_pos rfl]
    rw [e] at hlt
    rw [e]
    unfold lookup
    rw [List.getD_eq_getElem?_getD, List.getElem?_eq_getElem hlt]
    exact List.getElem_mem hlt
  have hc := ((hps _).1 hk).2
  unfold Clean at hc
  simp only [Bool.false_eq_true, if_false] at hc
  exact hc _ h1 rfl

example : Regular exPatch.cm ∧ exPatch.cm.dims ≠ [] ∧ exPatch.cm.shape = exPatch.data.shape ∧
    (exPatch.dropna (fun x => x == 12 || x == 1) "distance" false).map (fun q => (q.data.shape, q.data.get [1, 1], label q "distance" [1, 1])) =
      .ok ([2, 2], 13, some (some 14)) ∧
    (exPatch.dropna (fun x => x == 12 || x == 1) "distance" true).map (fun q => q.data.shape) = .ok [2, 4] ∧
    (exPatch.dropna (fun x => x == 12 || x == 2) "distance" true).map (fun q => q.data.shape) = .ok [2, 3] ∧
    (exPatch.dropna (fun x => x == 12 || x == 2) "depth" true).map (fun q => q.data.shape) = .error .parameterError :=
  ⟨exCM_regular, by decide, by decide +kernel, by decide +kernel, by decide +kernel, by decide +kernel, by decide +kernel⟩

/-- **C47.** `fillna` replaces exactly the null samples and leaves coordinates and other samples alone; if the value is
not null, no null is left. -/
theorem C47_fillna {α} (nul : α → Bool) (p : PatchM α) (v : α) :
    (p.fillna nul v).cm = p.cm ∧ (p.fillna nul v).data.shape = p.data.shape ∧
    (∀ i, nul (p.data.get i) = true → (p.fillna nul v).data.get i = v) ∧
    (∀ i, nul (p.data.get i) = false → (p.fillna nul v).data.get i = p.data.get i) ∧
    (nul v = false → ∀ i, nul ((p.fillna nul v).data.get i) = false) := by
  refine ⟨rfl, rfl, ?_, ?_, ?_⟩
  · intro i h; simp [PatchM.fillna, h]
  · intro i h; simp [PatchM.fillna, h]
  · intro hv i
    unfold PatchM.fillna
    simp only
    by_cases h : nul (p.data.get i) = true
    · rw [if_pos h]; exact hv
    · rw [if_neg h]; simpa using h

example : ((exPatch.fillna (fun x => x == 12) 77).data.get [1, 2], (exPatch.fillna (fun x => x == 12) 77).data.get [1, 1]) = (77, 11) := by
  decide +kernel

/-! ## Flipping -/

/-- **C45.** If `Patch.flip(*dims)` succeeds and no coordinate is attached to two of the dimensions, the data and every
coordinate are reversed along the dimensions: every sample keeps all its labels. -/
theorem C45_flip_partial {α} (p q : PatchM α) (hm : Regular p.cm) (hd : p.cm.dims ≠ []) (hsh : p.cm.shape = p.data.shape)
    (dims : List String) (hne : dims ≠ []) (ho : AttachedOnce p.cm dims) (h : p.flip dims true = .ok q) :
    (∀ d ∈ dims, d ∈ p.cm.dims) ∧ Rearranged p q (mirrored p.cm dims) ∧ Regular q.cm ∧ q.cm.shape = q.data.shape :=
  flip_spec hm hd hsh hne ho h

/-- **C45.** Flipping twice restores the data, and the labels of every coordinate that a coordinate can store unaltered. -/
theorem C45_flip_twice_partial {α} (p q r : PatchM α) (hm : Regular p.cm) (hd : p.cm.dims ≠ []) (hsh : p.cm.shape = p.data.shape)
    (dims : List String) (ho : AttachedOnce p.cm dims) (h : p.flip dims true = .ok q) (h' : q.flip dims true = .ok r) :
    r.cm.dims = p.cm.dims ∧ r.data.shape = p.data.shape ∧ ∀ i, InRange p.data.shape i → r.data.get i = p.data.get i ∧
      ∀ name, StorableAfter p.cm (mirrored p.cm dims) name → StorableAfter q.cm (mirrored q.cm dims) name →
        label r name i = label p name i := by
  by_cases hne : dims = []
  · subst hne
    cases h; cases h'
    exact ⟨rfl, rfl, fun i _ => ⟨rfl, fun _ _ _ => rfl⟩⟩
  have hshape : ∀ x : PatchM α, x.cm.dims ≠ [] → x.cm.shape = x.data.shape → x.data.shape = x.cm.dims.map (lenDim x.cm) := by
    intro x h1 h2
    rw [← h2]; unfold CM.shape; rw [if_neg h1]; rfl
  obtain ⟨_, hR, hq, hqs⟩ := flip_spec hm hd hsh hne ho h
  have ho' : AttachedOnce q.cm dims := by
    intro name ds c hc
    have := hR.attached name
    rw [hc] at this
    obtain ⟨v, hv, e⟩ := Option.map_eq_some_iff.1 this.symm
    have e' : ds = v.1 := e.symm
    rw [e']
    exact ho name v.1 v.2 hv
  obtain ⟨_, hR', hr, hrs⟩ := flip_spec hq (by rw [hR.dims]; exact hd) hqs hne ho' h'
  have hsp := hshape p hd hsh
  have hsq := hshape q (by rw [hR.dims]; exact hd) hqs
  have hlen : ∀ (m : CM) (d : String), (mirrored m dims d).length = lenDim m d := by
    intro m d; unfold mirrored; split_ifs <;> simp
  have hpq : q.data.shape = p.data.shape := by
    rw [hR.shape, hsp]; exact List.map_congr_left fun d _ => hlen _ _
  have hqr : r.data.shape = q.data.shape := by
    rw [hR'.shape, hsq]; exact List.map_congr_left fun d _ => hlen _ _
  have hl : ∀ d ∈ p.cm.dims, lenDim q.cm d = lenDim p.cm d := by
    rw [hsp, hsq, hR.dims] at hpq
    exact List.map_inj_left.1 hpq
  refine ⟨by rw [hR'.dims, hR.dims], by rw [hqr, hpq], ?_⟩
  intro i hi
  have hi' : InRange r.data.shape i := by rw [hqr, hpq]; exact hi
  obtain ⟨b1, b2⟩ := hR'.data i hi'
  obtain ⟨a1, a2⟩ := hR.data _ b1
  have hback : origin p.cm.dims (mirrored p.cm dims) (origin q.cm.dims (mirrored q.cm dims) i) = i := by
    rw [hR.dims]
    exact origin_mirrored hl (hsp ▸ hi)
  rw [hback] at a2
  refine ⟨by rw [b2, a2], ?_⟩
  intro name s1 s2
  rw [hR'.labels name s2 i hi', hR.labels name s1 _ b1, hback]

theorem ex_attachedOnce : AttachedOnce exPatch.cm ["time"] := by
  intro name ds c _ d _ e _ h1 h2
  simp only [List.mem_singleton] at h1 h2
  rw [h1, h2]

example : Regular exPatch.cm ∧ exPatch.cm.dims ≠ [] ∧ exPatch.cm.shape = exPatch.data.shape ∧ AttachedOnce exPatch.cm ["time"] ∧
    (exPatch.flip ["time"] true).map (fun q => (q.data.get [0, 2], label q "time" [0, 2], label q "lat" [0, 2])) =
      .ok (12, some (some 1), some (some 12)) ∧
    ((exPatch.flip ["time"] true).bind fun q => q.flip ["time"] true).map (fun q => (q.data.get [0, 2], label q "time" [0, 2])) =
      .ok (2, some (some 3)) :=
  ⟨exCM_regular, by decide, by decide +kernel, ex_attachedOnce, by decide +kernel, by decide +kernel⟩

/-- **C45 violated** (two dimensions flipped at once): the sample with latitude 13 is in the corner after flipping both
dimensions, but the two dimensional coordinate `lat` has only been flipped along the last of them. -/
theorem C45_flip_violated :
    (exPatch.data.get [1, 3], label exPatch "lat" [1, 3]) = (13, some (some 13)) ∧
    (exPatch.flip ["time", "distance"] true).map (fun q => (q.data.get [0, 0], label q "lat" [0, 0])) = .ok (13, some (some 3)) := by
  constructor <;> decide +kernel

/-- **C45.** With `flip_coords=False` the data is reversed and no coordinate changes. -/
theorem C45_flip_data_only {α} (p q : PatchM α) (hd : p.cm.dims ≠ []) (hsh : p.cm.shape = p.data.shape)
    (dims : List String) (hne : dims ≠ []) (h : p.flip dims false = .ok q) :
    q.cm = p.cm ∧ ∀ i, q.data.get i = p.data.get (origin p.cm.dims (mirrored p.cm dims) i) := by
  have hshape : p.data.shape = p.cm.dims.map p.cm.ents.lenOf := by
    rw [← hsh]; unfold CM.shape; rw [if_neg hd]
  unfold PatchM.flip at h
  simp only [List.isEmpty_iff, hne, if_false, Bool.false_eq_true] at h
  split at h
  · cases h
  split at h
  · cases h
  simp only [bind, Except.bind] at h
  split at h
  · cases h
  rename_i a ha
  obtain ⟨rfl, _⟩ := new_ok h
  refine ⟨rfl, ?_⟩
  have hx : ∀ e ∈ p.cm.dims, (if dims.contains e then CM.revSlice else Indexer.slice {}).positions (p.cm.ents.lenOf e) =
      .ok (mirrored p.cm dims e) := by
    intro e _
    unfold mirrored
    simp only [List.contains_iff_mem]
    split_ifs with he
    · exact rev_positions _
    · exact slice_all_positions _
  exact (indexTuple_spec (x := fun e => if dims.contains e then CM.revSlice else Indexer.slice {}) hshape hx ha).2

example : (exPatch.flip ["distance"] false).map (fun q => (q.data.get [1, 0], label q "distance" [1, 0])) = .ok (13, some (some 5)) := by
  decide +kernel

/-! ## Padding -/

/-- **C45.** If `Patch.pad` (with amounts in samples) succeeds on dimensions whose labels increase evenly, every sample of
the old patch is in the new one under its old labels, all others are the fill value, and the labels continue evenly on both
sides. Coordinates that are not evenly sampled are not covered: their new labels are null. -/
theorem C45_pad_partial {α} (p q : PatchM α) (hm : Regular p.cm) (hd : p.cm.dims ≠ []) (hsh : p.cm.shape = p.data.shape)
    (kw : Dict (ℕ × ℕ)) (hkn : (kw.map Prod.fst).Nodup) (fill : α)
    (hpos : ∀ d k c, d ∈ kw.map Prod.fst → p.cm.ents.get? d = some ([d], .one k (.range c)) → 0 < c.step)
    (h : p.pad kw fill = .ok q) : Padded p q kw fill :=
  pad_spec hm hd hsh hkn hpos h

example : Regular exPatch.cm ∧ exPatch.cm.dims ≠ [] ∧ exPatch.cm.shape = exPatch.data.shape ∧ 0 < exUp.step ∧
    (exPatch.pad [("distance", (1, 2))] 99).map (fun q => (q.data.shape, q.data.get [1, 1], q.data.get [0, 0])) = .ok ([2, 7], 10, 99) ∧
    (exPatch.pad [("distance", (1, 2))] 99).map (fun q => (label q "distance" [0, 0], label q "distance" [0, 1], label q "distance" [0, 6])) =
      .ok (some (some 2), some (some 5), some (some 20)) :=
  ⟨exCM_regular, by decide, by decide +kernel, by decide +kernel, by decide +kernel, by decide +kernel⟩

/-- A patch whose distance decreases. -/
def downPatch : PatchM ℕ := ⟨⟨["distance"], [("distance", ["distance"], .one .int (.range ⟨14, 2, -3, 4⟩))]⟩, [4], fun i => i.getD 0 0⟩

/-- **C45 violated** (decreasing labels): a patch with decreasing labels cannot be padded; the new labels are counted from
the smallest label towards smaller ones, so that there are too few. -/
theorem C45_pad_violated : WellFormed downPatch.cm ∧ downPatch.cm.shape = downPatch.data.shape ∧
    (downPatch.pad [("distance", (2, 2))] 99).map (fun q => q.data.shape) = .error .coordError ∧
    PatchM.padCoord ⟨14, 2, -3, 4⟩ (2, 2) = .ok (.range ⟨11, 5, -3, 2⟩) :=
  ⟨CM.mk?_wf (m := downPatch.cm) (if_pos (by decide +kernel)) (by decide +kernel), by decide +kernel, by decide +kernel, by decide +kernel⟩

/-! ## Rolling -/

/-- **C45.** If `Patch.roll(dim=v)` succeeds, the data is rotated by `v` along the dimension. With `update_coord=False` no
coordinate changes; with `update_coord=True` every sample keeps its label on the dimension and on the coordinates not attached
to it. -/
theorem C45_roll_partial {α} (p q : PatchM α) (hm : Regular p.cm) (hd : p.cm.dims ≠ []) (hsh : p.cm.shape = p.data.shape)
    (dim : String) (v : ℤ) (upd : Bool) (h : p.roll dim v upd = .ok q) :
    dim ∈ p.cm.dims ∧ (upd = true → Thinned p q dim (turned (lenDim p.cm dim) v)) ∧ (upd = false → q.cm = p.cm) ∧
      q.data.shape = p.data.shape ∧
      (∀ i, InRange q.data.shape i → q.data.get i = p.data.get (origin p.cm.dims (keepAlong p.cm dim (turned (lenDim p.cm dim) v)) i)) ∧
      Regular q.cm ∧ q.cm.shape = q.data.shape :=
  roll_spec hm hd hsh h

theorem turned_back {n k : ℕ} (hk : k < n) (v : ℤ) : (turned n v).getD ((turned n (-v)).getD k 0) 0 = k := by
  have hn : (0 : ℤ) < n := by omega
  have get : ∀ (j : ℕ) (w : ℤ), j < n → (turned n w).getD j 0 = (((j : ℤ) - w) % n).toNat := by
    intro j w hj
    unfold turned
    rw [List.getD_eq_getElem?_getD, List.getElem?_map, List.getElem?_range hj]; rfl
  have hnn : 0 ≤ ((k : ℤ) - -v) % n := Int.emod_nonneg _ hn.ne'
  have hlt : (((k : ℤ) - -v) % n) < n := Int.emod_lt_of_pos _ hn
  rw [get k (-v) hk, get _ v (by omega), Int.toNat_of_nonneg hnn, Int.emod_sub_emod, sub_neg_eq_add, add_sub_cancel_right,
    Int.emod_eq_of_lt (by omega) (by omega)]
  rfl

/-- **C45.** Rolling by `v` and then by `-v` restores the data. -/
theorem C45_roll_back {α} (p q r : PatchM α) (hm : Regular p.cm) (hd : p.cm.dims ≠ []) (hsh : p.cm.shape = p.data.shape)
    (dim : String) (v : ℤ) (u u' : Bool) (h : p.roll dim v u = .ok q) (h' : q.roll dim (-v) u' = .ok r) :
    r.data.shape = p.data.shape ∧ ∀ i, InRange p.data.shape i → r.data.get i = p.data.get i := by
  obtain ⟨hdim, hT, hF, hs, hg, hq, hqs⟩ := roll_spec hm hd hsh h
  have hdims : q.cm.dims = p.cm.dims := by
    cases u with
    | true => exact (hT rfl).dims
    | false => rw [hF rfl]
  obtain ⟨_, _, _, hs', hg', _, _⟩ := roll_spec hq (by rw [hdims]; exact hd) hqs h'
  have hshape : ∀ x : PatchM α, x.cm.dims ≠ [] → x.cm.shape = x.data.shape → x.data.shape = x.cm.dims.map (lenDim x.cm) := by
    intro x h1 h2
    rw [← h2]; unfold CM.shape; rw [if_neg h1]; rfl
  have hsp := hshape p hd hsh
  have hsq := hshape q (by rw [hdims]; exact hd) hqs
  have hl : ∀ d ∈ p.cm.dims, lenDim q.cm d = lenDim p.cm d := by
    rw [hsp, hsq, hdims] at hs
    exact List.map_inj_left.1 hs
  refine ⟨by rw [hs', hs], ?_⟩
  intro i hi
  have hi' : InRange r.data.shape i := by rw [hs', hs]; exact hi
  rw [hg' i hi']
  rw [hdims]
  have key : ∀ l : List String, (∀ d ∈ l, d ∈ p.cm.dims) → ∀ i, InRange (l.map (lenDim p.cm)) i →
      origin l (keepAlong p.cm dim (turned (lenDim p.cm dim) v)) (origin l (keepAlong q.cm dim (turned (lenDim q.cm dim) (-v))) i) = i ∧
      InRange (l.map (lenDim p.cm)) (origin l (keepAlong q.cm dim (turned (lenDim q.cm dim) (-v))) i) := by
    intro l
    induction l with
    | nil => intro _ i hi; cases hi; exact ⟨rfl, .nil⟩
    | cons d l ih =>
      intro hmem i hi
      cases hi with
      | cons h1 h2 =>
        rename_i j js
        obtain ⟨e1, e2⟩ := ih (fun d hd => hmem d (List.mem_cons_of_mem _ hd)) _ h2
        have hld := hl d (hmem d List.mem_cons_self)
        have hldim := hl dim hdim
        unfold origin at e1 e2 ⊢
        simp only [List.map_cons, List.zipWith_cons_cons]
        have step : (keepAlong p.cm dim (turned (lenDim p.cm dim) v) d).getD ((keepAlong q.cm dim (turned (lenDim q.cm dim) (-v)) d).getD j 0) 0 = j ∧
            (keepAlong q.cm dim (turned (lenDim q.cm dim) (-v)) d).getD j 0 < lenDim p.cm d := by
          unfold keepAlong
          split_ifs with he
          · subst he
            rw [hldim]
            refine ⟨turned_back h1 v, ?_⟩
            rw [List.getD_eq_getElem?_getD, List.getElem?_eq_getElem (by simpa [turned] using h1)]
            exact turned_lt (v := -v) _ (List.getElem_mem _)
          · rw [hld]
            have hr : (List.range (lenDim p.cm d)).getD j 0 = j := by
              rw [List.getD_eq_getElem?_getD, List.getElem?_range h1]; rfl
            rw [hr, hr]
            exact ⟨rfl, h1⟩
        rw [e1]
        refine ⟨by rw [step.1], .cons step.2 e2⟩
  obtain ⟨k1, k2⟩ := key p.cm.dims (fun _ h => h) i (hsp ▸ hi)
  rw [hg _ (by rw [hs, hsp]; exact k2), k1]

example : Regular exPatch.cm ∧ exPatch.cm.dims ≠ [] ∧ exPatch.cm.shape = exPatch.data.shape ∧
    (exPatch.roll "distance" 1 true).map (fun q => (q.data.get [1, 1], q.data.get [1, 0], label q "distance" [1, 0], label q "distance" [1, 1])) =
      .ok (10, 13, some (some 14), some (some 5)) ∧
    (exPatch.roll "distance" (-5) false).map (fun q => (q.data.get [1, 0], label q "distance" [1, 0])) = .ok (11, some (some 5)) ∧
    (exPatch.roll "time" 1 false).map (fun q => q.data.get [1, 0]) = .error .coordError :=
  ⟨exCM_regular, by decide, by decide +kernel, by decide +kernel, by decide +kernel, by decide +kernel⟩

/-- **C45 violated** (other coordinates): rolling with `update_coord=True` moves the labels of the dimension but not those of
another coordinate attached to it: the sample at distance 5 was at depth 9 and is now said to be at depth 4. -/
theorem C45_roll_violated :
    (exPatch.data.get [1, 0], label exPatch "distance" [1, 0], label exPatch "depth" [1, 0]) = (10, some (some 5), some (some 9)) ∧
    (exPatch.roll "distance" 1 true).map (fun q => (q.data.get [1, 1], label q "distance" [1, 1], label q "depth" [1, 1])) =
      .ok (10, some (some 5), some (some 4)) := by
  constructor <;> decide +kernel

end Verif
