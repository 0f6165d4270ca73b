import Verif.Proof.Rename
import Verif.Props.Patch
/-! # Property theorems: sorting, transposing and renaming a patch (C17, C18, C19) -/
namespace Verif
open Spec

/-- **C17.** `Patch.sort_coords` rearranges each dimension by a permutation: nothing is lost, every element keeps its
value and its labels (for labels a coordinate can store), the coordinates named (all dimensions if none is named)
are in the order asked for, and dimensions to which none of them is attached are left alone. Missing, see
`C17_sort_class_violated`: the coordinates that were moved along stay valid. -/
theorem C17_sort_partial {α} (argsort : List ℚ → List ℕ) (ha : IsArgsort argsort) (p q : PatchM α) (hm : Regular p.cm)
    (hd : p.cm.dims ≠ []) (hsh : p.cm.shape = p.data.shape) (names : List String) (reverse : Bool)
    (h : p.sortCoords argsort names reverse = .ok q) :
    ∃ red, Rearranged p q red ∧
      (∀ d c n, p.cm.ents.get? d = some ([d], c) → c.shape = [n] → (red d).Perm (List.range n)) ∧
      (∀ name ∈ (if names = [] then p.cm.dims else names), ∀ d k c, p.cm.ents.get? name = some ([d], .one k c) →
        InOrder reverse (takeIdx c.vals (red d))) ∧
      (∀ d c n, p.cm.ents.get? d = some ([d], c) → c.shape = [n] →
        (∀ name ∈ (if names = [] then p.cm.dims else names), ∀ c, p.cm.ents.get? name ≠ some ([d], c)) → red d = List.range n) := by
  obtain ⟨red, h1, h2, h3, h4⟩ := sort_spec ha hm hd hsh h
  have hlen : ∀ d c n, p.cm.ents.get? d = some ([d], c) → c.shape = [n] → p.cm.ents.lenOf d = n := by
    intro d c n hc hs
    unfold Ents.lenOf; rw [hc]; simp [MCoord.len, hs]
  have hmem : ∀ d c, p.cm.ents.get? d = some ([d], c) → d ∈ p.cm.dims :=
    fun d c hc => hm.wf.attached d [d] c (Dict.mem_of_get? hc) d (by simp)
  refine ⟨red, h1, ?_, h3, ?_⟩
  · intro d c n hc hs
    rw [← hlen d c n hc hs]; exact h2 d (hmem d c hc)
  · intro d c n hc hs hno
    rw [← hlen d c n hc hs]; exact h4 d (hmem d c hc) hno

/-- Sorting the example by time (3, 1) and by depth (9, 4, 3, 1). -/
example : ((exPatch.sortCoords stableArgsort ["time", "depth"] false).map
      fun q => (q.data.get [0, 0], label q "time" [0, 0], label q "depth" [0, 0], label q "lat" [0, 0])) =
    .ok (13, some (some 1), some (some 1), some (some 13)) := by decide +kernel

/-! ## C18 -/

/-- **C18.** A transpose succeeds exactly when the request names a permutation of the dimensions, and then gives the
dimensions in the order requested. -/
theorem C18_dims {α} (p : PatchM α) (hw : WellFormed p.cm) (hn : DistinctDims p.cm) (hd : p.cm.dims ≠ [])
    (hsh : p.cm.shape = p.data.shape) (new : List CM.TDim) (full : List String) :
    (∃ q, p.transpose new = .ok q ∧ q.cm.dims = full) ↔ Requested p.cm.dims new full ∧ full.Perm p.cm.dims := by
  rw [← CM.transpose_spec hw hn]
  have hshape : p.data.shape = p.cm.dims.map p.cm.ents.lenOf := by
    rw [← hsh]; unfold CM.shape; rw [if_neg hd]
  constructor
  · rintro ⟨q, h, rfl⟩
    unfold PatchM.transpose at h
    simp only [bind, Except.bind] at h
    split at h
    · cases h
    · rename_i m' hm'
      unfold PatchM.new at h
      split_ifs at h
      cases h
      exact ⟨m', hm', rfl⟩
  · rintro ⟨m', h, rfl⟩
    have hp : m'.dims.Perm p.cm.dims := ((CM.transpose_spec hw hn new m'.dims).1 ⟨m', h, rfl⟩).2
    have hne : m'.dims ≠ [] := by
      intro e; rw [e] at hp; exact hd (List.nil_perm.1 hp)
    refine ⟨⟨m', p.data.transpose (m'.dims.map fun d => p.cm.dims.idxOf d)⟩, ?_, rfl⟩
    unfold PatchM.transpose
    rw [h]
    simp only [bind, Except.bind]
    unfold PatchM.new
    rw [if_pos]
    rw [transpose_shape hshape hp]
    unfold CM.shape
    rw [if_neg hne, CM.transpose_ents h]

theorem transpose_data {α} {p q : PatchM α} (hw : WellFormed p.cm) (hn : DistinctDims p.cm) (hd : p.cm.dims ≠ [])
    (hsh : p.cm.shape = p.data.shape) {new : List CM.TDim} (h : p.transpose new = .ok q) :
    q.cm.dims.Perm p.cm.dims ∧ q.cm = ⟨q.cm.dims, p.cm.ents⟩ ∧ q.data.shape = q.cm.dims.map p.cm.ents.lenOf ∧
      q.cm.shape = q.data.shape ∧ p.data.shape = p.cm.dims.map p.cm.ents.lenOf ∧
      ∀ i, q.data.get i = p.data.get (untranspose p.cm.dims q.cm.dims i) := by
  have hshape : p.data.shape = p.cm.dims.map p.cm.ents.lenOf := by
    rw [← hsh]; unfold CM.shape; rw [if_neg hd]
  have hp := ((C18_dims p hw hn hd hsh new q.cm.dims).1 ⟨q, h, rfl⟩).2
  unfold PatchM.transpose at h
  simp only [bind, Except.bind] at h
  split at h
  · cases h
  · rename_i m' hm'
    unfold PatchM.new at h
    split_ifs at h with hs
    cases h
    refine ⟨hp, ?_, transpose_shape hshape hp, hs, hshape, ?_⟩
    · simp only
      rw [← CM.transpose_ents hm']
    · intro i
      exact transpose_get hn hp (by rw [hshape]; simp) i

/-- **C18.** Every element of the transposed patch is an element of the original and carries the same labels on every
coordinate; every element of the original appears. The coordinates themselves are untouched. -/
theorem C18_labels {α} (p q : PatchM α) (hw : WellFormed p.cm) (hn : DistinctDims p.cm) (hd : p.cm.dims ≠ [])
    (hsh : p.cm.shape = p.data.shape) (new : List CM.TDim) (h : p.transpose new = .ok q) :
    q.cm.ents = p.cm.ents ∧
    ∃ f, KeepsLabels p q f ∧ ∀ j, InRange p.data.shape j → ∃ i, InRange q.data.shape i ∧ f i = j := by
  obtain ⟨hp, hq, hs, _, hps, hg⟩ := transpose_data hw hn hd hsh h
  refine ⟨by rw [hq], untranspose p.cm.dims q.cm.dims, ?_, ?_⟩
  · intro i hi
    rw [hs] at hi
    refine ⟨?_, hg i, ?_⟩
    · rw [hps]
      exact inRange_map fun d hdd => inRange_getD hi (hp.mem_iff.2 hdd)
    · intro name
      unfold label
      have he : q.cm.ents = p.cm.ents := by rw [hq]
      rw [he]
      cases hc : p.cm.ents.get? name with
      | none => rfl
      | some v =>
        obtain ⟨ds, c⟩ := v
        cases ds with
        | nil => rfl
        | cons d ds =>
          simp only
          congr 1
          unfold labelAt
          congr 1
          apply List.map_congr_left
          intro e he
          rw [untranspose_getD (hw.attached name _ c (Dict.mem_of_get? hc) e he)]
  · intro j hj
    refine ⟨untranspose q.cm.dims p.cm.dims j, ?_, ?_⟩
    · rw [hs]
      rw [hps] at hj
      exact inRange_map fun d hdd => inRange_getD hj (hp.mem_iff.1 hdd)
    · apply untranspose_untranspose hn hp
      have := inRange_length hj
      rw [hps] at this
      simpa using this

/-- **C18.** Transposing back restores the patch: the same coordinates, the same shape, the same elements. -/
theorem C18_back {α} (p q : PatchM α) (hw : WellFormed p.cm) (hn : DistinctDims p.cm) (hd : p.cm.dims ≠ [])
    (hsh : p.cm.shape = p.data.shape) (new : List CM.TDim) (h : p.transpose new = .ok q) :
    ∃ r, q.transpose (p.cm.dims.map .dim) = .ok r ∧ r.cm = p.cm ∧ r.data.shape = p.data.shape ∧
      ∀ i, InRange p.data.shape i → r.data.get i = p.data.get i := by
  obtain ⟨hp, hq, hs, hqs, hps, hg⟩ := transpose_data hw hn hd hsh h
  have hqw : WellFormed q.cm := by
    unfold PatchM.transpose at h
    simp only [bind, Except.bind] at h
    split at h
    · cases h
    · rename_i m' hm'
      unfold PatchM.new at h
      split_ifs at h
      cases h
      exact (CM.transpose_wf hm' hw).1
  have hqn : DistinctDims q.cm := hp.nodup_iff.2 hn
  have hqd : q.cm.dims ≠ [] := by intro e; rw [e] at hp; exact hd (List.nil_perm.1 hp)
  obtain ⟨r, hr, hrd⟩ := (C18_dims q hqw hqn hqd hqs (p.cm.dims.map .dim) p.cm.dims).2
    ⟨Or.inr (Or.inl ⟨by simpa using hd, rfl⟩), hp.symm⟩
  obtain ⟨hp', hq', hs', _, hps', hg'⟩ := transpose_data hqw hqn hqd hqs hr
  have he : q.cm.ents = p.cm.ents := by rw [hq]
  refine ⟨r, hr, ?_, ?_, ?_⟩
  · rw [hq', hrd, he]
  · rw [hs', hrd, he, hps]
  · intro i hi
    rw [hg', hg, hrd, untranspose_untranspose hn hp]
    have := inRange_length hi
    rw [hps] at this
    simpa using this

example : WellFormed exPatch.cm ∧ DistinctDims exPatch.cm ∧ exPatch.cm.dims ≠ [] ∧ exPatch.cm.shape = exPatch.data.shape ∧
    (exPatch.transpose [.dots, .dim "time"]).map (fun q => (q.cm.dims, q.data.shape, q.data.get [3, 1], label q "lat" [3, 1])) =
      .ok (["distance", "time"], [4, 2], 13, some (some 13)) ∧
    (exPatch.transpose [.dim "time"]).map (fun q => q.cm.dims) = .error .parameterError :=
  ⟨exCM_wf, exCM_distinct, by decide, by decide +kernel, by decide +kernel, by decide +kernel⟩

/-! ## C19 -/

/-- **C19.** Renaming coordinates or dimensions to names that are not in use (and are all different) succeeds, and gives
the patch in which exactly these names are replaced: the same dimensions in the same order, every coordinate under
its new name with the same values and the same attachments, none lost; the data and the labels of every element are
the same. Missing: renamings that reuse a name which another part of the renaming frees, see `C19_swap_violated`. -/
theorem C19_rename_partial {α} (p : PatchM α) (hw : WellFormed p.cm) (hn : DistinctDims p.cm) (hsh : p.cm.shape = p.data.shape)
    (kw : List (String × String)) (hk : (kw.map Prod.fst).Nodup) (ht : (kw.map Prod.snd).Nodup)
    (hf : ∀ r ∈ kw, r.1 ∈ p.cm.ents.map Prod.fst ∧ (r.1 ≠ r.2 → r.2 ∉ p.cm.ents.map Prod.fst)) :
    ∃ q, p.rename kw = .ok q ∧ Renamed p.cm q.cm (newName kw) ∧ q.data = p.data ∧ WellFormed q.cm ∧ DistinctDims q.cm ∧
      ∀ name ∈ p.cm.ents.map Prod.fst, ∀ i, label q (newName kw name) i = label p name i := by
  have hnamed : Named p.cm := by
    refine ⟨hw.names, ?_, hw.attached, hn⟩
    intro d hd
    obtain ⟨c, _, h, _⟩ := hw.own d hd
    exact List.mem_map.2 ⟨_, h, rfl⟩
  obtain ⟨m', h1, h2, h3⟩ := renameFold_spec kw p.cm hnamed hk ht hf
  obtain ⟨h4, h5⟩ := renamed_wf h2 hw h3
  have hinj := newName_inj ht hf
  refine ⟨⟨m', p.data⟩, ?_, h2, rfl, CM.mk?_wf h4 h3.names, h3.dims, ?_⟩
  · unfold PatchM.rename CM.rename
    rw [h1]
    simp only [bind, Except.bind, h4]
    unfold PatchM.new
    rw [if_pos]
    rw [← hsh]
    unfold CM.shape
    rw [h2.dims]
    by_cases hd : p.cm.dims = []
    · simp [hd]
    · rw [if_neg (by simpa using hd), if_neg hd, List.map_map]
      exact List.map_congr_left h5
  · intro name hname i
    obtain ⟨⟨n, ds, c⟩, he, rfl⟩ := List.mem_map.1 hname
    have e1 := Dict.get?_of_mem hw.names he
    have e2 := Dict.get?_of_mem h3.names (h2.ents _ _ _ he)
    unfold label
    simp only [e1, e2]
    cases ds with
    | nil => rfl
    | cons d ds =>
      rw [List.map_cons]
      simp only
      congr 1
      unfold labelAt
      congr 1
      rw [← List.map_cons, List.map_map]
      apply List.map_congr_left
      intro e he'
      have hed := hw.attached _ _ _ he e he'
      simp only [Function.comp]
      rw [h2.dims, idxOf_map_inj (f := newName kw) fun y hy hyx => hinj y (hnamed.own y hy) e (hnamed.own e hed) hyx]

example : (∀ r ∈ [("time", "t"), ("depth", "z")], r.1 ∈ exPatch.cm.ents.map Prod.fst ∧ (r.1 ≠ r.2 → r.2 ∉ exPatch.cm.ents.map Prod.fst)) ∧
    (exPatch.rename [("time", "t"), ("depth", "z")]).map (fun q => (q.cm.dims, q.cm.ents.map fun e => (e.1, e.2.1))) =
      .ok (["t", "distance"], [("distance", ["distance"]), ("lat", ["t", "distance"]), ("t", ["t"]), ("z", ["distance"])]) := by
  constructor <;> decide +kernel

/-- **C19 violated.** Exchanging the names of two coordinates: the exchange of two dimensions raises; the exchange of two
coordinates that are not dimensions loses one of them and leaves the other as it was; renaming one coordinate to
the name of another silently drops the latter. -/
theorem C19_swap_violated :
    (exPatch.rename [("time", "distance"), ("distance", "time")]).map (fun q => q.cm.dims) = .error .coordError ∧
    (exPatch.rename [("depth", "lat"), ("lat", "depth")]).map (fun q => q.cm.ents.map fun e => (e.1, e.2.1)) =
      .ok [("time", ["time"]), ("distance", ["distance"]), ("depth", ["distance"])] ∧
    (exPatch.rename [("depth", "lat")]).map (fun q => q.cm.ents.map fun e => (e.1, e.2.1)) =
      .ok [("time", ["time"]), ("distance", ["distance"]), ("lat", ["distance"])] := by
  refine ⟨?_, ?_, ?_⟩ <;> decide +kernel

end Verif
