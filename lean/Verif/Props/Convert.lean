import Verif.Proof.Convert
import Verif.Props.PatchShape
import Verif.Props.Aggregate
/-!
# Property theorems: patches converted to data frames and data arrays, and back (C99)

`Spec.Converted` says what is kept of a patch. Attributes are not part of these theorems.
-/
namespace Verif
open Spec
variable {α : Type}

theorem converted_congr {p q : PatchM α} {K L : String → Prop} (h : Converted p q K) (hKL : ∀ n, K n ↔ L n) : Converted p q L :=
  ⟨h.dims, h.data, h.shape, fun n ds c hn => h.coords n ds c ((hKL n).2 hn), fun n ds k r hn => h.even n ds k r ((hKL n).2 hn), fun n hn => h.others n fun hc => hn ((hKL n).1 hc)⟩

/-- **C99.** A patch of two dimensions becomes a data frame with its samples, whose rows and columns have the labels and the names of the dimensions; from the frame, with any attributes,
comes a patch with the same samples, dimensions and labels. Other coordinates are lost. -/
theorem C99_frame (p : PatchM α) (hm : Regular p.cm) (hr : Readable p.cm) (hsh : p.cm.shape = p.data.shape) (a b : String) (hd : p.cm.dims = [a, b]) (hn : a ≠ "" ∧ b ≠ "")
    (attrs : Option DimsAttr) :
    ∃ f q ci cc, p.toFrame = .ok f ∧ f.data = p.data ∧ f.indexName = some a ∧ f.columnName = some b ∧ p.cm.ents.get? a = some ([a], ci) ∧ f.index.arr = ci.arr ∧
      p.cm.ents.get? b = some ([b], cc) ∧ f.columns.arr = cc.arr ∧ f.toPatch attrs = .ok q ∧ Converted p q fun n => n ∈ p.cm.dims := by
  obtain ⟨ci, _, hci, _⟩ := CM.WellFormed.get_dim hm.wf (d := a) (by rw [hd]; simp)
  obtain ⟨cc, _, hcc, _⟩ := CM.WellFormed.get_dim hm.wf (d := b) (by rw [hd]; simp)
  have hab : a ≠ b := by
    have := hm.distinct
    unfold DistinctDims at this
    rw [hd] at this
    simpa using this
  have harr : ∀ {n ds c}, p.cm.ents.get? n = some (ds, c) → c.plain.arr = c.arr := by
    intro n ds c hc
    cases c with
    | nd a => rfl
    | one k c =>
      cases c with
      | range r =>
        have hv : r.Valid := hm.classes n ds k _ (Dict.mem_of_get? hc)
        show (⟨[r.values.length], _⟩ : Nd (Option ℚ)) = ⟨[r.len], _⟩
        have : r.values.length = r.len := by rw [hv.values_eq]; simp [progression]
        rw [this]
        rfl
      | mono vs => rfl
      | arr vs => rfl
      | part n => rfl
  have hset : Dict.set [(a, CArg.simple ci.plain)] b (.simple cc.plain) = [(a, CArg.simple ci.plain), (b, CArg.simple cc.plain)] := by
    unfold Dict.set
    simp [hab]
  have hgeta : Dict.get? [(a, CArg.simple ci.plain), (b, CArg.simple cc.plain)] a = some (.simple ci.plain) := by simp [Dict.get?]
  have hgetb : Dict.get? [(a, CArg.simple ci.plain), (b, CArg.simple cc.plain)] b = some (.simple cc.plain) := by simp [Dict.get?, hab]
  obtain ⟨q, hq, hcv⟩ := converted (coords := [(a, CArg.simple ci.plain), (b, CArg.simple cc.plain)]) hm hr (by rw [hd]; simp) hsh (by simp [Dict.keys, hab])
    (by
      intro name x hx
      have hmem : name ∈ Dict.keys [(a, CArg.simple ci.plain), (b, CArg.simple cc.plain)] := Dict.mem_keys.2 ⟨_, hx⟩
      simp only [Dict.keys, List.map_cons, List.map_nil, List.mem_cons, List.not_mem_nil, or_false] at hmem
      rcases hmem with rfl | rfl
      · rw [hgeta] at hx; cases hx
        exact ⟨_, _, hci, rfl⟩
      · rw [hgetb] at hx; cases hx
        exact ⟨_, _, hcc, rfl⟩)
    (by
      intro d hdm hnone
      exfalso
      rw [hd] at hdm
      simp only [List.mem_cons, List.not_mem_nil, or_false] at hdm
      rcases hdm with rfl | rfl
      · rw [hgeta] at hnone; cases hnone
      · rw [hgetb] at hnone; cases hnone)
  refine ⟨⟨p.data, ci.plain, cc.plain, some a, some b⟩, q, ci, cc, ?_, rfl, rfl, rfl, hci, harr hci, hcc, harr hcc, ?_, converted_congr hcv ?_⟩
  · unfold PatchM.toFrame PatchM.dimValues
    rw [hd]
    simp only [hci, hcc, bind, Except.bind]
  · have hnames : (⟨p.data, ci.plain, cc.plain, some a, some b⟩ : DataFrame α).dimNames attrs = .ok (a, b) := by
      unfold DataFrame.dimNames noName
      simp [hn.1, hn.2]
    unfold DataFrame.toPatch
    rw [hnames]
    simp only [bind, Except.bind]
    rw [hset, ← hd]
    exact hq
  · intro n
    simp [Dict.keys, hd]

/-- The patch of the examples has two dimensions, and coordinates that can be read. -/
example : exPatch.cm.dims = ["time", "distance"] ∧ Regular exPatch.cm ∧ Readable exPatch.cm ∧ exPatch.cm.shape = exPatch.data.shape :=
  ⟨rfl, exCM_regular, exCM_readable, by decide +kernel⟩
example : ((exPatch.toFrame.bind fun f => f.toPatch none).map fun q => (q.cm.dims, q.cm.ents.keys, label q "time" [0, 2], label q "distance" [0, 2])) =
    .ok (["time", "distance"], ["time", "distance"], some (some 3), some (some 11)) := by decide +kernel

/-- **C99.** Patches with another number of dimensions than two become no data frames. -/
theorem C99_frame_refused (p : PatchM α) (h : p.cm.dims.length ≠ 2) : p.toFrame = .error .assertionError := by
  unfold PatchM.toFrame
  split
  · rename_i a b hd
    rw [hd] at h; exact absurd rfl h
  · rfl

/-- **C99.** A frame whose rows or columns have no name needs attributes with the two names of the dimensions; without, it is refused. -/
theorem C99_frame_names (f : DataFrame α) (h : (f.indexName = none ∨ f.indexName = some "") ∨ f.columnName = none ∨ f.columnName = some "") :
    f.toPatch none = .error .valueError ∧ f.toPatch (some .missing) = .error .valueError ∧
    (∀ a b, a ≠ "" → b ≠ "" → f.toPatch (some (.names [a, b])) = { f with indexName := some a, columnName := some b : DataFrame α }.toPatch none) ∧
    ∀ ds, "" ∈ ds → f.toPatch (some (.names ds)) = .error .valueError := by
  have h0 : (noName f.indexName || noName f.columnName) = true := by
    unfold noName
    rcases h with (h | h) | h | h <;> simp [h]
  refine ⟨?_, ?_, ?_, ?_⟩
  · unfold DataFrame.toPatch DataFrame.dimNames
    rw [if_pos h0]; rfl
  · unfold DataFrame.toPatch DataFrame.dimNames
    rw [if_pos h0]; rfl
  · intro a b ha hb
    unfold DataFrame.toPatch DataFrame.dimNames
    rw [if_pos h0, if_neg (by simp [noName, ha, hb])]
    simp [ha, hb, bind, Except.bind]
  · intro ds hds
    unfold DataFrame.toPatch DataFrame.dimNames
    rw [if_pos h0]
    simp only
    rw [if_pos (List.any_eq_true.2 ⟨"", hds, rfl⟩)]
    rfl

/-- A frame without names. -/
def exUnnamed : DataFrame ℕ := ⟨⟨[2, 3], fun i => 3 * i.getD 0 0 + i.getD 1 0⟩, .one .int (.arr [5, 7]), .one .int (.arr [1, 2, 3]), none, none⟩

example : ((exUnnamed.toPatch (some (.names ["time", "distance"]))).map fun q => (q.cm.dims, label q "time" [1, 2], label q "distance" [1, 2], q.data.get [1, 2])) =
    .ok (["time", "distance"], some (some 7), some (some 3), 5) := by decide +kernel

/-- **C99 violated** (attributes of a patch): the attributes given may be those of a patch, `PatchAttrs`. There the names of the dimensions are one string, whose characters are taken for
the names: the frame that becomes a patch with the names in a tuple fails with them in `PatchAttrs`. -/
theorem C99_attrs_violated : ((exUnnamed.toPatch (some (.names ["time", "distance"]))).map fun q => q.cm.dims) = .ok ["time", "distance"] ∧
    ((exUnnamed.toPatch (some (.text "time,distance"))).map fun q => q.cm.dims) = .error .indexError := by decide +kernel

theorem noValues_iff (c : MCoord) : c.noValues = true ↔ Blank c := by
  unfold Blank
  cases c with
  | nd a => simp [MCoord.noValues]
  | one k c => cases c <;> simp [MCoord.noValues]

theorem get?_filtered {β : Type} {d : Dict β} (hn : d.keys.Nodup) (f : String × β → Bool) (n : String) :
    Dict.get? (d.filter f) n = (Dict.get? d n).filter fun v => f (n, v) := by
  cases h : Dict.get? (d.filter f) n with
  | some v =>
    have hm := List.mem_filter.1 (Dict.mem_of_get? h)
    rw [Dict.get?_of_mem hn hm.1]
    simp [Option.filter, hm.2]
  | none =>
    cases hv : Dict.get? d n with
    | none => rfl
    | some v =>
      have : f (n, v) = false := by
        by_contra hc
        exact Dict.get?_eq_none.1 h (List.mem_map.2 ⟨(n, v), List.mem_filter.2 ⟨Dict.mem_of_get? hv, by simpa using hc⟩, rfl⟩)
      simp [Option.filter, this]

/-- **C99.** A patch whose coordinates with values belong to dimensions becomes a data array with its samples, dimensions and these coordinates; from the array comes a patch with the same
samples, dimensions and coordinates. Of the coordinates without values only those of dimensions are kept. -/
theorem C99_array (p : PatchM α) (hm : Regular p.cm) (hr : Readable p.cm) (hd : p.cm.dims ≠ []) (hsh : p.cm.shape = p.data.shape)
    (hatt : ∀ n ds c, p.cm.ents.get? n = some (ds, c) → ¬ Blank c → ds ≠ []) :
    ∃ x q, p.toXArray = .ok x ∧ x.data = p.data ∧ x.dims = p.cm.dims ∧ x.toPatch = .ok q ∧ Converted p q (KeptByArrays p.cm) := by
  set es := p.cm.ents.filter fun e => !e.2.2.noValues with hes
  have hnames : (Dict.keys p.cm.ents).Nodup := hm.wf.names
  have hesk : (Dict.keys es).Nodup := by
    rw [hes]
    exact List.Nodup.sublist (List.Sublist.map _ List.filter_sublist) hnames
  have hall : (es.all fun e => e.2.1.length == e.2.2.shape.length) = true := by
    rw [List.all_eq_true]
    rintro ⟨n, ds, c⟩ he
    obtain ⟨h1, h2⟩ := List.mem_filter.1 he
    have hb : ¬ Blank c := by rw [← noValues_iff]; simpa using h2
    have := (hm.wf.shapes n ds c h1 (hatt n ds c (Dict.get?_of_mem hnames h1) hb)).1
    simp [this]
  set cs : Dict CArg := (es.map fun e => (e.1, e.2.1, e.2.2.plain)).map fun e : String × List String × MCoord => (e.1, CArg.nested e.2.1 e.2.2) with hcs
  have hck : Dict.keys cs = Dict.keys es := by
    rw [hcs]; unfold Dict.keys; rw [List.map_map, List.map_map]; rfl
  have hget : ∀ n, Dict.get? cs n = (Dict.get? es n).map fun v => CArg.nested v.1 v.2.plain := by
    intro n
    rw [hcs]
    unfold Dict.get?
    rw [List.find?_map, List.find?_map, Option.map_map, Option.map_map, Option.map_map]
    rfl
  have hesg : ∀ n, Dict.get? es n = (Dict.get? p.cm.ents n).filter fun v => !v.2.noValues := fun n => get?_filtered hnames _ n
  obtain ⟨q, hq, hcv⟩ := converted (coords := cs) hm hr hd hsh (by rw [hck]; exact hesk)
    (by
      intro name a ha
      rw [hget, hesg] at ha
      cases hc : Dict.get? p.cm.ents name with
      | none => rw [hc] at ha; cases ha
      | some v =>
        rw [hc] at ha
        by_cases hb : v.2.noValues = true
        · simp [Option.filter, hb] at ha
        · simp only [Option.filter, hb, Bool.not_false, if_true, Option.map_some, Option.some.injEq] at ha
          subst ha
          exact ⟨v.1, v.2, rfl, rfl⟩)
    (by
      intro d hdm hnone
      obtain ⟨c, _, hc, _⟩ := CM.WellFormed.get_dim hm.wf hdm
      refine ⟨c, hc, ?_⟩
      rw [hget, hesg, hc] at hnone
      rw [← noValues_iff]
      by_contra hb
      simp [Option.filter, hb] at hnone)
  refine ⟨⟨p.data, p.cm.dims, es.map fun e : String × List String × MCoord => (e.1, e.2.1, e.2.2.plain)⟩, q, ?_, rfl, rfl, hq, converted_congr hcv ?_⟩
  · unfold PatchM.toXArray
    simp only
    rw [← hes, if_pos hall]
  · intro n
    unfold KeptByArrays
    refine or_congr_right ?_
    rw [hck, Dict.mem_keys]
    constructor
    · rintro ⟨v, hv⟩
      obtain ⟨h1, h2⟩ := List.mem_filter.1 (Dict.mem_of_get? hv)
      exact ⟨v.1, v.2, Dict.get?_of_mem hnames h1, by rw [← noValues_iff]; simpa using h2⟩
    · rintro ⟨ds, c, hc, hb⟩
      rw [← noValues_iff] at hb
      refine ⟨(ds, c), ?_⟩
      rw [hesg, hc]
      simp [Option.filter, hb]

example : ((exPatch.toXArray.bind fun x => x.toPatch).map fun q => (q.cm.dims, q.cm.ents.keys, label q "depth" [1, 2], label q "distance" [0, 2])) =
    .ok (["time", "distance"], ["time", "distance", "depth", "lat"], some (some 3), some (some 11)) := by decide +kernel
example : ∀ n ds c, exPatch.cm.ents.get? n = some (ds, c) → ¬ Blank c → ds ≠ [] := by
  intro n ds c hc _ h0
  subst h0
  have : (exPatch.cm.ents.all fun e => !e.2.1.isEmpty) = true := by decide +kernel
  have := List.all_eq_true.1 this _ (Dict.mem_of_get? hc)
  simp at this

/-- **C99 violated** (coordinates of no dimension): a patch with an array that belongs to no dimension, which patches may have, becomes no data array; xarray raises a ValueError. -/
theorem C99_unattached_violated (p : PatchM α) (n : String) (c : MCoord) (hc : p.cm.ents.get? n = some ([], c)) (hb : ¬ Blank c) (hs : c.shape ≠ []) :
    p.toXArray = .error .valueError := by
  unfold PatchM.toXArray
  simp only
  rw [if_neg]
  intro hall
  rw [List.all_eq_true] at hall
  have := hall (n, [], c) (List.mem_filter.2 ⟨Dict.mem_of_get? hc, by rw [← noValues_iff] at hb; simpa using hb⟩)
  simp at this
  exact hs (List.length_eq_zero_iff.1 this.symm)

/-- Such a patch: after dropping a dimension's hold on the depths, `update_coords(depth=(None, depths))`. -/
example : ((exPatch.updateCoords [("depth", .nested [] (.one .int (.arr [9, 4, 3, 1])))]).map fun q => (q.cm.ents.get? "depth").map Prod.fst) = .ok (some []) ∧
    (((exPatch.updateCoords [("depth", .nested [] (.one .int (.arr [9, 4, 3, 1])))]).bind fun q => q.toXArray).map fun x => x.dims) = .error .valueError := by decide +kernel

end Verif
