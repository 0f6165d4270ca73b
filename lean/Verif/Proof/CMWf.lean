import Verif.Proof.Dict
import Verif.Spec.CoordManager
import Verif.Props.CoordArray
/-! # Lemmas: coordinate managers stay well formed -/
namespace Verif
open Spec

theorem mapM_fst {α β : Type} {l : List α} {f : α → Except Err β} {r : List β}
    (h : l.mapM f = .ok r) : r.length = l.length := by
  induction l generalizing r with
  | nil => simp [pure, Except.pure] at h; subst h; rfl
  | cons p d ih =>
    rw [List.mapM_cons] at h
    cases h1 : f p with
    | error x => rw [h1] at h; simp [bind, Except.bind] at h
    | ok x =>
      rw [h1] at h
      cases h2 : d.mapM f with
      | error y => rw [h2] at h; simp [bind, Except.bind] at h
      | ok e' =>
        rw [h2] at h
        simp [bind, Except.bind, pure, Except.pure] at h
        subst h
        simp [ih h2]

namespace CM

theorem mk?_ok {dims : List String} {e : Ents} {m : CM} (h : CM.mk? dims e = .ok m) :
    m = ⟨dims, e⟩ ∧ (∀ d ∈ dims, ∃ c, e.get? d = some ([d], c)) ∧
      ∀ p ∈ e, (∀ d ∈ p.2.1, d ∈ dims) ∧ (p.2.1 = [] ∨ p.2.1.map e.lenOf = p.2.2.shape) := by
  unfold CM.mk? at h
  by_cases hc : (dims.all (dimOk e) && e.all (fun p => entryOk dims e p.2.1 p.2.2)) = true
  · rw [if_pos hc] at h
    rw [Bool.and_eq_true, List.all_eq_true, List.all_eq_true] at hc
    refine ⟨(Except.ok.inj h).symm, ?_, ?_⟩
    · intro d hd
      have := hc.1 d hd
      unfold dimOk at this
      revert this
      cases e.get? d with
      | none => simp
      | some v =>
        rcases v with ⟨ds, c⟩
        intro this
        simp at this
        exact ⟨c, by rw [this]⟩
    · intro p hp
      have := hc.2 p hp
      unfold entryOk at this
      simpa using this
  · rw [if_neg hc] at h; cases h

theorem mk?_of {dims : List String} {e : Ents} (h1 : ∀ d ∈ dims, ∃ c, e.get? d = some ([d], c))
    (h2 : ∀ p ∈ e, (∀ d ∈ p.2.1, d ∈ dims) ∧ (p.2.1 = [] ∨ p.2.1.map e.lenOf = p.2.2.shape)) :
    CM.mk? dims e = .ok ⟨dims, e⟩ := by
  unfold CM.mk?
  rw [if_pos]
  rw [Bool.and_eq_true, List.all_eq_true, List.all_eq_true]
  constructor
  · intro d hd
    obtain ⟨c, hc⟩ := h1 d hd
    simp [dimOk, hc]
  · intro p hp
    have := h2 p hp
    simpa [entryOk] using this

/-- What the validator guarantees. -/
theorem mk?_wf {dims : List String} {e : Ents} {m : CM} (h : CM.mk? dims e = .ok m) (hn : e.keys.Nodup) :
    WellFormed m := by
  obtain ⟨rfl, h1, h2⟩ := mk?_ok h
  have own : ∀ d ∈ dims, ∀ c, (d, [d], c) ∈ e → c.shape = [e.lenOf d] := by
    intro d _ c hc
    rcases (h2 _ hc).2 with h | h
    · simp at h
    · simpa using h.symm
  refine ⟨hn, ?_, ?_, ?_⟩
  · intro d hd
    obtain ⟨c, hc⟩ := h1 d hd
    exact ⟨c, _, Dict.mem_of_get? hc, own d hd c (Dict.mem_of_get? hc)⟩
  · intro name ds c hm d hd
    exact (h2 _ hm).1 d hd
  · intro name ds c hm hne
    have hs : ds.map e.lenOf = c.shape := by
      rcases (h2 _ hm).2 with h | h
      · exact absurd h hne
      · exact h
    refine ⟨by rw [← hs]; simp, ?_⟩
    intro k d n hk hsn c' hc'
    have hd : d ∈ dims := (h2 _ hm).1 d (List.mem_of_getElem? hk)
    rw [own d hd c' hc']
    rw [← hs, List.getElem?_map, hk] at hsn
    simp at hsn
    rw [hsn]

theorem WellFormed.get_dim {m : CM} (h : WellFormed m) {d : String} (hd : d ∈ m.dims) :
    ∃ c n, m.ents.get? d = some ([d], c) ∧ c.shape = [n] ∧ m.ents.lenOf d = n := by
  obtain ⟨c, n, h1, h2⟩ := h.own d hd
  have := Dict.get?_of_mem h.names h1
  exact ⟨c, n, this, h2, by unfold Ents.lenOf; rw [this]; simp [MCoord.len, h2]⟩

theorem WellFormed.shape_eq {m : CM} (h : WellFormed m) {name : String} {ds : List String} {c : MCoord}
    (hm : (name, ds, c) ∈ m.ents) (hne : ds ≠ []) : c.shape = ds.map m.ents.lenOf := by
  obtain ⟨h1, h2⟩ := h.shapes name ds c hm hne
  apply List.ext_getElem?
  intro k
  rw [List.getElem?_map]
  by_cases hk : k < ds.length
  · have e1 : ds[k]? = some ds[k] := List.getElem?_eq_getElem hk
    have e2 : c.shape[k]? = some (c.shape[k]'(by omega)) := List.getElem?_eq_getElem (by omega)
    have hd := h.attached name ds c hm ds[k] (List.getElem_mem hk)
    obtain ⟨c', n, hc', hs', hl⟩ := get_dim h hd
    have := h2 k _ _ e1 e2 c' (Dict.mem_of_get? hc')
    rw [hs'] at this
    rw [e1, e2]
    simp only [Option.map_some, hl]
    rw [List.cons.injEq] at this
    rw [this.1]
  · rw [List.getElem?_eq_none (by omega), List.getElem?_eq_none (by omega)]; rfl

/-- A well formed manager passes the validator again. -/
theorem WellFormed.valid {m : CM} (h : WellFormed m) : CM.mk? m.dims m.ents = .ok m := by
  apply mk?_of
  · intro d hd
    obtain ⟨c, _, h1, _⟩ := get_dim h hd
    exact ⟨c, h1⟩
  · rintro ⟨name, ds, c⟩ hp
    refine ⟨h.attached name ds c hp, ?_⟩
    by_cases hne : ds = []
    · exact Or.inl hne
    · exact Or.inr (shape_eq h hp hne).symm

theorem coordDimMap_spec {coords : Dict CArg} {dims : List String} {e : Ents} {dims' : List String}
    (h : coordDimMap coords dims = .ok (e, dims')) (hk : coords.keys.Nodup) :
    e.keys = coords.keys ∧ (dims.Nodup → dims'.Nodup) ∧ dims' = dims ++ (e.filter fun p => p.2.1 == [p.1] && !dims.contains p.1).map Prod.fst ∧
    (coords.mapM fun p => (parseArg dims p.1 p.2).map fun x => (p.1, x)) = .ok e := by
  unfold coordDimMap at h
  cases h1 : (coords.mapM fun p => (parseArg dims p.1 p.2).map fun x => (p.1, x)) with
  | error x => rw [h1] at h; simp [bind, Except.bind] at h
  | ok e' =>
    rw [h1] at h
    simp only [bind, Except.bind, pure, Except.pure, Except.ok.injEq, Prod.mk.injEq] at h
    obtain ⟨rfl, rfl⟩ := h
    have hke : Dict.keys e' = coords.keys := Dict.mapM_keys (f := fun p => parseArg dims p.1 p.2) h1
    refine ⟨hke, ?_, rfl, rfl⟩
    intro hd
    rw [List.nodup_append]
    refine ⟨hd, ?_, ?_⟩
    · exact Dict.nodup_filter (by rw [hke]; exact hk) _
    · intro a ha b hb e
      subst e
      rw [List.mem_map] at hb
      obtain ⟨q, hq, rfl⟩ := hb
      rw [List.mem_filter] at hq
      simp at hq
      exact hq.2.2 ha

theorem getCoordManager_wf {coords : Dict CArg} {dims : List String} {m : CM}
    (h : getCoordManager coords dims = .ok m) (hk : coords.keys.Nodup) :
    WellFormed m ∧ (dims.Nodup → DistinctDims m) := by
  unfold getCoordManager at h
  cases h1 : coordDimMap coords dims with
  | error x => rw [h1] at h; simp [bind, Except.bind] at h
  | ok r =>
    rw [h1] at h
    simp only [bind, Except.bind] at h
    obtain ⟨hke, hnd, _⟩ := coordDimMap_spec (e := r.1) (dims' := r.2) h1 hk
    refine ⟨mk?_wf h (by rw [hke]; exact hk), fun hd => ?_⟩
    obtain ⟨rfl, _⟩ := mk?_ok h
    exact hnd hd

theorem dropCoords_wf {m m' : CM} {names : List String} (h : m.dropCoords names = .ok m') (hw : WellFormed m) :
    WellFormed m' ∧ (DistinctDims m → DistinctDims m') := by
  unfold dropCoords at h
  split_ifs at h
  · refine ⟨mk?_wf h (Dict.nodup_filter hw.names _), fun hd => ?_⟩
    obtain ⟨rfl, _⟩ := mk?_ok h
    exact List.Nodup.sublist List.filter_sublist hd
  · cases h; exact ⟨hw, id⟩

theorem nested_keys (e : Ents) : (nested e).keys = e.keys := by simp [nested, Dict.keys, Function.comp_def]

theorem applyAttr_keys {out out' : Dict CArg} {p : String × CArg} (h : applyAttr out p = .ok out') (hk : out.keys.Nodup) :
    out'.keys.Nodup := by
  unfold applyAttr at h
  split at h
  · cases h
  · split at h
    · cases h
    · rename_i c _
      cases h1 : c.updateAttr _ _ with
      | error x => rw [h1] at h; cases h
      | ok y => rw [h1] at h; cases h; exact Dict.nodup_set hk _ _
    · cases h
  · split_ifs at h

theorem foldlM_inv {α β : Type} {f : β → α → Except Err β} {P : β → Prop} (hf : ∀ b a b', P b → f b a = .ok b' → P b')
    {l : List α} {b b' : β} (h : l.foldlM f b = .ok b') (hb : P b) : P b' := by
  induction l generalizing b with
  | nil => simp [pure, Except.pure] at h; subst h; exact hb
  | cons a l ih =>
    rw [List.foldlM_cons] at h
    cases h1 : f b a with
    | error x => rw [h1] at h; simp [bind, Except.bind] at h
    | ok c => rw [h1] at h; exact ih h (hf _ _ _ hb h1)

theorem update_wf {m m' : CM} {kw : Dict CArg} (h : m.update kw = .ok m') (hw : WellFormed m) (hk : kw.keys.Nodup) :
    WellFormed m' ∧ (DistinctDims m → DistinctDims m') := by
  unfold update at h
  simp only at h
  set attrs := kw.filter fun p => matchesPrefixSuffix m.dims p.1
  set rest := kw.filter fun p => !matchesPrefixSuffix m.dims p.1 with hrest
  set toAdd := rest.filter fun p => !p.2.isDrop with hadd
  have hka : (Dict.keys toAdd).Nodup := Dict.nodup_filter (Dict.nodup_filter hk _) _
  cases h1 : coordDimMap toAdd m.dims with
  | error x => rw [h1] at h; simp [bind, Except.bind] at h
  | ok r =>
    rw [h1] at h
    simp only [bind, Except.bind] at h
    cases h2 : r.1.mapM m.dimChange with
    | error x => rw [h2] at h; simp at h
    | ok ind =>
      rw [h2] at h
      simp only at h
      cases h3 : m.dropCoords (((rest.filter fun p => p.2.isDrop).map Prod.fst) ++ ind.flatten) with
      | error x => rw [h3] at h; simp at h
      | ok coords =>
        rw [h3] at h
        simp only at h
        cases h4 : attrs.foldlM applyAttr ((nested coords.ents).update toAdd) with
        | error x => rw [h4] at h; simp at h
        | ok out =>
          rw [h4] at h
          simp only at h
          have hko : out.keys.Nodup := by
            refine foldlM_inv (P := fun o : Dict CArg => o.keys.Nodup) (fun b a b' hb he => applyAttr_keys he hb) h4 ?_
            apply Dict.nodup_update
            rw [nested_keys]
            exact (dropCoords_wf h3 hw).1.names
          obtain ⟨w1, w2⟩ := getCoordManager_wf h hko
          refine ⟨w1, fun hd => w2 ?_⟩
          exact List.Nodup.sublist List.filter_sublist ((coordDimMap_spec (e := r.1) (dims' := r.2) h1 hka).2.1 hd)

theorem disassociate_wf {m m' : CM} {names : List String} (h : m.disassociate names = .ok m') (hw : WellFormed m) :
    WellFormed m' ∧ (DistinctDims m → DistinctDims m') := by
  unfold disassociate at h
  cases h1 : (names.dedup.mapM fun n => (disArg m.ents n).map fun a => (n, a)) with
  | error x => rw [h1] at h; simp [bind, Except.bind] at h
  | ok new =>
    rw [h1] at h
    simp only [bind, Except.bind] at h
    cases h2 : m.dropCoords names with
    | error x => rw [h2] at h; simp at h
    | ok d =>
      rw [h2] at h
      simp only at h
      have hk : Dict.keys new = names.dedup := by
        have hg : ∀ (l : List String) (r : Dict CArg), (l.mapM fun n => (disArg m.ents n).map fun a => (n, a)) = .ok r → r.keys = l := by
          intro l
          induction l with
          | nil => intro r hr; simp [pure, Except.pure] at hr; subst hr; rfl
          | cons a l ih =>
            intro r hr
            rw [List.mapM_cons] at hr
            cases e1 : disArg m.ents a with
            | error x => rw [e1] at hr; simp [Except.map, bind, Except.bind] at hr
            | ok y =>
              rw [e1] at hr
              cases e2 : (l.mapM fun n => (disArg m.ents n).map fun a => (n, a)) with
              | error x => rw [e2] at hr; simp [Except.map, bind, Except.bind] at hr
              | ok r' =>
                rw [e2] at hr
                simp [Except.map, bind, Except.bind, pure, Except.pure] at hr
                subst hr
                simp only [Dict.keys, List.map_cons, List.cons.injEq, true_and]
                exact ih r' e2
        exact hg _ _ h1
      obtain ⟨w1, w2⟩ := dropCoords_wf h2 hw
      obtain ⟨w3, w4⟩ := update_wf h w1 (by rw [hk]; exact List.nodup_dedup _)
      exact ⟨w3, fun hd => w4 (w2 hd)⟩

theorem squeeze_wf {m m' : CM} {dim : Option (List String)} (h : m.squeeze dim = .ok m') (hw : WellFormed m) :
    WellFormed m' ∧ (DistinctDims m → DistinctDims m') := by
  unfold squeeze at h
  simp only at h
  split_ifs at h
  exact dropCoords_wf h hw

theorem flipOne_keys {e : Ents} {name a : String} {out out' : Dict CArg} (h : flipOne e name out a = .ok out') (hk : out.keys.Nodup) :
    out'.keys.Nodup := by
  unfold flipOne at h
  split at h
  · rename_i ds c _
    cases h1 : c.getTuple revSlice (if a = name then 0 else ds.idxOf name) with
    | error x => rw [h1] at h; cases h
    | ok y => rw [h1] at h; cases h; exact Dict.nodup_set hk _ _
  · cases h

theorem flipStep_keys {e : Ents} {name : String} {out out' : Dict CArg} (h : flipStep e out name = .ok out') (hk : out.keys.Nodup) :
    out'.keys.Nodup := by
  unfold flipStep at h
  split at h
  · cases h
  · split_ifs at h
    rename_i c _ _
    cases h1 : flipOne e name out name with
    | error x => rw [h1] at h; simp [bind, Except.bind] at h
    | ok o =>
      rw [h1] at h
      simp only [bind, Except.bind] at h
      exact foldlM_inv (P := fun o : Dict CArg => o.keys.Nodup) (fun b a b' hb he => flipOne_keys he hb) h (flipOne_keys h1 hk)

theorem flip_wf {m m' : CM} {names : List String} (h : m.flip names = .ok m') (hw : WellFormed m) :
    WellFormed m' ∧ (DistinctDims m → DistinctDims m') := by
  unfold flip at h
  cases h1 : names.foldlM (flipStep m.ents) [] with
  | error x => rw [h1] at h; simp [bind, Except.bind] at h
  | ok o =>
    rw [h1] at h
    simp only [bind, Except.bind] at h
    refine update_wf h hw ?_
    exact foldlM_inv (P := fun o : Dict CArg => o.keys.Nodup) (fun b a b' hb he => flipStep_keys he hb) h1 (by simp [Dict.keys])

theorem decimate_wf {m : CM} {dim : String} {n : ℤ} {r : CM × List Indexer} (h : m.decimate dim n = .ok r)
    (hw : WellFormed m) : WellFormed r.1 ∧ (DistinctDims m → DistinctDims r.1) := by
  unfold decimate at h
  split_ifs at h
  split at h
  · rename_i k c _
    simp only [bind, Except.bind] at h
    split at h
    · cases h
    · rename_i d _
      split at h
      · cases h
      · rename_i new hnew
        cases h
        exact update_wf hnew hw (by simp [Dict.keys])
  · cases h

theorem indirectOne_keys {m : CM} {dim n : String} {x : Indexer} {new new' : Ents}
    (h : m.indirectOne dim x new n = .ok new') (hk : new.keys.Nodup) : new'.keys.Nodup := by
  unfold indirectOne at h
  split at h
  · rename_i ds c ds' _ _ _
    cases h1 : c.index x (ds'.idxOf dim) with
    | error y => rw [h1] at h; cases h
    | ok y => rw [h1] at h; cases h; exact Dict.nodup_set hk _ _
  · cases h

theorem selStep_keys {argsort : List ℚ → List ℕ} {m : CM} {st st' : Ents × Dict Indexer} {p : String × CQuery}
    (h : m.selStep argsort st p = .ok st') (hk : st.1.keys.Nodup) : st'.1.keys.Nodup := by
  unfold selStep at h
  split at h
  · cases h
  · cases h
  · rename_i ds k c _
    simp only [bind, Except.bind] at h
    split at h
    · cases h
    · rename_i r _
      split at h
      · cases h; exact Dict.nodup_set hk _ _
      · split at h
        · cases h
        · rename_i new hnew
          cases h
          exact foldlM_inv (P := fun o : Ents => o.keys.Nodup) (fun b a b' hb he => indirectOne_keys he hb) hnew
            (Dict.nodup_set hk _ _)

theorem groupCM_wf {argsort : List ℚ → List ℕ} {m : CM} {kw : Dict CQuery} {r : CM × List Indexer}
    (h : m.groupCM argsort kw = .ok r) (hw : WellFormed m) : WellFormed r.1 ∧ (DistinctDims m → DistinctDims r.1) := by
  unfold groupCM at h
  simp only [bind, Except.bind] at h
  split at h
  · cases h
  · rename_i s hs
    split at h
    · cases h
    · rename_i cm hcm
      cases h
      refine update_wf hcm hw ?_
      rw [nested_keys]
      unfold indexersAndCoords at hs
      simp only [bind, Except.bind] at hs
      split at hs
      · cases hs
      · rename_i st hst
        cases hs
        exact foldlM_inv (P := fun o : Ents × Dict Indexer => o.1.keys.Nodup) (fun b a b' hb he => selStep_keys he hb) hst hw.names

theorem selectCM_wf {argsort : List ℚ → List ℕ} {m m' : CM} {kw : Dict CQuery}
    (h : m.selectCM argsort kw = .ok m') (hw : WellFormed m) : WellFormed m' ∧ (DistinctDims m → DistinctDims m') := by
  unfold selectCM at h
  refine foldlM_inv (P := fun x : CM => WellFormed x ∧ (DistinctDims m → DistinctDims x)) ?_ h ⟨hw, id⟩
  intro b a b' hb he
  cases h1 : b.groupCM argsort a with
  | error x => rw [h1] at he; cases he
  | ok r =>
    rw [h1] at he; cases he
    obtain ⟨w1, w2⟩ := groupCM_wf h1 hb.1
    exact ⟨w1, fun hd => w2 (hb.2 hd)⟩

theorem sortRelated_keys {m : CM} {dim n : String} {x : Indexer} {new new' : Ents}
    (h : m.sortRelated dim x new n = .ok new') (hk : new.keys.Nodup) : new'.keys.Nodup := by
  unfold sortRelated at h
  split at h
  · rename_i ds c ds' _ _ _
    cases h1 : c.getTuple x (ds'.idxOf dim) with
    | error y => rw [h1] at h; cases h
    | ok y => rw [h1] at h; cases h; exact Dict.nodup_set hk _ _
  · cases h

theorem sortStep_keys {argsort : List ℚ → List ℕ} {reverse : Bool} {m : CM} {st st' : Ents × List (ℕ × Indexer)} {n : String}
    (h : m.sortStep argsort reverse st n = .ok st') (hk : st.1.keys.Nodup) : st'.1.keys.Nodup := by
  unfold sortStep at h
  split at h
  · simp only [bind, Except.bind] at h
    split at h
    · cases h
    · split at h
      · cases h
      · rename_i new hnew
        cases h
        exact foldlM_inv (P := fun o : Ents => o.keys.Nodup) (fun b a b' hb he => sortRelated_keys he hb) hnew
          (Dict.nodup_set hk _ _)
  · cases h
  · cases h

theorem sortCM_wf {argsort : List ℚ → List ℕ} {m : CM} {names : List String} {reverse : Bool} {r : CM × List (ℕ × Indexer)}
    (h : m.sortCM argsort names reverse = .ok r) (hw : WellFormed m) : WellFormed r.1 ∧ (DistinctDims m → DistinctDims r.1) := by
  unfold sortCM at h
  simp only [bind, Except.bind] at h
  split at h
  · cases h
  · by_cases ht : ((if names.isEmpty then m.dims else names).filter (m.needsSort reverse)).isEmpty = true
    · rw [if_pos ht] at h
      cases h; exact ⟨hw, id⟩
    · rw [if_neg ht] at h
      split at h
      · cases h
      · rename_i s hs
        split at h
        · cases h
        · rename_i cm hcm
          cases h
          refine ⟨mk?_wf hcm ?_, fun hd => ?_⟩
          · exact foldlM_inv (P := fun o : Ents × List (ℕ × Indexer) => o.1.keys.Nodup) (fun b a b' hb he => sortStep_keys he hb) hs hw.names
          · obtain ⟨rfl, _⟩ := mk?_ok hcm
            exact hd

theorem setDims_wf {m m' : CM} {kw : List (String × String)} (h : m.setDims kw = .ok m') (hw : WellFormed m) :
    WellFormed m' := by
  unfold setDims at h
  simp only [bind, Except.bind] at h
  split at h
  · cases h
  · refine mk?_wf h ?_
    simp only [Dict.keys, List.map_map]
    exact hw.names

theorem renameStep_keys {m m' : CM} {p : String × String} (h : m.renameStep p = .ok m') (hk : m.ents.keys.Nodup) :
    m'.ents.keys.Nodup := by
  unfold renameStep at h
  split_ifs at h with h1 h2
  · cases h; exact hk
  · simp only at h
    split at h
    · cases h
    · cases h
      apply Dict.nodup_set
      apply Dict.nodup_filter
      simp only [Dict.keys, List.map_map]
      exact hk
  · simp only at h
    split at h
    · cases h
    · cases h
      apply Dict.nodup_set
      exact Dict.nodup_filter hk _

theorem rename_wf {m m' : CM} {kw : List (String × String)} (h : m.rename kw = .ok m') (hw : WellFormed m) :
    WellFormed m' := by
  unfold rename at h
  simp only [bind, Except.bind] at h
  split at h
  · cases h
  · rename_i r hr
    refine mk?_wf h ?_
    exact foldlM_inv (P := fun x : CM => x.ents.keys.Nodup) (fun b a b' hb he => renameStep_keys he hb) hr hw.names

theorem mem_foldl_erase {l : List String} (hn : l.Nodup) (names : List String) (x : String) :
    (x ∈ names.foldl List.erase l ↔ x ∈ l ∧ x ∉ names) ∧ (names.foldl List.erase l).Nodup := by
  induction names generalizing l with
  | nil => simp [hn]
  | cons a names ih =>
    rw [List.foldl_cons]
    obtain ⟨h1, h2⟩ := ih (hn.erase a)
    refine ⟨?_, h2⟩
    rw [h1, hn.mem_erase_iff]
    simp only [List.mem_cons, not_or]
    tauto

theorem transposeDims_perm {new : List TDim} {old full : List String} (h : transposeDims new old = .ok full) (hn : old.Nodup) :
    full.Perm old := by
  unfold transposeDims at h
  simp only at h
  split_ifs at h with h1 h2 h3
  cases h
  rw [Bool.and_eq_true, List.all_eq_true, List.all_eq_true] at h3
  have hmem := fun x => (mem_foldl_erase hn (new.filterMap TDim.name?) x).1
  have hnd := (mem_foldl_erase hn (new.filterMap TDim.name?) "").2
  rw [List.perm_ext_iff_of_nodup _ hn]
  · intro a
    exact ⟨fun ha => by simpa using h3.1 a ha, fun ha => by simpa using h3.2 a ha⟩
  · rw [List.nodup_flatMap]
    refine ⟨?_, ?_⟩
    · intro t _
      cases t with
      | dim s => simp [expand]
      | dots => exact hnd
    · refine List.Pairwise.imp_of_mem ?_ h1
      intro a b ha hb hne x hx hy
      cases a with
      | dim s =>
        simp [expand] at hx
        subst hx
        cases b with
        | dim s' => simp [expand] at hy; subst hy; exact hne rfl
        | dots =>
          exact ((hmem x).1 hy).2 (List.mem_filterMap.2 ⟨_, ha, rfl⟩)
      | dots =>
        cases b with
        | dim s' =>
          simp [expand] at hy; subst hy
          exact ((hmem x).1 hx).2 (List.mem_filterMap.2 ⟨_, hb, rfl⟩)
        | dots => exact hne rfl

theorem transpose_wf {m m' : CM} {new : List TDim} (h : m.transpose new = .ok m') (hw : WellFormed m) :
    WellFormed m' ∧ (DistinctDims m → DistinctDims m') := by
  unfold transpose at h
  simp only [bind, Except.bind] at h
  split at h
  · cases h
  · rename_i dims hdims
    split_ifs at h
    · cases h; exact ⟨hw, id⟩
    · refine ⟨mk?_wf h hw.names, fun hd => ?_⟩
      obtain ⟨rfl, _⟩ := mk?_ok h
      exact (transposeDims_perm hdims hd).nodup_iff.2 hd

theorem nodup_list_set {l : List String} (hn : l.Nodup) (k : ℕ) {x : String} (hx : x ∉ l) : (l.set k x).Nodup := by
  induction l generalizing k with
  | nil => simp
  | cons a l ih =>
    simp only [List.mem_cons, not_or] at hx
    rw [List.nodup_cons] at hn
    cases k with
    | zero => rw [List.set_cons_zero, List.nodup_cons]; exact ⟨hx.2, hn.2⟩
    | succ k =>
      rw [List.set_cons_succ, List.nodup_cons]
      refine ⟨fun h => ?_, ih hn.2 k hx.2⟩
      rcases List.mem_or_eq_of_mem_set h with h | h
      · exact hn.1 h
      · exact hx.1 h.symm

theorem setDimsLoop_nodup {e : Ents} {kw : List (String × String)} {dims dims' : List String}
    (h : setDimsLoop e kw dims = .ok dims') (hn : dims.Nodup) (hf : ∀ p ∈ kw, p.1 ≠ p.2 → p.2 ∉ dims) (hd : (kw.map Prod.snd).Nodup) :
    dims'.Nodup := by
  induction kw generalizing dims with
  | nil => cases h; exact hn
  | cons p kw ih =>
    rcases p with ⟨old, new⟩
    unfold setDimsLoop at h
    rw [List.map_cons, List.nodup_cons] at hd
    split at h
    · split_ifs at h with hmem hsh
      by_cases hon : old = new
      · subst hon
        have e : dims.set (dims.idxOf old) old = dims := by
          have := List.idxOf_lt_length_of_mem hmem
          apply List.ext_getElem (by simp)
          intro k h1 h2
          rw [List.getElem_set]
          split_ifs with hk
          · subst hk; simp
          · rfl
        rw [e] at h
        exact ih h hn (fun q hq => hf q (List.mem_cons_of_mem _ hq)) hd.2
      · refine ih h (nodup_list_set hn _ (hf _ List.mem_cons_self hon)) ?_ hd.2
        intro q hq hne hm
        rcases List.mem_or_eq_of_mem_set hm with hm | hm
        · exact hf q (List.mem_cons_of_mem _ hq) hne hm
        · exact hd.1 (List.mem_map.2 ⟨q, hq, hm⟩)
    · cases h
    · cases h

theorem renameStep_dims {m m' : CM} {p : String × String} (h : m.renameStep p = .ok m') :
    m'.dims = if p.1 = p.2 ∨ p.1 ∉ m.dims then m.dims else m.dims.set (m.dims.idxOf p.1) p.2 := by
  unfold renameStep at h
  by_cases h1 : p.1 = p.2
  · rw [if_pos h1] at h; cases h; rw [if_pos (Or.inl h1)]
  · rw [if_neg h1] at h
    by_cases h2 : p.1 ∈ m.dims
    · simp only [h2, if_true] at h
      split at h
      · cases h
      · cases h; rw [if_neg (by simp [h1, h2])]
    · simp only [h2, if_false] at h
      split at h
      · cases h
      · cases h; rw [if_pos (Or.inr h2)]

theorem renameLoop_nodup {m m' : CM} {kw : List (String × String)} (h : kw.foldlM renameStep m = .ok m')
    (hn : m.dims.Nodup) (hf : ∀ p ∈ kw, p.1 ≠ p.2 → p.2 ∉ m.dims) (hd : (kw.map Prod.snd).Nodup) : m'.dims.Nodup := by
  induction kw generalizing m with
  | nil => cases h; exact hn
  | cons p kw ih =>
    rw [List.foldlM_cons] at h
    rw [List.map_cons, List.nodup_cons] at hd
    cases h1 : m.renameStep p with
    | error x => rw [h1] at h; cases h
    | ok m1 =>
      rw [h1] at h
      have hdm := renameStep_dims h1
      refine ih h ?_ ?_ hd.2
      · rw [hdm]
        split_ifs with hc
        · exact hn
        · rw [not_or] at hc
          exact nodup_list_set hn _ (hf p List.mem_cons_self hc.1)
      · intro q hq hne hm
        rw [hdm] at hm
        split_ifs at hm with hc
        · exact hf q (List.mem_cons_of_mem _ hq) hne hm
        · rcases List.mem_or_eq_of_mem_set hm with hm | hm
          · exact hf q (List.mem_cons_of_mem _ hq) hne hm
          · exact hd.1 (List.mem_map.2 ⟨q, hq, hm⟩)

end CM
end Verif
