import Verif.Spec.Spool
import Verif.Props.CoordArray
import Mathlib.Data.List.Nodup
import Mathlib.Data.List.Zip
/-!
# Property C55: slicing, array selection and sorting of a spool

A spool behaves like the list of its patches, over any history of those operations, as long as no source feeds
several current rows.
-/
namespace Verif
open Spec

theorem takeIdx_map {α β} (f : α → β) (l : List α) (ix : List ℕ) : takeIdx (l.map f) ix = (takeIdx l ix).map f := by
  unfold takeIdx
  rw [List.map_filterMap]
  congr 1
  funext i
  rw [List.getElem?_map]

theorem mem_takeIdx {α} {l : List α} {ix : List ℕ} {x : α} (h : x ∈ takeIdx l ix) : x ∈ l := by
  obtain ⟨i, _, hi⟩ := List.mem_filterMap.1 h
  exact List.mem_of_getElem? hi

theorem pySlice_map {α β} (f : α → β) (l : List α) (sl : PySlice) :
    pySlice (l.map f) sl = (pySlice l sl).map fun r => r.map f := by
  unfold pySlice
  rw [List.length_map]
  cases sl.indices l.length with
  | error e => rfl
  | ok r => simp only [bind, Except.bind, pure, Except.pure, Except.map, takeIdx_map]

theorem mem_pySlice {α} {l r : List α} {sl : PySlice} (h : pySlice l sl = .ok r) : ∀ x ∈ r, x ∈ l := by
  unfold pySlice at h
  cases hi : sl.indices l.length with
  | error e => rw [hi] at h; simp [bind, Except.bind] at h
  | ok p =>
    rw [hi] at h
    simp only [bind, Except.bind, pure, Except.pure, Except.ok.injEq] at h
    subst h
    exact fun x hx => mem_takeIdx hx

theorem takeInts_map {α β} (f : α → β) (l : List α) : ∀ ix : List ℤ,
    takeInts (l.map f) ix = (takeInts l ix).map fun r => r.map f := by
  intro ix
  induction ix with
  | nil => rfl
  | cons i ix ih =>
    simp only [takeInts, List.length_map, ih, List.getElem?_map]
    generalize (if i < 0 then i + (l.length : ℤ) else i) = j
    by_cases hj : j < 0
    · rw [if_pos hj, if_pos hj]; rfl
    · rw [if_neg hj, if_neg hj]
      cases l[j.toNat]? with
      | none => rfl
      | some v =>
        simp only [Option.map_some]
        cases takeInts l ix <;> rfl

theorem maskIdx_map {α β} (f : α → β) (l : List α) (m : List Bool) : maskIdx (l.map f) m = (maskIdx l m).map f := by
  unfold maskIdx
  rw [List.zip_map_left, List.filterMap_map, List.map_filterMap]
  congr 1
  funext p
  simp only [Function.comp_apply, Prod.map]
  split <;> simp_all

namespace SpoolT
variable {R S I P : Type}

/-- What a spool shows: for each current row, its metadata and the instruction / source pairs that make up its
patch. -/
def contents (s : SpoolT R S I) : List (R × List (I × Option S)) := s.df.map fun p => (p.2, s.joined p.1)

/-- Every source is known under one label and feeds at most one instruction. -/
structure Inv (s : SpoolT R S I) : Prop where
  source : (s.source.map Prod.fst).Nodup
  inst : (s.inst.map Prod.fst).Nodup
  known : ∀ r ∈ s.inst, ∃ x ∈ s.source, x.1 = r.1

theorem filter_flatMap_source (src : List (ℕ × S)) : ∀ (inst : List (ℕ × ℕ × I)), (inst.map Prod.fst).Nodup →
    ∀ r ∈ inst, ((inst.flatMap fun r => src.filter fun x => x.1 == r.1).filter fun x => x.1 == r.1) =
      src.filter fun x => x.1 == r.1 := by
  have other : ∀ (inst : List (ℕ × ℕ × I)) (l : ℕ), l ∉ inst.map Prod.fst →
      ((inst.flatMap fun r => src.filter fun x => x.1 == r.1).filter fun x => x.1 == l) = [] := by
    intro inst l hl
    rw [List.filter_eq_nil_iff]
    intro x hx
    obtain ⟨r, hr, hxr⟩ := List.mem_flatMap.1 hx
    have h1 : x.1 = r.1 := by simpa using (List.mem_filter.1 hxr).2
    intro hc
    have h2 : x.1 = l := by simpa using hc
    exact hl (by rw [← h2, h1]; exact List.mem_map_of_mem hr)
  intro inst
  induction inst with
  | nil => intro _ r hr; simp at hr
  | cons a inst ih =>
    intro hnd r hr
    simp only [List.map_cons, List.nodup_cons] at hnd
    simp only [List.flatMap_cons, List.filter_append]
    rcases List.mem_cons.1 hr with rfl | hr
    · rw [other inst _ hnd.1, List.append_nil, List.filter_filter]
      simp
    · have hne : ¬ a.1 = r.1 := by
        intro he
        exact hnd.1 (by rw [he]; exact List.mem_map_of_mem hr)
      rw [ih hnd.2 r hr]
      have : (src.filter fun x => x.1 == a.1).filter (fun x => x.1 == r.1) = [] := by
        rw [List.filter_filter, List.filter_eq_nil_iff]
        intro x _
        simp only [Bool.and_eq_true, beq_iff_eq, not_and]
        intro h1 h2
        exact hne (h2 ▸ h1 ▸ rfl)
      rw [this, List.nil_append]

theorem nodup_filter_fst {α : Type} {l : List (ℕ × α)} (p : ℕ × α → Bool) (h : (l.map Prod.fst).Nodup) :
    ((l.filter p).map Prod.fst).Nodup := by
  exact List.Nodup.sublist ((List.filter_sublist).map _) h

theorem nodup_source' (src : List (ℕ × S)) (hs : (src.map Prod.fst).Nodup) : ∀ (inst : List (ℕ × ℕ × I)),
    (inst.map Prod.fst).Nodup → ((inst.flatMap fun r => src.filter fun x => x.1 == r.1).map Prod.fst).Nodup := by
  intro inst
  induction inst with
  | nil => intro _; simp
  | cons a inst ih =>
    intro hnd
    simp only [List.map_cons, List.nodup_cons] at hnd
    simp only [List.flatMap_cons, List.map_append]
    rw [List.nodup_append]
    refine ⟨nodup_filter_fst _ hs, ih hnd.2, ?_⟩
    intro x hx y hy hxy
    obtain ⟨u, hu, rfl⟩ := List.mem_map.1 hx
    obtain ⟨w, hw, rfl⟩ := List.mem_map.1 hy
    have h1 : u.1 = a.1 := by simpa using (List.mem_filter.1 hu).2
    obtain ⟨r, hr, hwr⟩ := List.mem_flatMap.1 hw
    have h2 : w.1 = r.1 := by simpa using (List.mem_filter.1 hwr).2
    exact hnd.1 (by rw [← h1, hxy, h2]; exact List.mem_map_of_mem hr)

theorem slice_spec {s : SpoolT R S I} (hs : s.Inv) (sl : PySlice) :
    (∀ e, pySlice s.contents sl = .error e → s.slice sl = .error e) ∧
    (∀ l, pySlice s.contents sl = .ok l → ∃ s', s.slice sl = .ok s' ∧ s'.Inv ∧ s'.contents = l) := by
  unfold contents
  rw [pySlice_map]
  unfold slice
  cases hdf : pySlice s.df sl with
  | error e => simp [Except.map, bind, Except.bind]
  | ok df =>
    simp only [Except.map, reduceCtorEq, false_implies, implies_true, true_and, Except.ok.injEq, forall_eq', bind,
      Except.bind, pure, Except.pure]
    have hall : ((s.inst.filter fun r => (df.map Prod.fst).contains r.2.1).all fun r => s.source.any fun x => x.1 == r.1) = true := by
      rw [List.all_eq_true]
      intro r hr
      obtain ⟨x, hx, he⟩ := hs.known r (List.mem_filter.1 hr).1
      exact List.any_eq_true.2 ⟨x, hx, by simpa using he⟩
    rw [if_pos hall]
    have hnd := nodup_filter_fst (fun r => (df.map Prod.fst).contains r.2.1) hs.inst
    refine ⟨_, rfl, ⟨nodup_source' _ hs.source _ hnd, hnd, ?_⟩, ?_⟩
    · intro r hr
      obtain ⟨x, hx, he⟩ := hs.known r (List.mem_filter.1 hr).1
      exact ⟨x, List.mem_flatMap.2 ⟨r, hr, List.mem_filter.2 ⟨hx, by simpa using he⟩⟩, he⟩
    · apply List.map_congr_left
      intro p hp
      simp only [Prod.mk.injEq, true_and]
      unfold joined
      have hf : ((s.inst.filter fun r => (df.map Prod.fst).contains r.2.1).filter fun r => r.2.1 == p.1) =
          s.inst.filter fun r => r.2.1 == p.1 := by
        rw [List.filter_filter]
        apply List.filter_congr
        intro r _
        by_cases h : r.2.1 = p.1
        · have : p.1 ∈ df.map Prod.fst := List.mem_map_of_mem hp
          simp only [h, beq_self_eq_true, Bool.true_and, List.contains_eq_mem]
          simpa using this
        · simp [h]
      simp only [hf]
      apply List.flatMap_congr
      intro r hr
      unfold joinRow
      have hmem : r ∈ s.inst.filter fun r => (df.map Prod.fst).contains r.2.1 := by
        rw [← hf] at hr
        exact (List.mem_filter.1 hr).1
      simp only [filter_flatMap_source s.source _ hnd r hmem]

theorem arr_inv {s : SpoolT R S I} (hs : s.Inv) (df : List (ℕ × R)) : Inv { s with df := df } :=
  ⟨hs.source, hs.inst, hs.known⟩

theorem takeArr_spec {s : SpoolT R S I} (hs : s.Inv) (ix : List ℤ) :
    (∀ e, takeInts s.contents ix = .error e → s.takeArr ix = .error e) ∧
    (∀ l, takeInts s.contents ix = .ok l → ∃ s', s.takeArr ix = .ok s' ∧ s'.Inv ∧ s'.contents = l) := by
  unfold contents
  rw [takeInts_map]
  unfold takeArr
  cases hdf : takeInts s.df ix with
  | error e => simp [Except.map, bind, Except.bind]
  | ok df =>
    simp only [Except.map, reduceCtorEq, false_implies, implies_true, true_and, Except.ok.injEq, forall_eq', bind,
      Except.bind, pure, Except.pure]
    exact ⟨_, rfl, arr_inv hs df, rfl⟩

theorem maskArr_spec {s : SpoolT R S I} (hs : s.Inv) (m : List Bool) :
    (m.length ≠ s.contents.length → s.maskArr m = .error .indexError) ∧
    (m.length = s.contents.length → ∃ s', s.maskArr m = .ok s' ∧ s'.Inv ∧ s'.contents = maskIdx s.contents m) := by
  unfold contents maskArr
  rw [List.length_map]
  refine ⟨fun h => if_neg h, fun h => ?_⟩
  rw [if_pos h]
  exact ⟨_, rfl, arr_inv hs _, (maskIdx_map _ _ _).symm⟩

theorem sort_spec {argsort : List ℚ → List ℕ} (ha : IsArgsort argsort) (key : R → ℚ) {s : SpoolT R S I} (hs : s.Inv)
    (hnd : (s.df.map Prod.fst).Nodup) :
    ∃ s', s.sort argsort key = .ok s' ∧ s'.Inv ∧
      s'.contents = takeIdx s.contents (argsort (s.contents.map fun p => key p.1)) ∧ (s'.df.map Prod.fst).Nodup := by
  unfold sort
  rw [if_pos hnd]
  have hkeys : (s.contents.map fun p => key p.1) = s.df.map fun p => key p.2 := by
    unfold contents; rw [List.map_map]; rfl
  rw [hkeys]
  obtain ⟨hperm, _⟩ := ha (s.df.map fun p => key p.2)
  rw [List.length_map] at hperm
  have hlt : ∀ i ∈ argsort (s.df.map fun p => key p.2), i < s.df.length := fun i hi => by
    simpa using hperm.mem_iff.1 hi
  generalize argsort (s.df.map fun p => key p.2) = perm at *
  have hsorted : (takeIdx s.df perm).Perm s.df := by
    unfold takeIdx
    refine (hperm.filterMap _).trans ?_
    have : (List.range s.df.length).filterMap (fun i => s.df[i]?) = s.df := by
      have := takeIdx_range' s.df 0 s.df.length
      rw [← List.range_eq_range'] at this
      unfold takeIdx at this
      rw [this]; simp
    rw [this]
  have hlab : ((takeIdx s.df perm).map Prod.fst).Nodup := ((hsorted.map Prod.fst).nodup_iff).2 hnd
  generalize hso : takeIdx s.df perm = sorted at *
  simp only
  refine ⟨_, rfl, ⟨hs.source, ?_, ?_⟩, ?_, ?_⟩
  · simp only
    refine List.Nodup.sublist ?_ hs.inst
    clear hs
    induction s.inst with
    | nil => simp
    | cons a l ih =>
      simp only [List.filterMap_cons]
      split
      · exact ih.trans (List.sublist_cons_self _ _)
      · rename_i b hb
        split_ifs at hb
        injection hb with hb
        subst hb
        exact List.Sublist.cons_cons _ ih
  · intro r hr
    obtain ⟨r', hr', he⟩ := List.mem_filterMap.1 hr
    split_ifs at he
    injection he with he
    subst he
    exact hs.known r' hr'
  · unfold contents
    rw [takeIdx_map, hso]
    apply List.ext_getElem?
    intro i
    rw [List.getElem?_map, List.getElem?_map]
    simp only
    by_cases hi : i < sorted.length
    · rw [List.getElem?_eq_getElem (by simpa using hi), List.getElem?_eq_getElem hi]
      simp only [List.getElem_zip, List.getElem_range, List.getElem_map, Option.map_some, Option.some.injEq,
        Prod.mk.injEq, true_and]
      unfold joined
      simp only
      have hj : ∀ l : List (ℕ × ℕ × I), ((l.filterMap fun r => if r.2.1 ∈ sorted.map Prod.fst then
            some (r.1, (sorted.map Prod.fst).idxOf r.2.1, r.2.2) else none).filter fun r => r.2.1 == i).flatMap
            (joinRow (R := R) ⟨(List.range sorted.length).zip (sorted.map Prod.snd), s.source, s.inst.filterMap fun r =>
              if r.2.1 ∈ sorted.map Prod.fst then some (r.1, (sorted.map Prod.fst).idxOf r.2.1, r.2.2) else none⟩) =
          (l.filter fun r => r.2.1 == sorted[i].1).flatMap s.joinRow := by
        intro l
        induction l with
        | nil => rfl
        | cons a l ih =>
          have hidx : (sorted.map Prod.fst)[i]'(by simpa using hi) = sorted[i].1 := by simp
          by_cases hm : a.2.1 ∈ sorted.map Prod.fst
          · simp only [List.filterMap_cons, if_pos hm]
            by_cases he : a.2.1 = sorted[i].1
            · have hix : (sorted.map Prod.fst).idxOf a.2.1 = i := by
                rw [he, ← hidx]
                exact List.Nodup.idxOf_getElem hlab i (by simpa using hi)
              rw [List.filter_cons_of_pos (by simpa using hix), List.filter_cons_of_pos (by simpa using he)]
              simp only [List.flatMap_cons, ih]
              rfl
            · have hix : ¬ (sorted.map Prod.fst).idxOf a.2.1 = i := by
                intro hc
                apply he
                rw [← hidx]
                have := List.getElem_idxOf (List.idxOf_lt_length_iff.2 hm)
                simp only [hc] at this
                exact this.symm
              rw [List.filter_cons_of_neg (by simpa using hix), List.filter_cons_of_neg (by simpa using he)]
              exact ih
          · simp only [List.filterMap_cons, if_neg hm]
            have he : ¬ a.2.1 = sorted[i].1 := by
              intro hc
              exact hm (by rw [hc]; exact List.mem_map_of_mem (List.getElem_mem hi))
            rw [List.filter_cons_of_neg (by simpa using he)]
            exact ih
      exact hj s.inst
    · rw [List.getElem?_eq_none (by simpa using hi), List.getElem?_eq_none (by omega)]
      rfl
  · simp only
    rw [List.map_fst_zip (by simp)]
    exact List.nodup_range

/-- Labels of the current rows stay distinct along the history (array selection with repeated positions
makes them equal, after which `sort` refuses to work). -/
def Distinct (s : SpoolT R S I) : Prop := (s.df.map Prod.fst).Nodup

/-- **C55** (one source per row): a history of slices, array selections and sorts gives the spool whose patches
are the list obtained by the same operations on the list of patches; an error of the list history is an
error of the spool history. Sorting is only allowed while labels are distinct (no repeated array positions before
it). Missing: spools in which a source feeds several rows, where it is false (`C55_chunked_slice_violated`). -/
theorem C55_history_partial {argsort : List ℚ → List ℕ} (ha : IsArgsort argsort) (key : R → ℚ) :
    ∀ (ops : List Op) (s : SpoolT R S I), s.Inv →
      (∀ (pre post : List Op) s', ops = pre ++ .sort :: post → s.run argsort key pre = .ok s' → s'.Distinct) →
      (∀ e, listRun argsort key ops s.contents = .error e → s.run argsort key ops = .error e) ∧
      (∀ l, listRun argsort key ops s.contents = .ok l →
        ∃ s', s.run argsort key ops = .ok s' ∧ s'.Inv ∧ s'.contents = l) := by
  intro ops
  induction ops with
  | nil =>
    intro s hs _
    simp only [listRun, run, reduceCtorEq, false_implies, implies_true, Except.ok.injEq, true_and]
    rintro l rfl
    exact ⟨s, rfl, hs, rfl⟩
  | cons o ops ih =>
    intro s hs hd
    have one : (∀ e, listStep argsort key s.contents o = .error e → s.step argsort key o = .error e) ∧
        (∀ l, listStep argsort key s.contents o = .ok l → ∃ s', s.step argsort key o = .ok s' ∧ s'.Inv ∧ s'.contents = l) := by
      cases o with
      | slice sl => exact slice_spec hs sl
      | ints ix => exact takeArr_spec hs ix
      | mask m =>
        obtain ⟨h1, h2⟩ := maskArr_spec hs m
        simp only [listStep, step]
        by_cases h : m.length = s.contents.length
        · rw [if_pos h]
          simp only [reduceCtorEq, false_implies, implies_true, Except.ok.injEq, true_and]
          rintro l rfl
          exact h2 h
        · rw [if_neg h, h1 h]
          simp
      | sort =>
        simp only [listStep, step, reduceCtorEq, false_implies, implies_true, Except.ok.injEq, true_and]
        rintro l rfl
        obtain ⟨s', h1, h2, h3, _⟩ := sort_spec ha key hs (hd [] ops s rfl rfl)
        exact ⟨s', h1, h2, h3⟩
    simp only [listRun, run]
    cases hl : listStep argsort key s.contents o with
    | error e =>
      rw [one.1 e hl]
      simp [bind, Except.bind]
    | ok l =>
      obtain ⟨s', h1, h2, h3⟩ := one.2 l hl
      rw [h1]
      simp only [bind, Except.bind]
      rw [← h3]
      apply ih s' h2
      intro pre post s'' he hr
      apply hd (o :: pre) post s'' (by rw [he]; rfl)
      simp only [run, h1, bind, Except.bind]
      exact hr

/-- A new spool shows its rows in order, each made of itself, and is a valid start of a history. -/
theorem C55_new (src : R → S) (ins : R → I) (rows : List R) :
    (ofRows src ins rows).Inv ∧ (ofRows src ins rows).Distinct ∧
    (ofRows src ins rows).contents = rows.map fun r => (r, [(ins r, some (src r))]) := by
  have hlab : ((List.range rows.length).zip rows).map Prod.fst = List.range rows.length :=
    List.map_fst_zip (by simp)
  have hlab' : ((List.range rows.length).zip (rows.map src)).map Prod.fst = List.range rows.length :=
    List.map_fst_zip (by simp)
  have hsrcnd : ((ofRows src ins rows).source.map Prod.fst).Nodup := by
    simp only [ofRows, hlab']; exact List.nodup_range
  refine ⟨⟨hsrcnd, ?_, ?_⟩, ?_, ?_⟩
  · simp only [ofRows, List.map_map, Function.comp_def]
    rw [hlab]
    exact List.nodup_range
  · intro r hr
    simp only [ofRows] at hr ⊢
    obtain ⟨p, hp, rfl⟩ := List.mem_map.1 hr
    have : p.1 ∈ ((List.range rows.length).zip (rows.map src)).map Prod.fst := by
      rw [hlab', ← hlab]; exact List.mem_map_of_mem hp
    obtain ⟨x, hx, he⟩ := List.mem_map.1 this
    exact ⟨x, hx, he⟩
  · unfold Distinct
    simp only [ofRows, hlab]
    exact List.nodup_range
  · unfold contents
    apply List.ext_getElem?
    intro i
    rw [List.getElem?_map, List.getElem?_map]
    simp only [ofRows]
    by_cases hi : i < rows.length
    · rw [List.getElem?_eq_getElem (by simpa using hi), List.getElem?_eq_getElem hi]
      simp only [List.getElem_zip, List.getElem_range, Option.map_some, Option.some.injEq, Prod.mk.injEq, true_and]
      have huniq : ∀ {α : Type} (l : List (ℕ × α)) (a : α) (i : ℕ), (l.map Prod.fst).Nodup → (i, a) ∈ l →
          (l.filter fun x => x.1 == i) = [(i, a)] := by
        intro α l a i
        induction l with
        | nil => intro _ h; simp at h
        | cons b l ih =>
          intro hnd hm
          simp only [List.map_cons, List.nodup_cons] at hnd
          rcases List.mem_cons.1 hm with rfl | hm
          · rw [List.filter_cons_of_pos (by simp)]
            have : (l.filter fun x => x.1 == i) = [] := by
              rw [List.filter_eq_nil_iff]
              intro x hx hc
              have : x.1 = i := by simpa using hc
              exact hnd.1 (by simp only; rw [← this]; exact List.mem_map_of_mem hx)
            rw [this]
          · rw [List.filter_cons_of_neg, ih hnd.2 hm]
            intro hc
            have : b.1 = i := by simpa using hc
            exact hnd.1 (by rw [this]; exact List.mem_map_of_mem (f := Prod.fst) hm)
      unfold joined
      have h1 : ((((List.range rows.length).zip rows).map fun p => (p.1, p.1, ins p.2)).filter fun r => r.2.1 == i) =
          [(i, i, ins rows[i])] := by
        rw [List.filter_map]
        have : ((List.range rows.length).zip rows).filter ((fun r : ℕ × ℕ × I => r.2.1 == i) ∘ fun p => (p.1, p.1, ins p.2)) =
            [(i, rows[i])] := by
          have := huniq ((List.range rows.length).zip rows) rows[i] i (by rw [hlab]; exact List.nodup_range) (by
            rw [List.mem_iff_getElem]
            exact ⟨i, by simpa using hi, by simp⟩)
          exact this
        rw [this]
        rfl
      simp only [h1, List.flatMap_cons, List.flatMap_nil, List.append_nil]
      unfold joinRow
      simp only
      have h2 := huniq ((List.range rows.length).zip (rows.map src)) (src rows[i]) i (by rw [hlab']; exact List.nodup_range) (by
            rw [List.mem_iff_getElem]
            exact ⟨i, by simpa using hi, by simp⟩)
      rw [h2]
      rfl
    · rw [List.getElem?_eq_none (by simpa using hi), List.getElem?_eq_none (by omega)]
      rfl

/-- **C55** one patch: `spool[i]` for a position of the spool (counted from the end when negative) builds the
patch of that row; positions past the end raise IndexError. -/
theorem C55_getitem (build : List (I × Option S) → P) (s : SpoolT R S I)
    (hinst : ∀ p ∈ s.df, ∃ r ∈ s.inst, r.2.1 = p.1) (i : ℤ) :
    (∀ k : ℕ, k < s.contents.length → (i = k ∨ i = (k : ℤ) - s.contents.length) →
      ∃ c, s.contents[k]? = some c ∧ s.get build i = .ok (build c.2)) ∧
    ((s.contents.length : ℤ) ≤ i → s.get build i = .error .indexError) := by
  have hlen : s.contents.length = s.df.length := by simp [contents]
  rw [hlen]
  constructor
  · intro k hk hik
    have hkk : (if (if 0 ≤ i then i else (s.len : ℤ) + i) < 0 then (if 0 ≤ i then i else (s.len : ℤ) + i) + s.len
        else (if 0 ≤ i then i else (s.len : ℤ) + i)) = (k : ℤ) := by
      unfold len
      rcases hik with h | h <;> split_ifs <;> omega
    refine ⟨_, by unfold contents; rw [List.getElem?_map, List.getElem?_eq_getElem hk]; rfl, ?_⟩
    unfold get
    simp only [hkk]
    rw [if_neg (by omega)]
    simp only [Int.toNat_natCast, List.getElem?_eq_getElem hk]
    obtain ⟨r, hr, he⟩ := hinst _ (List.getElem_mem hk)
    rw [if_neg]
    rw [List.isEmpty_iff, List.filter_eq_nil_iff]
    intro hc
    exact hc r hr (by simpa using he)
  · intro hi
    unfold get len
    have e : (if (0 : ℤ) ≤ i then i else (s.df.length : ℤ) + i) = i := if_pos (by omega)
    simp only [e]
    rw [if_neg (by omega : ¬ i < 0), if_neg (by omega), List.getElem?_eq_none (by omega)]

/-- **C55 violated**: positions between `-2 * len` and `-len - 1` wrap around a second time instead of raising
IndexError: the fourth from the end of three patches is the last one. -/
theorem C55_negative_violated :
    (ofRows (S := ℕ) (I := Unit) id (fun _ => ()) [10, 20, 30]).get (fun l => l.map Prod.snd) (-4) = .ok [some 30] := by
  decide +kernel

/-- Load, trim and merge the samples of a chunk, for sources given by their list of sample times. -/
def concatPieces (l : List ((ℚ × ℚ) × Option (List ℚ))) : List ℚ :=
  l.flatMap fun p => (p.2.getD []).filter fun t => decide (p.1.1 ≤ t ∧ t ≤ p.1.2)

/-- Sources with samples 0..9 and 10..19 chunked to lengths of 7 samples; the instructions are those of the chunk
model (`C55_chunked_slice_violated` checks it). -/
def chunkedDemo : SpoolT (ℚ × ℚ) (List ℚ) (ℚ × ℚ) where
  df := [(0, 0, 6), (1, 7, 13)]
  source := [(0, [0, 1, 2, 3, 4, 5, 6, 7, 8, 9]), (1, [10, 11, 12, 13, 14, 15, 16, 17, 18, 19])]
  inst := [(0, 0, 0, 6), (0, 1, 7, 9), (1, 1, 10, 13)]

/-- **C55 violated** for chunked spools: slicing duplicates the row of a source that feeds two chunks, the join of
instructions with sources then pairs each of its instructions with both copies, and the patch has its samples
twice: `spool[1]` is 7..13 but `spool[0:2][1]` is 7,8,9,7,8,9,10..13. (Duplicates are only removed when a
patch has more than ten pieces.) -/
theorem C55_chunked_slice_violated :
    instructions [⟨0, 9, 1⟩, ⟨10, 19, 1⟩] [(0, 6), (7, 13)] = .ok [[⟨0, 0, 6⟩], [⟨0, 7, 9⟩, ⟨1, 10, 13⟩]] ∧
    chunkedDemo.get concatPieces 1 = .ok [7, 8, 9, 10, 11, 12, 13] ∧
    (chunkedDemo.slice ⟨some 0, some 2, none⟩).bind (fun s => s.get concatPieces 1) =
      .ok [7, 8, 9, 7, 8, 9, 10, 11, 12, 13] := by
  refine ⟨by decide +kernel, by decide +kernel, by decide +kernel⟩

/-- **C55 violated**: an array selection leaves the source table alone, and `chunk` works on the source table:
after selecting the first of two patches by an array, chunking still sees both; a slice does not. -/
theorem C55_chunk_after_array_violated :
    ((ofRows (S := ℕ) (I := Unit) id (fun _ => ()) [10, 20]).takeArr [0]).map (fun s => (s.df, s.chunkSources)) =
      .ok ([(0, 10)], [10, 20]) ∧
    ((ofRows (S := ℕ) (I := Unit) id (fun _ => ()) [10, 20]).slice ⟨some 0, some 1, none⟩).map
      (fun s => (s.df, s.chunkSources)) = .ok ([(0, 10)], [10]) := by
  constructor <;> decide +kernel

/-- **C55** the wanted behaviour holds for slices: the sources left for chunking are those of the rows shown. -/
theorem C55_slice_sources (s s' : SpoolT R S I) (sl : PySlice) (h : s.slice sl = .ok s') :
    ∀ x ∈ s'.source, x ∈ s.source ∧ ∃ r ∈ s.inst, r.1 = x.1 ∧ ∃ p ∈ s'.df, p.1 = r.2.1 := by
  unfold slice at h
  cases hdf : pySlice s.df sl with
  | error e => rw [hdf] at h; simp [bind, Except.bind] at h
  | ok df =>
    rw [hdf] at h
    simp only [bind, Except.bind, pure, Except.pure] at h
    split_ifs at h with hall
    · injection h with h
      subst h
      intro x hx
      simp only at hx
      obtain ⟨r, hr, hxr⟩ := List.mem_flatMap.1 hx
      obtain ⟨h1, h2⟩ := List.mem_filter.1 hxr
      obtain ⟨h3, h4⟩ := List.mem_filter.1 hr
      refine ⟨h1, r, h3, (by simpa using h2 : x.1 = r.1).symm, ?_⟩
      simp only [List.contains_eq_mem, decide_eq_true_eq] at h4
      obtain ⟨p, hp, he⟩ := List.mem_map.1 h4
      exact ⟨p, hp, he⟩

example : (run (R := ℕ) (S := ℕ) (I := Unit) stableArgsort (fun r => (r : ℚ))
    [.slice ⟨some 1, none, none⟩, .sort, .ints [-1, 0]] (ofRows id (fun _ => ()) [5, 40, 20, 30])).map
      (fun s => s.contents.map Prod.fst) = .ok [40, 20] := by decide +kernel

end SpoolT
end Verif
