import Verif.Proof.Dasdae
import Verif.Props.CoordManager
import Verif.Props.Aggregate
/-! # C35: patches written to a DASDAE file and read back -/
namespace Verif
open Spec
variable {α ν : Type}

/-- The patches the theorems are about: a consistent coordinate manager whose coordinates have the classes `get_coord` gives and can be rebuilt, data of the
manager's shape with at least one dimension, names that can be written. -/
structure Fit (p : DPatch α ν) : Prop where
  wf : WellFormed p.cm
  classes : ∀ name ds k c, (name, ds, MCoord.one k c) ∈ p.cm.ents → c.Wf
  readable : Readable p.cm
  names : Saveable p
  shape : p.cm.shape = p.data.shape
  dims : p.data.shape ≠ []

/-- **C35.** A patch saved in a new group is read back. -/
theorem C35_patch_partial (p : DPatch α ν) (hp : Fit p) (name : String) (hn : legalNode name = true) :
    ∃ g q, savePatch {} name p = .ok g ∧ readPatch g = .ok q ∧ ReadBack p q := by
  obtain ⟨q, h1, h2, _⟩ := readPatch_saved hp.wf hp.classes hp.readable hp.names hp.shape hp.dims
  exact ⟨_, q, savePatch_fresh hp.wf hp.names hn, h1, h2⟩

/-- Writing patches under new, distinct names. -/
theorem writeFile_fresh : ∀ {ps : List (String × DPatch α ν)} {f : H5File α ν}, (f.keys ++ ps.map Prod.fst).Nodup →
    (∀ np ∈ ps, Fit np.2 ∧ legalNode np.1 = true) →
    writeFile f ps = .ok (f ++ ps.map fun np => (np.1, (⟨np.2.savedAttrs, np.2.savedNodes⟩ : H5Group α ν)))
  | [], f, _, _ => by simp [writeFile, pure, Except.pure]
  | np :: ps, f, hn, hp => by
    have hk : np.1 ∉ f.keys := by
      rw [List.nodup_append] at hn
      exact fun hm => hn.2.2 np.1 hm np.1 (by simp) rfl
    have hg : (f.get? np.1).getD {} = ({} : H5Group α ν) := by rw [Dict.get?_eq_none.2 hk]; rfl
    have h1 := hp np (by simp)
    have hn' : (Dict.keys (f ++ [(np.1, (⟨np.2.savedAttrs, np.2.savedNodes⟩ : H5Group α ν))]) ++ ps.map Prod.fst).Nodup := by
      have : Dict.keys (f ++ [(np.1, (⟨np.2.savedAttrs, np.2.savedNodes⟩ : H5Group α ν))]) ++ ps.map Prod.fst = f.keys ++ (np :: ps).map Prod.fst := by
        simp [Dict.keys]
      rw [this]; exact hn
    have ih := writeFile_fresh (ps := ps) hn' fun x hx => hp x (by simp [hx])
    unfold writeFile at ih ⊢
    rw [List.foldlM_cons, hg, savePatch_fresh h1.1.wf h1.1.names h1.2]
    show List.foldlM _ (Dict.set f np.1 _) ps = _
    rw [set_fresh hk, ih]
    simp

/-- **C35.** Patches written to a new file under distinct names are all read back, in the order of their names. -/
theorem C35_file_partial (ps : List (String × DPatch α ν)) (hn : (ps.map Prod.fst).Nodup) (hp : ∀ np ∈ ps, Fit np.2 ∧ legalNode np.1 = true) :
    ∃ f rs order, writeFile [] ps = .ok f ∧ readFile f = .ok rs ∧ order.Perm ps ∧ order.Pairwise (fun a b => a.1 ≤ b.1) ∧
      List.Forall₂ (fun np q => ReadBack np.2 q) order rs := by
  have hw := writeFile_fresh (f := []) (ps := ps) (by simpa [Dict.keys] using hn) hp
  rw [List.nil_append] at hw
  set toG : String × DPatch α ν → String × H5Group α ν := fun np => (np.1, ⟨np.2.savedAttrs, np.2.savedNodes⟩) with htoG
  have hsort : (ps.map toG).insertionSort (fun a b => a.1 ≤ b.1) = (ps.insertionSort fun a b => a.1 ≤ b.1).map toG := by
    symm
    apply List.map_insertionSort
    intro a _ b _
    rfl
  set order := ps.insertionSort fun a b => a.1 ≤ b.1 with ho
  have hperm : order.Perm ps := List.perm_insertionSort _ _
  have hread : ∀ np ∈ order, ∃ q, readPatch (toG np).2 = .ok q ∧ ReadBack np.2 q := by
    intro np hm
    have h := (hp np (hperm.mem_iff.1 hm)).1
    obtain ⟨q, h1, h2, _⟩ := readPatch_saved h.wf h.classes h.readable h.names h.shape h.dims
    exact ⟨q, h1, h2⟩
  have key : ∀ {l : List (String × DPatch α ν)}, (∀ np ∈ l, ∃ q, readPatch (toG np).2 = .ok q ∧ ReadBack np.2 q) →
      ∃ rs, (l.map toG).mapM (fun e => readPatch e.2) = .ok rs ∧ List.Forall₂ (fun np q => ReadBack np.2 q) l rs := by
    intro l
    induction l with
    | nil => intro _; exact ⟨[], rfl, .nil⟩
    | cons np l ih =>
      intro h
      obtain ⟨q, h1, h2⟩ := h np (by simp)
      obtain ⟨rs, h3, h4⟩ := ih fun x hx => h x (by simp [hx])
      refine ⟨q :: rs, ?_, .cons h2 h4⟩
      rw [List.map_cons, List.mapM_cons, h1, h3]
      rfl
  obtain ⟨rs, h1, h2⟩ := key hread
  refine ⟨_, rs, order, hw, ?_, hperm, ?_, h2⟩
  · unfold readFile
    rw [hsort]
    exact h1
  · have : Std.Total (fun a b : String × DPatch α ν => a.1 ≤ b.1) := ⟨fun a b => String.le_total a.1 b.1⟩
    have : IsTrans (String × DPatch α ν) (fun a b => a.1 ≤ b.1) := ⟨fun a b c h1 h2 => String.le_trans h1 h2⟩
    exact List.pairwise_insertionSort _ _

/-- **C35.** Writing more patches under other names leaves the groups of a file alone; those written under new names are read back. -/
theorem C35_append_partial (f : H5File α ν) (ps : List (String × DPatch α ν)) (hn : (f.keys ++ ps.map Prod.fst).Nodup)
    (hp : ∀ np ∈ ps, Fit np.2 ∧ legalNode np.1 = true) :
    ∃ f', writeFile f ps = .ok f' ∧ (∀ name ∈ f.keys, f'.get? name = f.get? name) ∧
      ∀ np ∈ ps, ∃ g q, f'.get? np.1 = some g ∧ readPatch g = .ok q ∧ ReadBack np.2 q := by
  refine ⟨_, writeFile_fresh hn hp, ?_, ?_⟩
  · intro name hname
    obtain ⟨v, hv⟩ := Dict.mem_keys.1 hname
    rw [Dict.get?_append, hv]; rfl
  · intro np hnp
    have h := (hp np hnp).1
    obtain ⟨q, h1, h2, _⟩ := readPatch_saved h.wf h.classes h.readable h.names h.shape h.dims
    refine ⟨_, q, ?_, h1, h2⟩
    apply Dict.get?_of_mem
    · have : Dict.keys (f ++ ps.map fun np => (np.1, (⟨np.2.savedAttrs, np.2.savedNodes⟩ : H5Group α ν))) = f.keys ++ ps.map Prod.fst := by
        simp [Dict.keys]
      rw [this]; exact hn
    · exact List.mem_append_right _ (List.mem_map_of_mem (f := fun np => (np.1, (⟨np.2.savedAttrs, np.2.savedNodes⟩ : H5Group α ν))) hnp)

theorem between_all {c : Coord} {ps : List ℕ} (h : Survivors c ps (.between none none)) : ps = List.range c.length := by
  unfold Survivors at h
  rw [h, List.filter_eq_self]
  intro i _
  simp [LabelAt, Between]

theorem origin_all {f : String → ℕ} {red : String → List ℕ} : ∀ {dims : List String} {i : List ℕ}, (∀ d ∈ dims, red d = List.range (f d)) →
    InRange (dims.map f) i → origin dims red i = i
  | [], i, _, hi => by cases hi; rfl
  | d :: dims, i, h, hi => by
    cases hi with
    | cons h1 h2 =>
      rename_i k i
      have ih := origin_all (dims := dims) (fun d' hd' => h d' (by simp [hd'])) h2
      unfold origin at ih ⊢
      rw [List.map_cons, List.zipWith_cons_cons, ih, h d (by simp)]
      simp [h1]

theorem vals_labels (c : Coord) : c.vals = c.labels.filterMap id := by
  cases c with
  | part n => simp [Coord.vals, Coord.labels]
  | range r => simp [Coord.vals, Coord.labels]
  | mono vs => simp [Coord.vals, Coord.labels]
  | arr vs => simp [Coord.vals, Coord.labels]

theorem same_vals {k k' : Kind} {c d : Coord} (hc : c.Wf) (hd : d.Wf) (h : (MCoord.one k' d).arr = (MCoord.one k c).arr) : d.vals = c.vals := by
  have hl : d.length = c.length := by simpa [MCoord.arr] using congrArg Nd.shape h
  have h1 := labels_length' (c := c) (by rintro r rfl; exact hc)
  have h2 := labels_length' (c := d) (by rintro r rfl; exact hd)
  have : d.labels = c.labels := by
    rw [← range_getD d.labels, ← range_getD c.labels, h1, h2, hl]
    apply List.map_congr_left
    intro i _
    exact congrFun (congrArg Nd.get h) [i]
  rw [vals_labels, vals_labels, this]

theorem takeIdx_all {β : Type} (l : List β) : takeIdx l (List.range l.length) = l := by
  have h := takeIdx_getElem? (l := l) (ix := List.range l.length) (by simp)
  apply List.ext_getElem?
  intro i
  rw [h]
  by_cases hi : i < l.length
  · simp [hi]
  · simp [hi]

theorem takeIdx_whole {c : Coord} (hc : c.Wf) : takeIdx c.vals (List.range c.length) = c.vals := by
  have h1 := labels_length' (c := c) (by rintro r rfl; exact hc)
  cases c with
  | part n =>
    unfold takeIdx Coord.vals
    simp
  | range r =>
    have : r.values.length = (Coord.range r).length := by rw [← h1]; simp [Coord.labels]
    show takeIdx r.values _ = r.values
    rw [← this]; exact takeIdx_all _
  | mono vs => exact takeIdx_all vs
  | arr vs => exact takeIdx_all vs

/-- **C35.** What `dc.read` gives for a saved patch, if it succeeds: the keywords it passes on select nothing away. Labels are the same on coordinates which can be stored unaltered (see C14). -/
theorem C35_read_partial (argsort : List ℚ → List ℕ) (ha : IsArgsort argsort) (p r : DPatch α ν) (hp : Fit p) (hm : Regular p.cm) (hd : p.cm.dims ≠ [])
    (hsep : ∀ d c c', p.cm.ents.get? "time" = some ([d], c) → p.cm.ents.get? "distance" ≠ some ([d], c'))
    (hlisted : ∀ n d a, p.cm.ents.get? n ≠ some ([d], .nd a)) (name : String) (g : H5Group α ν) (hsave : savePatch {} name p = .ok g)
    (hread : readThrough argsort g = .ok r) :
    r.cm.dims = p.cm.dims ∧ r.data.shape = p.data.shape ∧ (∀ i, InRange p.data.shape i → r.data.get i = p.data.get i) ∧
      (∀ key, r.attrs.get? key = p.attrs.get? key) ∧
      (∀ n ds c, p.cm.ents.get? n = some (ds, c) → Tells c → ShortName n → r.units.get? n = p.units.get? n) ∧
      ∀ n, (∀ ds k c, p.cm.ents.get? n = some (ds, .one k c) → Storable c.vals) → ∀ i, InRange p.data.shape i →
        label ⟨r.cm, r.data⟩ n i = label ⟨p.cm, p.data⟩ n i := by
  have hl : legalNode name = true := by
    unfold savePatch at hsave
    split_ifs at hsave with h
    exact (Bool.and_eq_true _ _ ▸ h).1
  rw [savePatch_fresh hp.wf hp.names hl] at hsave
  cases hsave
  obtain ⟨q, h1, h2, hwq, hcq, hsq, hndq⟩ := readPatch_saved hp.wf hp.classes hp.readable hp.names hp.shape hp.dims
  -- both have the same coordinates
  have hback : ∀ n ds x, q.cm.ents.get? n = some (ds, x) → ∃ c, p.cm.ents.get? n = some (ds, c) ∧ SameValues c x := by
    intro n ds x hn
    obtain ⟨⟨ds', c⟩, hn'⟩ := Dict.mem_keys.1 (by rw [← h2.names]; exact Dict.mem_keys.2 ⟨_, hn⟩ : n ∈ p.cm.ents.keys)
    obtain ⟨x', w1, w2⟩ := h2.coords n ds' c hn'
    rw [hn] at w1; cases w1
    exact ⟨c, hn', w2⟩
  have hreg : Regular q.cm := by
    refine ⟨hwq, ?_, ?_, hcq, ?_⟩
    · unfold DistinctDims; rw [h2.dims]; exact hm.distinct
    · intro n ds x hx
      obtain ⟨c, hc, _⟩ := hback n ds x (Dict.get?_of_mem hwq.names hx)
      exact hm.coordDims n ds c (Dict.mem_of_get? hc)
    · intro n hn
      rw [h2.dims]
      exact hm.plain n (by rw [← h2.names]; exact hn)
  have hlq : ∀ n d x, q.cm.ents.get? n = some ([d], x) → ∃ k c, x = .one k c := by
    intro n d x hn
    cases x with
    | nd a => exact absurd (hndq n [d] a hn) (hlisted n d a)
    | one k c => exact ⟨k, c, rfl⟩
  -- the selection
  unfold readThrough at hread
  simp only [h1, bind, Except.bind] at hread
  cases hsel : q.cm.select argsort q.data (openQuery q.cm) with
  | error e => rw [hsel] at hread; cases hread
  | ok s =>
    rw [hsel] at hread
    simp only at hread
    split_ifs at hread with hsh
    cases hread
    have hmemQ : ∀ r ∈ openQuery q.cm, r.2 = .between none none ∧ ∃ d x, q.cm.ents.get? r.1 = some ([d], x) := by
      intro r hr
      unfold openQuery at hr
      obtain ⟨n, hn, rfl⟩ := List.mem_map.1 hr
      refine ⟨rfl, ?_⟩
      have := (List.mem_filter.1 hn).2
      split at this
      · rename_i d x hx
        exact ⟨d, x, hx⟩
      · cases this
    have hgroups : q.cm.groups (openQuery q.cm) = [openQuery q.cm] := by
      have hused : ((openQuery q.cm).filter fun r => q.cm.ents.keys.contains r.1) = openQuery q.cm := by
        rw [List.filter_eq_self]
        intro r hr
        obtain ⟨_, d, x, hx⟩ := hmemQ r hr
        simpa using Dict.mem_keys.2 ⟨_, hx⟩
      unfold CM.groups
      simp only [hused]
      rw [if_pos]
      unfold openQuery
      rw [List.map_map]
      rw [List.Nodup, List.pairwise_map, List.pairwise_filter]
      refine List.Pairwise.cons ?_ (List.pairwise_singleton _ _)
      intro y hy hpD hpT
      rw [List.mem_singleton] at hy
      subst hy
      split at hpD
      · rename_i d' x' hx'
        split at hpT
        · rename_i d x hx
          simp only [Function.comp_apply, hx, hx', Option.map_some, Option.getD_some]
          intro he
          cases he
          obtain ⟨c, hc, _⟩ := hback _ _ _ hx
          obtain ⟨c', hc', _⟩ := hback _ _ _ hx'
          exact hsep _ c c' hc hc'
        · cases hpT
      · cases hpD
    have hone : OnePerDim q.cm (openQuery q.cm) := groups_onePerDim q.cm (openQuery q.cm) _ (by rw [hgroups]; simp)
    have hgs : CM.selectGroup argsort (q.cm, q.data) (openQuery q.cm) = .ok s := by
      unfold CM.select at hsel
      rw [hgroups, List.foldlM_cons] at hsel
      cases hx : CM.selectGroup argsort (q.cm, q.data) (openQuery q.cm) with
      | error e => rw [hx] at hsel; cases hsel
      | ok y => rw [hx] at hsel; exact hsel
    have hdq : q.cm.dims ≠ [] := by rw [h2.dims]; exact hd
    obtain ⟨red, hS, _, _⟩ := group_spec ha (p := ⟨q.cm, q.data⟩) hreg hdq hsq
      (fun r hr => by rw [(hmemQ r hr).1]; trivial) hone hgs
    have hred : ∀ d ∈ q.cm.dims, red d = List.range (q.cm.ents.lenOf d) := by
      intro d hdm
      obtain ⟨c, n, hc, hcs, hln⟩ := CM.WellFormed.get_dim hwq hdm
      by_cases hask : ∃ r ∈ openQuery q.cm, ∃ c, q.cm.ents.get? r.1 = some ([d], c)
      · obtain ⟨r, hr, c', hc'⟩ := hask
        obtain ⟨k, c'', rfl⟩ := hlq _ _ _ hc'
        have := hS.asked r hr d k c'' hc'
        rw [(hmemQ r hr).1] at this
        rw [between_all this]
        have e := CM.WellFormed.shape_eq hwq (Dict.mem_of_get? hc') (by simp)
        rw [one_shape] at e
        simpa using congrArg (fun l => List.range (l.getD 0 0)) e
      · have := hS.others d hdm (fun r hr c hc' => hask ⟨r, hr, c, hc'⟩) c n hc hcs
        rw [this, hln]
    have hshape : q.data.shape = q.cm.dims.map q.cm.ents.lenOf := by
      rw [← hsq]; unfold CM.shape; rw [if_neg hdq]
    have hshape' : s.2.shape = q.data.shape := by
      rw [hshape]
      refine hS.shape.trans ?_
      exact List.map_congr_left fun d hdm => by rw [hred d hdm, List.length_range]
    have horg : ∀ i, InRange q.data.shape i → origin q.cm.dims red i = i := by
      intro i hi
      rw [hshape] at hi
      exact origin_all hred hi
    have hdata : q.data = p.data := h2.data
    refine ⟨hS.dims.trans h2.dims, by rw [hshape', hdata], ?_, h2.attrs, h2.units, ?_⟩
    · intro i hi
      rw [← hdata] at hi
      have := (hS.data i (by rw [hshape']; exact hi)).2
      simp only at this
      rw [horg i hi] at this
      show s.2.get i = _
      rw [this, hdata]
    · intro n hst i hi
      rw [← hdata] at hi
      have hsq' : StorableAfter q.cm red n := by
        intro d k c hc
        have hdm : d ∈ q.cm.dims := hwq.attached _ _ _ (Dict.mem_of_get? hc) d (by simp)
        obtain ⟨c0, hc0, hsame⟩ := hback _ _ _ hc
        cases c0 with
        | nd a => exact absurd hc0 (hlisted n d a)
        | one k0 c0 =>
          have hs0 := hst _ _ _ hc0
          have hw0 := hm.classes _ _ _ _ (Dict.mem_of_get? hc0)
          have hw1 := hcq _ _ _ _ (Dict.mem_of_get? hc)
          rw [hred d hdm]
          have e := CM.WellFormed.shape_eq hwq (Dict.mem_of_get? hc) (by simp)
          rw [one_shape] at e
          have e' : c.length = q.cm.ents.lenOf d := by simpa using e
          rw [← e', takeIdx_whole hw1, same_vals hw0 hw1 (hsame.2 fun k c' h => by cases h; exact hs0)]
          exact hs0
      have := hS.labels n hsq' i (by rw [hshape']; exact hi)
      simp only at this
      rw [horg i hi] at this
      refine this.trans ?_
      unfold label
      cases hq : q.cm.ents.get? n with
      | none =>
        have : p.cm.ents.get? n = none := by
          rw [Dict.get?_eq_none, ← h2.names, ← Dict.get?_eq_none]; exact hq
        simp only [this]
      | some v =>
        obtain ⟨ds, x⟩ := v
        obtain ⟨c, hc, hsame⟩ := hback _ _ _ hq
        simp only [hc]
        cases ds with
        | nil => rfl
        | cons d ds =>
          simp only
          rw [h2.dims, hsame.2 fun k c' h => hst _ k c' (by rw [hc, h])]

/-- A patch with a two dimensional coordinate. -/
def exSaved (v : ℕ) : DPatch ℕ ℕ := ⟨exCM, ⟨[2, 4], fun i => v + 4 * i.getD 0 0 + i.getD 1 0⟩, [("tag", v), ("data_units", 5)], [("distance", 7), ("depth", 8)]⟩

theorem exSaved_fit (v : ℕ) : Fit (exSaved v) where
  wf := exCM_wf
  classes := exCM_regular.classes
  readable := exCM_readable
  names := by
    refine ⟨?_, ?_, ?_, show (["tag", "data_units"] : List String).Nodup by decide, ?_⟩
    · exact show ∀ d ∈ exCM.dims, d ≠ "" ∧ ',' ∉ d.toList by decide
    · exact show ∀ name ∈ exCM.ents.keys, (¬ "_coord_".toList <:+: name.toList) ∧ (¬ "_cdims_".toList <:+: name.toList) ∧ '/' ∉ name.toList by decide
    · exact show ∀ key ∈ ["tag", "data_units"], (¬ "_attrs_".toList <:+: key.toList) ∧ key ≠ "coords" ∧ key ≠ "dims" ∧ ∀ name ∈ exCM.ents.keys, key ≠ name ++ "_units" by
        decide
    · intro name ds k h
      simp only [exSaved, exCM, List.mem_cons, Prod.mk.injEq, List.not_mem_nil, or_false] at h
      rcases h with ⟨_, _, h⟩ | ⟨_, _, h⟩ | ⟨_, _, h⟩ | ⟨_, _, h⟩ <;> cases h
  shape := show exCM.shape = [2, 4] by decide +kernel
  dims := by simp [exSaved]

-- the hypotheses are met, and reading gives what was written
example : Fit (exSaved 10) ∧ legalNode "DAS___a" = true := ⟨exSaved_fit 10, by decide⟩
example : ([("b", exSaved 10), ("a", exSaved 20)].map Prod.fst).Nodup ∧
    (∀ np ∈ [("b", exSaved 10), ("a", exSaved 20)], Fit np.2 ∧ legalNode np.1 = true) ∧
    (do let f ← writeFile [] [("b", exSaved 10), ("a", exSaved 20)]
        let l ← readFile f
        return l.map fun p => (p.data.get [1, 2], p.attrs, p.units) : Except Err (List (ℕ × Dict ℕ × Dict ℕ))) =
      .ok [(26, [("tag", 20), ("data_units", 5)], [("distance", 7), ("depth", 8)]), (16, [("tag", 10), ("data_units", 5)], [("distance", 7), ("depth", 8)])] := by
  refine ⟨by decide, ?_, by decide +kernel⟩
  intro np hnp
  simp only [List.mem_cons, List.not_mem_nil, or_false] at hnp
  rcases hnp with rfl | rfl
  · exact ⟨exSaved_fit 10, by decide⟩
  · exact ⟨exSaved_fit 20, by decide⟩
example : Regular (exSaved 10).cm ∧ (∀ d c c', (exSaved 10).cm.ents.get? "time" = some ([d], c) → (exSaved 10).cm.ents.get? "distance" ≠ some ([d], c')) ∧
    (∀ n d a, (exSaved 10).cm.ents.get? n ≠ some ([d], .nd a)) ∧
    (do let g ← savePatch {} "n" (exSaved 10)
        let p ← readThrough stableArgsort g
        return (p.data.shape, p.data.get [1, 2]) : Except Err (List ℕ × ℕ)) = .ok ([2, 4], 16) := by
  refine ⟨exCM_regular, ?_, ?_, by decide +kernel⟩
  · intro d c c' h h'
    have e1 : some ([d], c) = some (["time"], MCoord.one .int (.arr [3, 1])) := h.symm.trans rfl
    have e2 : some ([d], c') = some (["distance"], MCoord.one .int (.range exUp)) := h'.symm.trans rfl
    simp only [Option.some.injEq, Prod.mk.injEq, List.cons.injEq, and_true] at e1 e2
    have := e1.1.symm.trans e2.1
    revert this; decide
  · intro n d a h
    have h := Dict.mem_of_get? h
    simp only [exSaved, exCM, List.mem_cons, Prod.mk.injEq, List.not_mem_nil, or_false] at h
    rcases h with ⟨_, _, h⟩ | ⟨_, _, h⟩ | ⟨_, _, h⟩ | ⟨_, h, _⟩
    · cases h
    · cases h
    · cases h
    · simp at h

/-! ### Names -/

/-- **C35.** Patches with the same network, station and tag get different names if their first times differ in the second, minute, hour or date (times of one
length, as pandas prints them). -/
theorem C35_names_partial (r s : NameRow) (hn : r.name = none ∧ s.name = none) (hp : r.path = none ∧ s.path = none)
    (ha : r.network = s.network ∧ r.station = s.station ∧ r.tag = s.tag)
    (hl : (formatTime r.timeMin).toList.length = (formatTime s.timeMin).toList.length) (hd : formatTime r.timeMin ≠ formatTime s.timeMin) :
    patchName r ≠ patchName s := by
  obtain ⟨rn, rp, r1, r2, r3, r4, r5⟩ := r
  obtain ⟨sn, sp, s1, s2, s3, s4, s5⟩ := s
  simp only at hn hp ha hl hd
  obtain ⟨rfl, rfl⟩ := hn
  obtain ⟨rfl, rfl⟩ := hp
  obtain ⟨rfl, rfl, rfl⟩ := ha
  intro h
  apply hd
  have hi : ∀ a b c d e : String, "__".intercalate [a, b, c, d, e] = a ++ "__" ++ b ++ "__" ++ c ++ "__" ++ d ++ "__" ++ e := fun _ _ _ _ _ => rfl
  have := congrArg String.toList h
  simp only [patchName, hi, String.toList_append, List.append_assoc, List.append_right_inj] at this
  exact String.toList_injective (List.append_inj_left this hl)

example : patchName { timeMin := "2020-01-01 00:00:00", timeMax := "2020-01-01 00:00:07.9", tag := "random" } =
      "DAS_" ++ "__" ++ "__" ++ "__random" ++ "__2020_01_01T00_00_00__2020_01_01T00_00_07" ∧
    (formatTime "2020-01-01 00:00:00").toList.length = (formatTime "2020-01-01 00:00:08.5").toList.length ∧
    formatTime "2020-01-01 00:00:00" ≠ formatTime "2020-01-01 00:00:08.5" := by
  decide +kernel

/-! ### Where it fails -/

/-- A patch of three samples. -/
def exWave (start : ℚ) (v : ℕ) : DPatch ℕ ℕ :=
  ⟨⟨["time"], [("time", ["time"], .one .time (.range ⟨start, start + 3, 1, 3⟩))]⟩, ⟨[3], fun i => v + i.getD 0 0⟩, [("tag", v)], []⟩

/-- **C35 violated.** Patches less than a second apart get the same name, and so do all patches of one file; the later one replaces the earlier. -/
theorem C35_lost_violated :
    patchName { timeMin := "2020-01-01 00:00:00.100", timeMax := "2020-01-01 00:00:01.100" } =
      patchName { timeMin := "2020-01-01 00:00:00.600", timeMax := "2020-01-01 00:00:01.600" } ∧
    patchName { path := some "data/a.h5", timeMin := "2020-01-01", timeMax := "2020-01-02" } =
      patchName { path := some "data/a.h5", timeMin := "2021-01-01", timeMax := "2021-01-02" } ∧
    (do let f ← writeFile [] [("n", exWave 0 10), ("n", exWave 100 20)]
        let l ← readFile f
        return l.map fun p => p.data.get [0] : Except Err (List ℕ)) = .ok [20] :=
  ⟨by decide +kernel, by decide +kernel, by decide +kernel⟩

/-- **C35 violated.** A patch written under a name that is taken is read back with attributes and coordinates of the patch it replaced. -/
theorem C35_mixture_violated :
    let old : DPatch ℕ ℕ := ⟨⟨["time"], [("time", ["time"], .one .time (.range ⟨0, 3, 1, 3⟩)), ("depth", ["time"], .one .int (.mono [4, 6, 9]))]⟩,
      ⟨[3], fun i => i.getD 0 0⟩, [("tag", 1)], []⟩
    let new : DPatch ℕ ℕ := ⟨⟨["time"], [("time", ["time"], .one .time (.range ⟨0, 3, 1, 3⟩))]⟩, ⟨[3], fun i => i.getD 0 0⟩, [("station", 2)], []⟩
    (do let f ← writeFile [] [("n", old)]
        let f ← writeFile f [("n", new)]
        let l ← readFile f
        return l.map fun p => (p.attrs, p.cm.ents.keys) : Except Err (List (Dict ℕ × List String))) =
      .ok [([("tag", 1), ("station", 2)], ["time", "depth"])] := by
  decide +kernel

/-- **C35 violated.** The units of a coordinate whose name contains an underscore, or is `d`, are lost. -/
theorem C35_units_violated :
    let p : DPatch ℕ ℕ := ⟨⟨["time"], [("time", ["time"], .one .time (.range ⟨0, 3, 1, 3⟩)), ("gauge_length", ["time"], .one .int (.mono [4, 6, 9])),
      ("d", ["time"], .one .int (.mono [4, 6, 9]))]⟩, ⟨[3], fun i => i.getD 0 0⟩, [], [("time", 1), ("gauge_length", 2), ("d", 3)]⟩
    (do let f ← writeFile [] [("n", p)]
        let l ← readFile f
        return l.map fun p => p.units : Except Err (List (Dict ℕ))) = .ok [[("time", 1)]] := by
  decide +kernel

/-- **C35 violated.** A coordinate called `data` is given the units of the data. -/
theorem C35_data_units_violated :
    let p : DPatch ℕ ℕ := ⟨⟨["data"], [("data", ["data"], .one .int (.mono [4, 6, 9]))]⟩, ⟨[3], fun i => i.getD 0 0⟩, [("data_units", 5)], [("data", 1)]⟩
    (do let f ← writeFile [] [("n", p)]
        let l ← readFile f
        return l.map fun p => p.units : Except Err (List (Dict ℕ))) = .ok [[("data", 5)]] := by
  decide +kernel

/-- The steps of the coordinates. -/
def savedSteps (p : DPatch ℕ ℕ) : List (String × Option ℚ) := p.cm.ents.map fun e => (e.1, e.2.2.stepOf)

/-- **C35 violated.** A coordinate with a single sample loses its step if its name contains an underscore. -/
theorem C35_step_violated :
    let p : DPatch ℕ ℕ := ⟨⟨["time", "lag_time"], [("time", ["time"], .one .time (.range ⟨0, 1, 1, 1⟩)), ("lag_time", ["lag_time"], .one .time (.range ⟨0, 1, 1, 1⟩))]⟩,
      ⟨[1, 1], fun i => i.getD 0 0⟩, [], []⟩
    (do let f ← writeFile [] [("n", p)]
        let l ← readFile f
        return l.map savedSteps : Except Err (List (List (String × Option ℚ)))) = .ok [[("time", some 1), ("lag_time", none)]] := by
  decide +kernel

/-- **C35 violated.** Names containing the prefixes of the format are not what they were; a slash in the name of a coordinate or a patch raises an error. -/
theorem C35_mangled_violated :
    let p : DPatch ℕ ℕ := ⟨⟨["time"], [("time", ["time"], .one .time (.range ⟨0, 3, 1, 3⟩))]⟩, ⟨[3], fun i => i.getD 0 0⟩, [("a_attrs_b", 1)], []⟩
    let q : DPatch ℕ ℕ := ⟨⟨["a/b"], [("a/b", ["a/b"], .one .time (.range ⟨0, 3, 1, 3⟩))]⟩, ⟨[3], fun i => i.getD 0 0⟩, [], []⟩
    (do let f ← writeFile [] [("n", p)]
        let l ← readFile f
        return l.map fun p => p.attrs : Except Err (List (Dict ℕ))) = .ok [[("ab", 1)]] ∧
    (writeFile [] [("n", q)]).map Dict.keys = .error .valueError ∧ (writeFile [] [("a/b", p)]).map Dict.keys = .error .valueError :=
  ⟨by decide +kernel, by decide +kernel, by decide +kernel⟩

end Verif
