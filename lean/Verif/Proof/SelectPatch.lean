import Verif.Proof.SelectValid
/-! # Lemmas: selecting from a patch -/
namespace Verif
open Spec

theorem mapM_ok' {α β} (f : α → Except Err β) (g : α → β) : ∀ l : List α, (∀ x ∈ l, f x = .ok (g x)) →
    l.mapM f = .ok (l.map g) := by
  intro l
  induction l with
  | nil => intro _; rfl
  | cons a l ih =>
    intro h
    rw [List.mapM_cons, h a List.mem_cons_self, ih fun x hx => h x (List.mem_cons_of_mem _ hx)]
    rfl

theorem takeIdx_getD {l : List (Option ℚ)} {ps : List ℕ} (h : ∀ i ∈ ps, i < l.length) {k : ℕ} (hk : k < ps.length) :
    (takeIdx l ps).getD k none = l.getD (ps.getD k 0) none := by
  rw [List.getD_eq_getElem?_getD, takeIdx_getElem? h, List.getElem?_eq_getElem hk]
  simp [List.getD_eq_getElem?_getD, List.getElem?_eq_getElem hk]

theorem zipWith_map_map {ds : List String} {red : String → List ℕ} (j : String → ℕ) :
    List.zipWith lookup (ds.map red) (ds.map j) = ds.map fun d => lookup (red d) (j d) := by
  induction ds with
  | nil => rfl
  | cons d ds ih => simp [ih]

theorem origin_getD {dims : List String} {red : String → List ℕ} {i : List ℕ} {d : String} (hd : d ∈ dims)
    (hi : i.length = dims.length) : (origin dims red i).getD (dims.idxOf d) 0 = lookup (red d) (i.getD (dims.idxOf d) 0) := by
  unfold origin
  have h1 := List.idxOf_lt_length_of_mem hd
  have h2 : dims.idxOf d < i.length := by omega
  rw [List.getD_eq_getElem?_getD, List.getElem?_zipWith, List.getElem?_map, List.getElem?_eq_getElem h1,
    List.getElem?_eq_getElem h2]
  simp [lookup, List.getD_eq_getElem?_getD, List.getElem?_eq_getElem h2]

theorem inRange_length {sh i : List ℕ} (h : InRange sh i) : i.length = sh.length := List.Forall₂.length_eq h

theorem inRange_getD {dims : List String} {f : String → ℕ} {i : List ℕ} (h : InRange (dims.map f) i) {d : String} (hd : d ∈ dims) :
    i.getD (dims.idxOf d) 0 < f d := by
  have h1 := List.idxOf_lt_length_of_mem hd
  have h2 : dims.idxOf d < i.length := by have := inRange_length h; simp at this; omega
  have := List.Forall₂.get h h2 (by simpa using h1)
  simpa [List.getD_eq_getElem?_getD, List.getElem?_eq_getElem h2] using this

theorem inRange_map {ds : List String} {f : String → ℕ} {j : String → ℕ} (h : ∀ d ∈ ds, j d < f d) : InRange (ds.map f) (ds.map j) := by
  unfold InRange
  rw [List.forall₂_map_left_iff, List.forall₂_map_right_iff]
  exact List.forall₂_same.2 h

theorem origin_inRange {dims : List String} {red : String → List ℕ} {f : String → ℕ} (hb : ∀ d ∈ dims, ∀ j ∈ red d, j < f d) :
    ∀ {i : List ℕ}, InRange (dims.map fun d => (red d).length) i → InRange (dims.map f) (origin dims red i) := by
  induction dims with
  | nil => intro i h; cases h; exact .nil
  | cons d ds ih =>
    intro i h
    rw [List.map_cons] at h
    cases h with
    | cons h1 h2 =>
      refine .cons ?_ (ih (fun e he => hb e (List.mem_cons_of_mem _ he)) h2)
      apply hb d List.mem_cons_self
      show (red d).getD _ 0 ∈ red d
      rw [List.getD_eq_getElem?_getD, List.getElem?_eq_getElem h1]
      exact List.getElem_mem h1

theorem all_none {c : Coord} (h : ∀ o ∈ c.labels, o = none) (hp : ∀ n, c ≠ .part n) : c.vals.length ≤ 1 := by
  have : c.labels = c.vals.map some := by
    cases c with
    | part n => exact absurd rfl (hp n)
    | _ => rfl
  rw [this] at h
  cases hv : c.vals with
  | nil => simp
  | cons a l => rw [hv] at h; simp at h

theorem shows_label {m : CM} (hm : Regular m) {red : String → List ℕ} {touched : String → Prop} {name : String}
    {ds : List String} {c c' : MCoord} (hent : m.ents.get? name = some (ds, c)) (hne : ds ≠ []) (hs : Shows red touched ds c c')
    (hst : StorableAfter m red name)
    (hfresh : ∀ d ∈ m.dims, ¬ touched d → red d = List.range (m.ents.lenOf d))
    (hbound : ∀ d ∈ m.dims, ∀ j ∈ red d, j < m.ents.lenOf d)
    {x : MCoord} (hx : c'.canon = .ok x) {i : List ℕ} (hi : InRange (m.dims.map fun d => (red d).length) i) :
    labelAt m.dims ds x.arr i = labelAt m.dims ds c.arr (origin m.dims red i) := by
  have hlen : i.length = m.dims.length := by simpa using inRange_length hi
  have hatt : ∀ d ∈ ds, d ∈ m.dims := hm.wf.attached name ds c (Dict.mem_of_get? hent)
  unfold labelAt
  have horig : (ds.map fun d => (origin m.dims red i).getD (m.dims.idxOf d) 0) =
      ds.map fun d => lookup (red d) (i.getD (m.dims.idxOf d) 0) :=
    List.map_congr_left fun d hd => origin_getD (hatt d hd) hlen
  rw [horig]
  cases c with
  | nd a =>
    obtain ⟨b, rfl, hb, hg⟩ := hs
    cases hx
    simp only [MCoord.arr]
    rw [hg _ (by rw [hb]; exact inRange_map fun d hd => inRange_getD hi (hatt d hd)), zipWith_map_map]
  | one k c =>
    obtain ⟨c', rfl, hc'⟩ := hs
    obtain ⟨d, rfl, hd, hl⟩ := hm.one_dim hent hne
    have hwf := hm.classes _ _ _ _ (Dict.mem_of_get? hent)
    have hsto := hst d k c hent
    have hb : ∀ j ∈ red d, j < c.labels.length := by
      rw [labels_length hwf, hl]; exact hbound d hd
    have hlab : c'.labels = takeIdx c.labels (red d) := by
      by_cases ht : touched d
      · exact ((hc' d rfl).2 ht).labels hsto
      · rw [(hc' d rfl).1 ht, hfresh d hd ht, ← hl, ← labels_length hwf, takeIdx_range_self]
    obtain ⟨e, rfl, he, _⟩ := canon_one hx
    have hsc : Storable c'.vals := by
      by_cases ht : touched d
      · cases hcc : c' with
        | part n => exact Or.inl (by simp [Coord.vals])
        | _ =>
          by_cases hp : ∃ n, c = .part n
          · obtain ⟨n, rfl⟩ := hp
            left
            have h1 : ∀ o ∈ c'.labels, o = none := by
              rw [hlab]
              intro o ho
              exact List.eq_of_mem_replicate (mem_takeIdx ho)
            rw [hcc] at h1
            exact all_none h1 (by simp)
          · have hv := hasVals hwf fun n e => hp ⟨n, e⟩
            have : c'.vals.map some = (takeIdx c.vals (red d)).map some := by
              rw [← hv.take, ← hlab, hcc]; rfl
            have := List.map_injective_iff.2 (Option.some_injective ℚ) this
            rw [← hcc, this]; exact hsto
      · rw [(hc' d rfl).1 ht]
        rw [hfresh d hd ht, ← hl] at hsto
        by_cases hp : ∃ n, c = .part n
        · obtain ⟨n, rfl⟩ := hp; exact Or.inl (by simp [Coord.vals])
        · have hv := hasVals hwf fun n e => hp ⟨n, e⟩
          rw [← hv.length, takeIdx_range_self] at hsto
          exact hsto
    have := he hsc
    simp only [MCoord.arr, List.map_cons, List.map_nil, List.getD_cons_zero]
    rw [this, hlab, takeIdx_getD hb (inRange_getD hi hd)]
    rfl

theorem group_spec {α} {argsort : List ℚ → List ℕ} (ha : IsArgsort argsort) {p : PatchM α} (hm : Regular p.cm)
    (hd : p.cm.dims ≠ []) (hsh : p.cm.shape = p.data.shape) {kw : Dict CQuery} (hn : ∀ r ∈ kw, NonNegSamples r.2)
    (hone : OnePerDim p.cm kw) {q : CM × Nd α} (h : CM.selectGroup argsort (p.cm, p.data) kw = .ok q) :
    ∃ red, Selected p ⟨q.1, q.2⟩ kw red ∧ Regular q.1 ∧ q.1.shape = q.2.shape := by
  unfold CM.selectGroup at h
  simp only [bind, Except.bind] at h
  split at h
  · cases h
  rename_i r hr
  split at h
  · cases h
  rename_i a happ
  cases h
  unfold CM.groupCM at hr
  simp only [bind, Except.bind] at hr
  split at hr
  · cases hr
  rename_i s hs
  split at hr
  · cases hr
  rename_i cm hcm
  cases hr
  unfold CM.indexersAndCoords at hs
  simp only [bind, Except.bind] at hs
  split at hs
  · cases hs
  rename_i st hst
  cases hs
  simp only at hcm happ ⊢
  obtain ⟨red, touched, hi, ht, _, hsurv⟩ := fold_inv ha hm kw _ st _ _ (inv_start hm) hn (by simp) hone hst
  have hval : RangesValid st.1 := by
    refine CM.foldlM_inv (P := fun st : Ents × Dict Indexer => RangesValid st.1) ?_ hst ?_
    · intro b p b' hb he; exact selStep_valid hm hb he
    · intro name ds k r hg
      exact hm.classes _ _ _ _ (Dict.mem_of_get? hg)
  obtain ⟨u1, u2, u3⟩ := update_nested hm hi.keys hi.dims hcm
  have hwfd := CM.update_wf hcm hm.wf (by rw [CM.nested_keys, hi.keys]; exact hm.wf.names)
  have hget : ∀ name ds c, p.cm.ents.get? name = some (ds, c) → ∃ c' x, st.1.get? name = some (ds, c') ∧ c'.canon = .ok x ∧
      cm.ents.get? name = some (ds, x) := by
    intro name ds c hc
    obtain ⟨c', h1⟩ := hi.dims name ds c hc
    obtain ⟨x, h2, h3⟩ := u3 name ds c' h1
    exact ⟨c', x, h1, h2, h3⟩
  have hback : ∀ name ds x, cm.ents.get? name = some (ds, x) → ∃ c, p.cm.ents.get? name = some (ds, c) := by
    intro name ds x hx
    cases hc : p.cm.ents.get? name with
    | none => rw [(u2 name).2 hc] at hx; cases hx
    | some v =>
      obtain ⟨ds', c⟩ := v
      obtain ⟨_, _, _, _, h3⟩ := hget name ds' c hc
      rw [hx] at h3; cases h3
      exact ⟨c, rfl⟩
  have hshape : p.data.shape = p.cm.dims.map p.cm.ents.lenOf := by
    rw [← hsh]; unfold CM.shape; rw [if_neg hd]
  -- the data
  have hxs : ((p.cm.dims.map fun d => (st.2.get? d).getD (Indexer.slice {})).zip p.data.shape).mapM
      (fun p => p.1.positions p.2) = .ok (p.cm.dims.map red) := by
    rw [hshape, List.zip_map', List.mapM_map]
    apply mapM_ok'
    intro d hdd
    obtain ⟨x, hx1, hx2⟩ := hi.ixs d hdd
    simp only [Function.comp, hx1, Option.getD_some, hx2]
  obtain ⟨s1, _⟩ := applyUnion_spec (p.cm.dims.map fun d => (st.2.get? d).getD (Indexer.slice {})) p.data (by rw [hshape]; simp)
  obtain ⟨b, hb1, hb2, hb3⟩ := s1 _ hxs
  rw [happ] at hb1; cases hb1
  have hashape : a.shape = p.cm.dims.map fun d => (red d).length := by rw [hb2, List.map_map]; rfl
  have hmemcm : ∀ {name ds x}, (name, ds, x) ∈ cm.ents → cm.ents.get? name = some (ds, x) := fun h => Dict.get?_of_mem hwfd.1.names h
  refine ⟨red, ⟨⟨u1, ?_, hashape, ?_, ?_⟩, ?_, ?_⟩, ⟨hwfd.1, hwfd.2 hm.distinct, ?_, ?_, ?_⟩, ?_⟩
  · intro name
    cases hc : p.cm.ents.get? name with
    | none => simp only [(u2 name).2 hc]
    | some v =>
      obtain ⟨ds, c⟩ := v
      obtain ⟨_, _, _, _, h3⟩ := hget name ds c hc
      simp only [h3, Option.map_some]
  · intro i hii
    refine ⟨?_, ?_⟩
    · rw [hshape]
      simp only at hii
      rw [hashape] at hii
      exact origin_inRange hi.bound hii
    · exact hb3 i hii
  · intro name hsto i hii
    simp only at hii
    rw [hashape] at hii
    unfold label
    cases hc : p.cm.ents.get? name with
    | none => simp only [(u2 name).2 hc]
    | some v =>
      obtain ⟨ds, c⟩ := v
      obtain ⟨c', x, h1, h2, h3⟩ := hget name ds c hc
      simp only [h3]
      cases ds with
      | nil => rfl
      | cons d ds =>
        simp only [u1]
        obtain ⟨c'', h4, h5⟩ := hi.shows name (d :: ds) c hc (by simp)
        rw [h1] at h4; cases h4
        rw [shows_label hm hc (by simp) h5 hsto hi.fresh hi.bound h2 hii]
  · intro r hr d k c hc; exact hsurv r hr d k c hc
  · intro d hdd hno c n hc hsn
    have hnt : ¬ touched d := by
      rw [ht]
      rintro (h | ⟨r, hr, c', hc'⟩)
      · exact h
      · exact hno r hr c' hc'
    rw [hi.fresh d hdd hnt]
    unfold Ents.lenOf
    rw [hc]
    simp [MCoord.len, hsn]
  · intro name ds x hx
    obtain ⟨c, hc⟩ := hback name ds x (hmemcm hx)
    exact hm.coordDims name ds c (Dict.mem_of_get? hc)
  · intro name ds k c hx
    obtain ⟨c0, hc⟩ := hback name ds _ (hmemcm hx)
    obtain ⟨c', x, h1, h2, h3⟩ := hget name ds c0 hc
    rw [hmemcm hx] at h3; cases h3
    cases c' with
    | nd b => cases h2
    | one k' c' =>
      obtain ⟨e, h4, _, h6⟩ := canon_one h2
      cases h4
      exact h6 fun r hr => hval name ds k r (by rw [h1, hr])
  · intro name hk
    rw [u1]
    apply hm.plain
    obtain ⟨⟨ds, x⟩, hx⟩ := Dict.mem_keys.1 hk
    obtain ⟨c, hc⟩ := hback name ds x hx
    exact Dict.mem_keys.2 ⟨_, hc⟩
  · unfold CM.shape
    rw [u1, if_neg hd, hashape]
    apply List.map_congr_left
    intro d hdd
    obtain ⟨c, n, hc, hsn⟩ := hm.wf.own d hdd
    have hc := Dict.get?_of_mem hm.wf.names hc
    obtain ⟨c', x, h1, h2, h3⟩ := hget d [d] c hc
    obtain ⟨c'', h4, h5⟩ := hi.shows d [d] c hc (by simp)
    rw [h1] at h4; cases h4
    unfold Ents.lenOf
    rw [h3]
    simp only
    cases c with
    | nd b =>
      obtain ⟨b', rfl, hb', _⟩ := h5
      cases h2
      simp [MCoord.len, MCoord.shape, MCoord.arr, hb']
    | one k c =>
      obtain ⟨c', rfl, hc'⟩ := h5
      have hl : c.length = p.cm.ents.lenOf d := by
        obtain ⟨_, e, _, hl⟩ := hm.one_dim hc (by simp)
        cases e; exact hl
      simp only [MCoord.len, canon_length h2, List.getD_cons_zero]
      by_cases ht' : touched d
      · refine ((hc' d rfl).2 ht').length (hm.classes _ _ _ _ (Dict.mem_of_get? hc)) (by rw [hl]; exact hi.bound d hdd) ?_
        intro r hr
        exact hval d [d] k r (by rw [h1, hr])
      · rw [(hc' d rfl).1 ht', hi.fresh d hdd ht', hl]; simp

end Verif
