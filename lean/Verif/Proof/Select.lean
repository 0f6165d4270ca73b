import Verif.Proof.Query
/-! # Lemmas: selecting keeps coordinates in step with the data -/
namespace Verif
open Spec

/-- Look the position up in the list of kept positions. -/
def lookup (r : List ℕ) (k : ℕ) : ℕ := r.getD k 0

theorem fold_rel {F : Ents → String → Except Err Ents} {R : String → MCoord → MCoord → Prop}
    (hF : ∀ new n new', F new n = .ok new' → ∃ ds c c', Dict.get? new n = some (ds, c) ∧ R n c c' ∧ new' = Dict.set new n (ds, c'))
    (l : List String) : ∀ new new' : Ents, l.Nodup → l.foldlM F new = .ok new' →
      (∀ n, n ∉ l → Dict.get? new' n = Dict.get? new n) ∧
      (∀ n ∈ l, ∃ ds c c', Dict.get? new n = some (ds, c) ∧ R n c c' ∧ Dict.get? new' n = some (ds, c')) := by
  induction l with
  | nil => intro new new' _ h; cases h; simp
  | cons a l ih =>
    intro new new' hn h
    rw [List.nodup_cons] at hn
    rw [List.foldlM_cons] at h
    cases h1 : F new a with
    | error e => rw [h1] at h; cases h
    | ok new1 =>
      rw [h1] at h
      obtain ⟨ds, c, c', e1, e2, e3⟩ := hF _ _ _ h1
      obtain ⟨i1, i2⟩ := ih new1 new' hn.2 h
      constructor
      · intro n hn'
        simp only [List.mem_cons, not_or] at hn'
        rw [i1 n hn'.2, e3, Dict.get?_set, if_neg hn'.1]
      · intro n hn'
        rcases List.mem_cons.1 hn' with rfl | hn2
        · refine ⟨ds, c, c', e1, e2, ?_⟩
          rw [i1 n hn.1, e3, Dict.get?_set, if_pos rfl]
        · obtain ⟨ds1, c1, c1', g1, g2, g3⟩ := i2 n hn2
          have hne : n ≠ a := by rintro rfl; exact hn.1 hn2
          rw [e3, Dict.get?_set, if_neg hne] at g1
          exact ⟨ds1, c1, c1', g1, g2, g3⟩

theorem indirectOne_rel {m : CM} {dim : String} {x : Indexer} :
    ∀ new n new', m.indirectOne dim x new n = .ok new' → ∃ ds c c', Dict.get? new n = some (ds, c) ∧
      (∃ ds' c0, m.ents.get? n = some (ds', c0) ∧ c.index x (ds'.idxOf dim) = .ok c') ∧ new' = Dict.set new n (ds, c') := by
  intro new n new' h
  unfold CM.indirectOne at h
  split at h
  · rename_i ds c ds' c0 h1 h2
    obtain ⟨c', h3, h4⟩ := except_map_ok h
    exact ⟨ds, c, c', h1, ⟨ds', c0, h2, h3⟩, h4.symm⟩
  · cases h

/-- How an array of the result relates to the one it came from, `red` being the positions kept along each dimension. -/
def ShowsNd {α} (red : String → List ℕ) (ds : List String) (a b : Nd α) : Prop :=
  b.shape = ds.map (fun d => (red d).length) ∧
    ∀ i, InRange b.shape i → b.get i = a.get (List.zipWith lookup (ds.map red) i)

/-- How a coordinate of the result relates to the one it came from. A one dimensional coordinate has been rebuilt only if
its dimension is `touched`. -/
def Shows (red : String → List ℕ) (touched : String → Prop) (ds : List String) : MCoord → MCoord → Prop
  | .one k c, x => ∃ c', x = .one k c' ∧ ∀ d, ds = [d] →
      (¬ touched d → c' = c) ∧ (touched d → Carries k c c' (red d))
  | .nd a, x => ∃ b, x = .nd b ∧ ShowsNd red ds a b

theorem index_one {k : Kind} {c : Coord} (hc : c.Wf) {x : Indexer} {ps : List ℕ} (hp : x.positions c.length = .ok ps)
    {ax : ℕ} {c' : MCoord} (h : (MCoord.one k c).index x ax = .ok c') :
    ∃ d, c' = .one k d ∧ Carries k c d ps := by
  simp only [MCoord.index] at h
  split_ifs at h with hax
  by_cases hpart : ∃ n, c = .part n
  · obtain ⟨n, rfl⟩ := hpart
    simp only at h
    rw [show n = (Coord.part n).length from rfl, hp] at h
    cases h
    exact ⟨_, rfl, Or.inl (take_part (positions_lt hp)).symm⟩
  · have hnp : ∀ n, c ≠ .part n := fun n e => hpart ⟨n, e⟩
    have hv := hasVals hc hnp
    have h' : (x.apply c.vals).bind (fun vs => (getCoordData k vs).map (MCoord.one k)) = .ok c' := by
      cases c with
      | part n => exact absurd rfl (hnp n)
      | _ => exact h
    rw [apply_eq, hv.length, hp] at h'
    obtain ⟨d, h1, h2⟩ := except_map_ok h'
    exact ⟨d, h2.symm, Or.inr ⟨h1, hv.take _⟩⟩

theorem zipWith_set {red : String → List ℕ} {d : String} {ps : List ℕ} {n : ℕ} : ∀ (ds : List String) (i : List ℕ), ds.Nodup →
    d ∈ ds → red d = List.range n → (∀ j ∈ ps, j < n) →
    InRange (ds.map fun e => (Function.update red d ps e).length) i →
    List.zipWith lookup (ds.map red) (i.set (ds.idxOf d) (ps.getD (i.getD (ds.idxOf d) 0) 0)) =
      List.zipWith lookup (ds.map (Function.update red d ps)) i ∧
    InRange (ds.map fun e => (red e).length) (i.set (ds.idxOf d) (ps.getD (i.getD (ds.idxOf d) 0) 0)) := by
  intro ds
  induction ds with
  | nil => intro i _ h; simp at h
  | cons a ds ih =>
    intro i hn hd hr hps hi
    rw [List.nodup_cons] at hn
    cases i with
    | nil => cases hi
    | cons j i =>
      rw [List.map_cons] at hi
      cases hi with
      | cons hj hi =>
        by_cases ha : a = d
        · subst ha
          have hid : List.idxOf a (a :: ds) = 0 := by simp
          rw [hid]
          have hcong : ∀ e ∈ ds, Function.update red a ps e = red e := by
            intro e he
            have : e ≠ a := by rintro rfl; exact hn.1 he
            simp [this]
          have e1 : ds.map (Function.update red a ps) = ds.map red := List.map_congr_left hcong
          have e2 : (ds.map fun e => (Function.update red a ps e).length) = ds.map fun e => (red e).length :=
            List.map_congr_left fun e he => by rw [hcong e he]
          simp only [Function.update_self] at hj
          have hlt : ps.getD j 0 < n := by
            rw [List.getD_eq_getElem?_getD, List.getElem?_eq_getElem hj]
            exact hps _ (List.getElem_mem hj)
          refine ⟨?_, ?_⟩
          · simp only [List.set_cons_zero, List.getD_cons_zero, List.map_cons, List.zipWith_cons_cons, e1, Function.update_self]
            congr 1
            unfold lookup
            rw [hr]
            simp only [List.getD_eq_getElem?_getD] at hlt ⊢
            rw [List.getElem?_range hlt]; rfl
          · simp only [List.set_cons_zero, List.getD_cons_zero, List.map_cons]
            rw [e2] at hi
            refine .cons ?_ hi
            rw [hr, List.length_range]; exact hlt
        · have hid : List.idxOf d (a :: ds) = ds.idxOf d + 1 := by
            rw [List.idxOf_cons_ne _ ha]
          rw [hid]
          have hd' : d ∈ ds := by
            rcases List.mem_cons.1 hd with h | h
            · exact absurd h.symm ha
            · exact h
          obtain ⟨g1, g2⟩ := ih i hn.2 hd' hr hps hi
          have e1 : Function.update red d ps a = red a := by simp [ha]
          refine ⟨?_, ?_⟩
          · simp only [List.set_cons_succ, List.getD_cons_succ, List.map_cons, List.zipWith_cons_cons, e1]
            rw [g1]
          · simp only [List.set_cons_succ, List.getD_cons_succ, List.map_cons]
            rw [e1] at hj
            exact .cons hj g2

theorem index_nd {α} {red : String → List ℕ} {ds : List String} {a b b' : Nd α} {d : String} {x : Indexer}
    {n : ℕ} {ps : List ℕ} (hs : ShowsNd red ds a b) (hn : ds.Nodup) (hd : d ∈ ds) (hr : red d = List.range n)
    (hp : x.positions n = .ok ps) (h1 : b.indexAxis (ds.idxOf d) x = .ok b') :
    ShowsNd (Function.update red d ps) ds a b' := by
  obtain ⟨hsh, hg⟩ := hs
  unfold Nd.indexAxis at h1
  have hk : b.shape[ds.idxOf d]? = some n := by
    rw [hsh, List.getElem?_map]
    have hlt := List.idxOf_lt_length_of_mem hd
    rw [List.getElem?_eq_getElem hlt]
    simp [hr]
  rw [hk] at h1
  simp only [hp, Except.map, Except.ok.injEq] at h1
  subst h1
  have hsh' : (b.takeAxis (ds.idxOf d) ps).shape = ds.map fun e => (Function.update red d ps e).length := by
    simp only [Nd.takeAxis, hsh]
    apply List.ext_getElem (by simp)
    intro k k1 k2
    simp only [List.length_set, List.length_map] at k1
    rw [List.getElem_set, List.getElem_map]
    split_ifs with hkd
    · subst hkd
      simp
    · rw [List.getElem_map]
      have : ds[k] ≠ d := by
        rintro rfl
        exact hkd (hn.idxOf_getElem k (by simpa using k1))
      simp [this]
  refine ⟨hsh', ?_⟩
  intro i hi
  rw [hsh'] at hi
  obtain ⟨g1, g2⟩ := zipWith_set ds i hn hd hr (positions_lt hp) hi
  rw [← g1, ← hg _ (by rw [hsh]; exact g2)]
  rfl

/-- A manager to which selections can be applied: well formed, distinct dimensions, no coordinate attached twice to the
same dimension, coordinates of the right class, no name that looks like a limit of a dimension. -/
structure Regular (m : CM) : Prop where
  wf : WellFormed m
  distinct : DistinctDims m
  coordDims : ∀ name ds c, (name, ds, c) ∈ m.ents → ds.Nodup
  classes : ∀ name ds k c, (name, ds, MCoord.one k c) ∈ m.ents → c.Wf
  plain : ∀ name ∈ m.ents.keys, matchesPrefixSuffix m.dims name = false

/-- The coordinates while dimensions are processed one after the other. -/
structure Core (m : CM) (e : Ents) (red : String → List ℕ) (touched : String → Prop) : Prop where
  keys : e.keys = m.ents.keys
  shows : ∀ name ds c, m.ents.get? name = some (ds, c) → ds ≠ [] → ∃ c', e.get? name = some (ds, c') ∧ Shows red touched ds c c'
  dims : ∀ name ds c, m.ents.get? name = some (ds, c) → ∃ c', e.get? name = some (ds, c')
  fresh : ∀ d ∈ m.dims, ¬ touched d → red d = List.range (m.ents.lenOf d)
  bound : ∀ d ∈ m.dims, ∀ j ∈ red d, j < m.ents.lenOf d

/-- The state while the keywords of one group are processed. -/
structure Inv (m : CM) (st : Ents × Dict Indexer) (red : String → List ℕ) (touched : String → Prop) : Prop extends
    Core m st.1 red touched where
  ixs : ∀ d ∈ m.dims, ∃ x, st.2.get? d = some x ∧ x.positions (m.ents.lenOf d) = .ok (red d)

theorem keys_set_of_mem {α} {d : Dict α} {k : String} (h : k ∈ d.keys) (v : α) : (d.set k v).keys = d.keys := by
  rw [Dict.keys_set, if_pos h]

theorem one_shape {k : Kind} {c : Coord} : (MCoord.one k c).shape = [c.length] := rfl

theorem Regular.one_dim {m : CM} (hm : Regular m) {name : String} {ds : List String} {k : Kind} {c : Coord}
    (h : m.ents.get? name = some (ds, .one k c)) (hne : ds ≠ []) :
    ∃ d, ds = [d] ∧ d ∈ m.dims ∧ c.length = m.ents.lenOf d := by
  have hmem := Dict.mem_of_get? h
  have hs := CM.WellFormed.shape_eq hm.wf hmem hne
  rw [one_shape] at hs
  match ds, hs with
  | [d], hs =>
    refine ⟨d, rfl, hm.wf.attached name [d] _ hmem d (by simp), ?_⟩
    simpa using hs
  | d :: e :: ds, hs => simp at hs

theorem foldl_keys {F : Ents → String → Except Err Ents} {R : String → MCoord → MCoord → Prop}
    (hF : ∀ new n new', F new n = .ok new' → ∃ ds c c', Dict.get? new n = some (ds, c) ∧ R n c c' ∧ new' = Dict.set new n (ds, c'))
    (l : List String) (new new' : Ents) (h : l.foldlM F new = .ok new') : Dict.keys new' = Dict.keys new := by
  refine CM.foldlM_inv (P := fun e : Ents => Dict.keys e = Dict.keys new) ?_ h rfl
  intro b a b' hb he
  obtain ⟨ds, c, c', h1, _, h3⟩ := hF _ _ _ he
  rw [h3, keys_set_of_mem (Dict.mem_keys.2 ⟨_, h1⟩), hb]

/-- One dimension: the coordinate `name` is replaced and all others attached to its dimension are indexed by `op`. -/
theorem core_step {m : CM} (hm : Regular m) {e e' : Ents} {red : String → List ℕ} {touched : String → Prop}
    (hi : Core m e red touched) {name : String} {d : String} {k : Kind} {c c1 : Coord} {x : Indexer} {ps : List ℕ}
    (hent : m.ents.get? name = some ([d], .one k c)) (hd : d ∈ m.dims) (hnt : ¬ touched d)
    (hpos : x.positions (m.ents.lenOf d) = .ok ps) (hlab : Carries k c c1 ps)
    {op : MCoord → Indexer → ℕ → Except Err MCoord}
    (hop1 : ∀ k c ax c' qs, c.Wf → x.positions c.length = .ok qs → op (.one k c) x ax = .ok c' → ∃ d, c' = .one k d ∧ Carries k c d qs)
    (hop2 : ∀ b ax, op (.nd b) x ax = (b.indexAxis ax x).map .nd)
    {F : Ents → String → Except Err Ents}
    (hF : ∀ new n new', F new n = .ok new' → ∃ ds c c', Dict.get? new n = some (ds, c) ∧
      (∃ ds' c0, m.ents.get? n = some (ds', c0) ∧ op c x (ds'.idxOf d) = .ok c') ∧ new' = Dict.set new n (ds, c'))
    (hnew : ((m.ents.filter fun q => q.2.1.contains d && q.1 != name).map Prod.fst).foldlM F (Dict.set e name ([d], .one k c1)) = .ok e') :
    Core m e' (Function.update red d ps) (fun f => touched f ∨ f = d) := by
  have hred := hi.fresh d hd hnt
  have hkey : name ∈ Dict.keys e := by rw [hi.keys]; exact Dict.mem_keys.2 ⟨_, hent⟩
  have hlist : ((m.ents.filter fun q => q.2.1.contains d && q.1 != name).map Prod.fst).Nodup :=
    Dict.nodup_filter hm.wf.names _
  obtain ⟨f1, f2⟩ := fold_rel hF _ _ _ hlist hnew
  have fk := foldl_keys hF _ _ _ hnew
  have hin : ∀ n ds0 c0, m.ents.get? n = some (ds0, c0) →
      (n ∈ (m.ents.filter fun q => q.2.1.contains d && q.1 != name).map Prod.fst ↔ d ∈ ds0 ∧ n ≠ name) := by
    intro n ds0 c0 h0
    rw [List.mem_map]
    constructor
    · rintro ⟨⟨n1, ds1, c1⟩, h1, rfl⟩
      rw [List.mem_filter] at h1
      have := Dict.get?_of_mem hm.wf.names h1.1
      simp only at h0
      rw [h0] at this; cases this
      simpa using h1.2
    · rintro ⟨h1, h2⟩
      exact ⟨(n, ds0, c0), List.mem_filter.2 ⟨Dict.mem_of_get? h0, by simp [h1, h2]⟩, rfl⟩
  have hupd : ∀ (ds0 : List String), d ∉ ds0 → ∀ c0 c1, Shows red touched ds0 c0 c1 →
      Shows (Function.update red d ps) (fun e => touched e ∨ e = d) ds0 c0 c1 := by
    intro ds0 hdn c0 c1 hsh
    have hcong : ∀ e ∈ ds0, Function.update red d ps e = red e := by
      intro e he
      have : e ≠ d := by rintro rfl; exact hdn he
      simp [this]
    cases c0 with
    | one k0 c0 =>
      obtain ⟨c', rfl, hc'⟩ := hsh
      refine ⟨c', rfl, ?_⟩
      intro e he
      subst he
      have : e ≠ d := by rintro rfl; exact hdn (by simp)
      obtain ⟨q1, q2⟩ := hc' e rfl
      refine ⟨fun ht => q1 fun h => ht (Or.inl h), fun ht => ?_⟩
      rw [hcong e (by simp)]
      exact q2 (ht.resolve_right this)
    | nd a =>
      obtain ⟨b, rfl, hb, hg⟩ := hsh
      refine ⟨b, rfl, ?_, ?_⟩
      · rw [hb]; apply List.map_congr_left; intro e he; rw [hcong e he]
      · intro i hii
        rw [hg i hii]
        congr 2
        apply List.map_congr_left; intro e he; rw [hcong e he]
  refine ⟨?_, ?_, ?_, ?_, ?_⟩
  · rw [fk, keys_set_of_mem hkey]; exact hi.keys
  · intro n ds0 c0 h0 hne
    by_cases hn : n = name
    · subst hn
      rw [hent] at h0; cases h0
      have hnot : n ∉ (m.ents.filter fun q => q.2.1.contains d && q.1 != n).map Prod.fst := by
        rw [hin _ _ _ hent]; simp
      refine ⟨.one k c1, ?_, c1, rfl, ?_⟩
      · rw [f1 _ hnot, Dict.get?_set, if_pos rfl]
      · intro f he
        cases he
        refine ⟨fun ht => absurd (Or.inr rfl) ht, fun _ => ?_⟩
        simp only [Function.update_self]
        exact hlab
    · obtain ⟨c2, g1, g2⟩ := hi.shows n ds0 c0 h0 hne
      by_cases hdd : d ∈ ds0
      · have hmm := (hin n ds0 c0 h0).2 ⟨hdd, hn⟩
        obtain ⟨ds1, c2, c3, e1, ⟨ds2, c4, e2, e3⟩, e4⟩ := f2 n hmm
        rw [Dict.get?_set, if_neg hn] at e1
        rw [g1] at e1; cases e1
        rw [h0] at e2; cases e2
        refine ⟨c3, e4, ?_⟩
        cases c0 with
        | nd a =>
          obtain ⟨b, rfl, hb⟩ := g2
          rw [hop2] at e3
          obtain ⟨b', h1, h2⟩ := except_map_ok e3
          subst h2
          exact ⟨b', rfl, index_nd hb (hm.coordDims _ _ _ (Dict.mem_of_get? h0)) hdd hred hpos h1⟩
        | one k0 c0 =>
          obtain ⟨c', rfl, hc'⟩ := g2
          obtain ⟨d1, rfl, hd1, hl1⟩ := hm.one_dim h0 hne
          simp at hdd
          subst hdd
          have := (hc' d rfl).1 hnt
          subst this
          obtain ⟨dd, rfl, hdd'⟩ := hop1 _ _ _ _ ps (hm.classes _ _ _ _ (Dict.mem_of_get? h0)) (by rw [hl1]; exact hpos) e3
          refine ⟨dd, rfl, ?_⟩
          intro e he
          cases he
          refine ⟨fun ht => absurd (Or.inr rfl) ht, fun _ => ?_⟩
          simp only [Function.update_self]
          exact hdd'
      · have hnot : n ∉ (m.ents.filter fun q => q.2.1.contains d && q.1 != name).map Prod.fst := by
          rw [hin _ _ _ h0]; simp [hdd]
        refine ⟨c2, ?_, hupd ds0 hdd c0 c2 g2⟩
        rw [f1 _ hnot, Dict.get?_set, if_neg hn]; exact g1
  · intro n ds0 c0 h0
    by_cases hmm : n ∈ (m.ents.filter fun q => q.2.1.contains d && q.1 != name).map Prod.fst
    · obtain ⟨ds1, c2, c3, e1, _, e4⟩ := f2 n hmm
      have hn := ((hin n ds0 c0 h0).1 hmm).2
      rw [Dict.get?_set, if_neg hn] at e1
      obtain ⟨c1, g1⟩ := hi.dims n ds0 c0 h0
      rw [g1] at e1; cases e1
      exact ⟨c3, e4⟩
    · rw [f1 _ hmm, Dict.get?_set]
      by_cases hn : n = name
      · subst hn
        rw [hent] at h0; cases h0
        simp
      · rw [if_neg hn]; exact hi.dims n ds0 c0 h0
  · intro e he ht
    rw [not_or] at ht
    simp only [Function.update_of_ne ht.2]
    exact hi.fresh e he ht.1
  · intro e he j hj
    by_cases hed : e = d
    · subst hed
      simp only [Function.update_self] at hj
      exact positions_lt hpos j hj
    · simp only [Function.update_of_ne hed] at hj
      exact hi.bound e he j hj

/-- One keyword. -/
theorem selStep_inv {argsort : List ℚ → List ℕ} (ha : IsArgsort argsort) {m : CM} (hm : Regular m) {st st' : Ents × Dict Indexer}
    {red : String → List ℕ} {touched : String → Prop} (hi : Inv m st red touched) {p : String × CQuery} (hq : NonNegSamples p.2)
    (hfree : ∀ d c, m.ents.get? p.1 = some ([d], c) → ¬ touched d)
    (h : m.selStep argsort st p = .ok st') :
    ∃ red' touched', Inv m st' red' touched' ∧
      (∀ d, touched' d ↔ touched d ∨ ∃ c, m.ents.get? p.1 = some ([d], c)) ∧
      (∀ d, touched d → red' d = red d) ∧
      (∀ d k c, m.ents.get? p.1 = some ([d], .one k c) → Survivors c (red' d) p.2) := by
  classical
  unfold CM.selStep at h
  split at h
  · cases h
  · cases h
  · rename_i ds k c hent
    simp only [bind, Except.bind] at h
    split at h
    · cases h
    · rename_i r hr
      have hmem := Dict.mem_of_get? hent
      have hwf := hm.classes _ _ _ _ hmem
      obtain ⟨ps, hpos, hsurv, hlab⟩ := query_spec argsort ha k c hwf p.2 hq r.1 r.2 (by rw [hr])
      have hkey : p.1 ∈ Dict.keys st.1 := by rw [hi.keys]; exact Dict.mem_keys.2 ⟨_, hent⟩
      split at h
      · -- not attached to a dimension
        cases h
        refine ⟨red, touched, ⟨⟨?_, ?_, ?_, hi.fresh, hi.bound⟩, hi.ixs⟩, ?_, fun _ _ => rfl, ?_⟩
        · simp only [keys_set_of_mem hkey]; exact hi.keys
        · intro name ds' c0 h0 hne
          have : name ≠ p.1 := by
            rintro rfl
            rw [hent] at h0; cases h0; exact hne rfl
          simp only [Dict.get?_set, if_neg this]
          exact hi.shows name ds' c0 h0 hne
        · intro name ds' c0 h0
          simp only [Dict.get?_set]
          by_cases hn : name = p.1
          · subst hn
            rw [hent] at h0; cases h0
            simp
          · rw [if_neg hn]; exact hi.dims name ds' c0 h0
        · intro d
          rw [hent]; simp
        · intro d k' c' h'; rw [hent] at h'; simp at h'
      · rename_i d ds'
        obtain ⟨d0, hds, hd, hlen⟩ := hm.one_dim hent (by simp)
        cases hds
        split at h
        · cases h
        · rename_i new hnew
          cases h
          have hnt : ¬ touched d := hfree d _ hent
          rw [hlen] at hpos
          have hcore := core_step hm hi.toCore hent hd hnt hpos hlab (op := MCoord.index)
            (fun k c ax c' qs h1 h2 h3 => index_one h1 h2 h3) (fun b ax => rfl) indirectOne_rel hnew
          refine ⟨Function.update red d ps, fun e => touched e ∨ e = d, ⟨hcore, ?_⟩, ?_, ?_, ?_⟩
          · intro e he
            simp only [Dict.get?_set]
            by_cases hed : e = d
            · subst hed
              refine ⟨r.2, if_pos rfl, ?_⟩
              simp only [Function.update_self]; exact hpos
            · rw [if_neg hed]
              simp only [Function.update_of_ne hed]
              exact hi.ixs e he
          · intro e
            rw [hent]
            constructor
            · rintro (h | rfl)
              · exact Or.inl h
              · exact Or.inr ⟨_, rfl⟩
            · rintro (h | ⟨c', h⟩)
              · exact Or.inl h
              · cases h; exact Or.inr rfl
          · intro e he
            have : e ≠ d := by rintro rfl; exact hnt he
            simp [this]
          · intro e k' c' h'
            rw [hent] at h'
            cases h'
            simp only [Function.update_self]
            exact hsurv

end Verif
