import Verif.Proof.Groups
import Verif.Proof.UpdateTotal
import Verif.Proof.Dasdae
import Verif.Proof.Units
import Verif.Proof.FourierCoords
import Verif.Props.CoordRange
import Verif.Spec.SelectTotal
/-! # When selecting succeeds -/
namespace Verif
open Spec

theorem nonfloat_canon {k : Kind} (hk : k ≠ .float) (c : Coord) : ∃ x, (MCoord.one k c).canon = .ok x := by
  have key : ∀ l : List ℚ, ∃ x, (getCoordData k l).map (MCoord.one k) = .ok x := by
    intro l
    by_cases hl : l = []
    · subst hl; exact ⟨_, rfl⟩
    · rcases C14_declared_partial k l hl with ⟨d, h, _⟩ | ⟨h, _⟩
      · exact ⟨_, by rw [h]; rfl⟩
      · exact absurd h hk
  cases c with
  | range r => exact ⟨_, rfl⟩
  | part n => exact ⟨_, rfl⟩
  | mono l => exact key l
  | arr l => exact key l

theorem nonfloat_data {k : Kind} (hk : k ≠ .float) (l : List ℚ) : ∃ d, getCoordData k l = .ok d := by
  by_cases hl : l = []
  · subst hl; exact ⟨_, rfl⟩
  · rcases C14_declared_partial k l hl with ⟨d, h, _⟩ | ⟨h, _⟩
    · exact ⟨_, h⟩
    · exact absurd h hk

theorem pySlice_ok {α} (l : List α) {s : PySlice} (h : s.step ≠ some 0) : ∃ r, pySlice l s = .ok r := by
  obtain ⟨r, hr⟩ := indices_ok_or l.length h
  exact ⟨_, by unfold pySlice; rw [hr]; rfl⟩

theorem step_of_pySlice {α} {l r : List α} {s : PySlice} (h : pySlice l s = .ok r) : s.step ≠ some 0 := by
  intro h0
  have := (indices_error (s := s) (n := l.length)).2 h0
  unfold pySlice at h
  rw [this] at h
  cases h

theorem getSlice_class {c : RangeCoord} {s : PySlice} {d : Coord} (h : c.getSlice s = .ok d) : (∃ r, d = .range r) ∨ ∃ n, d = .part n := by
  unfold RangeCoord.getSlice at h
  obtain ⟨ix, _, h⟩ := bind_split h
  split_ifs at h
  · unfold RangeCoord.new getCoordParts at h
    simp only at h
    split at h
    · cases h; exact Or.inl ⟨_, rfl⟩
    · cases h; exact Or.inr ⟨_, rfl⟩
    · cases h
  · cases h; exact Or.inr ⟨_, rfl⟩

theorem storable_sliced {c : RangeCoord} (hc : c.Valid) {s : PySlice} (h : s.step ≠ some 0) : ∃ l, pySlice c.values s = .ok l ∧ Storable l := by
  obtain ⟨d, l, h1, h2, h3⟩ := (C02_slice c (BuiltRange.of_valid hc) s).1 h
  refine ⟨l, h2, ?_⟩
  rcases getSlice_class h1 with ⟨r, rfl⟩ | ⟨n, rfl⟩
  · have hv := getSlice_valid hc h1 rfl
    have : r.values.map some = l.map some := h3
    rw [← (List.map_injective_iff.2 (Option.some_injective _)) this]
    exact storable_range hv
  · left
    cases l with
    | nil => simp
    | cons a l =>
      have : (List.replicate n none : List (Option ℚ)) = (a :: l).map some := h3
      cases n with
      | zero => simp at this
      | succ n => simp [List.replicate_succ] at this

theorem canon_empty {k : Kind} {c : Coord} (h : c.labels = []) : ∃ x, (MCoord.one k c).canon = .ok x := by
  cases c with
  | range r => exact ⟨_, rfl⟩
  | part n => exact ⟨_, rfl⟩
  | mono l =>
    have : l = [] := by simpa [Coord.labels, Coord.vals] using h
    subst this; exact ⟨_, rfl⟩
  | arr l =>
    have : l = [] := by simpa [Coord.labels, Coord.vals] using h
    subst this; exact ⟨_, rfl⟩

/-- An interval or a slice of a monotonic coordinate. -/
theorem query_total (argsort : List ℚ → List ℕ) {k : Kind} {c : Coord} (hc : c.Wf) (hk : (∃ r, c = .range r) ∨ (k ≠ .float ∧ ∃ l, c = .mono l))
    {q : CQuery} (hq : IntervalOrSlice q) : ∃ c1 sl, c.query argsort k q = .ok (c1, .slice sl) ∧ sl.step ≠ some 0 ∧
      ∃ x, (MCoord.one k c1).canon = .ok x := by
  rcases hk with ⟨r, rfl⟩ | ⟨hk, l, rfl⟩
  · have hv : r.Valid := hc
    cases q with
    | between a b =>
      obtain ⟨d, sl, h1, h2, h3, h4⟩ := RangeCoord.select_spec hv a b
      refine ⟨d, sl, ?_, step_of_pySlice h3, ?_⟩
      · show (r.select (a, b)).map _ = _
        rw [h1]; rfl
      · rcases h4 with h4 | ⟨r', rfl, _⟩
        · apply canon_empty
          rw [h2]
          subst h4
          have : pySlice r.values ⟨some 0, some 0, none⟩ = .ok [] := by
            have := pySlice_unit r.values 0 0 (some 0) (some 0) (by simp [clipBound]) (by simp [clipBound])
            simpa using this
          rw [this] at h3
          injection h3 with h3
          rw [← h3]; rfl
        · exact ⟨_, rfl⟩
    | slice s =>
      obtain ⟨d, l, h1, h2, h3⟩ := (C02_slice r (BuiltRange.of_valid hv) (toSlice s)).1 hq
      refine ⟨d, toSlice s, ?_, hq, ?_⟩
      · show (r.getSlice (toSlice s)).map _ = _
        rw [h1]; rfl
      · rcases getSlice_class h1 with ⟨r, rfl⟩ | ⟨n, rfl⟩ <;> exact ⟨_, rfl⟩
    | _ => cases hq
  · cases q with
    | between a b =>
      obtain ⟨sl, h1, h2⟩ := MonoCoord.select_spec k l hc.1 a b
      obtain ⟨d, hd⟩ := nonfloat_data hk (samplesBetween 0 a b l)
      refine ⟨d, sl, ?_, step_of_pySlice h1, nonfloat_canon hk d⟩
      show (MonoCoord.select k l (a, b)).map _ = _
      rw [h2, hd]; rfl
    | slice s =>
      obtain ⟨r, hr⟩ := pySlice_ok l hq
      refine ⟨.mono r, toSlice s, ?_, hq, nonfloat_canon hk _⟩
      show ((pySlice l (toSlice s)).map Coord.mono).map _ = _
      rw [hr]; rfl
    | _ => cases hq

theorem index_one_total {k : Kind} {c : Coord} (hc : c.Wf) (hk : k = .float → (∃ r, c = .range r) ∨ ∃ n, c = .part n) {sl : PySlice}
    (hs : sl.step ≠ some 0) : ∃ x y, (MCoord.one k c).index (.slice sl) 0 = .ok x ∧ x.canon = .ok y := by
  have stored : ∀ (l : List ℚ) (d : Coord), getCoordData k l = .ok d → ∃ y, (MCoord.one k d).canon = .ok y := by
    intro l d hd
    exact ⟨_, canon_fixed (by show (getCoordData k l).map _ = _; rw [hd]; rfl : (MCoord.one k (.arr l)).canon = .ok _)⟩
  cases c with
  | part n =>
    obtain ⟨ps, hps⟩ := pySlice_ok (List.range n) hs
    refine ⟨.one k (.part ps.length), _, ?_, rfl⟩
    show ((Indexer.slice sl).positions n).map _ = _
    have : (Indexer.slice sl).positions n = .ok ps := hps
    rw [this]; rfl
  | range r =>
    have hv : r.Valid := hc
    obtain ⟨l, h1, h2⟩ := storable_sliced hv hs
    obtain ⟨d, h3, _⟩ := C14_represents_partial k l h2
    obtain ⟨y, hy⟩ := stored l d h3
    refine ⟨.one k d, y, ?_, hy⟩
    show (do let vs ← (Indexer.slice sl).apply r.values; (getCoordData k vs).map (MCoord.one k)) = _
    have : (Indexer.slice sl).apply r.values = .ok l := h1
    rw [this]
    show (getCoordData k l).map _ = _
    rw [h3]; rfl
  | mono v =>
    have hk' : k ≠ .float := fun e => by rcases hk e with ⟨_, h⟩ | ⟨_, h⟩ <;> cases h
    obtain ⟨l, h1⟩ := pySlice_ok v hs
    obtain ⟨d, h3⟩ := nonfloat_data hk' l
    obtain ⟨y, hy⟩ := stored l d h3
    refine ⟨.one k d, y, ?_, hy⟩
    show (do let vs ← (Indexer.slice sl).apply v; (getCoordData k vs).map (MCoord.one k)) = _
    have : (Indexer.slice sl).apply v = .ok l := h1
    rw [this]
    show (getCoordData k l).map _ = _
    rw [h3]; rfl
  | arr v =>
    have hk' : k ≠ .float := fun e => by rcases hk e with ⟨_, h⟩ | ⟨_, h⟩ <;> cases h
    obtain ⟨l, h1⟩ := pySlice_ok v hs
    obtain ⟨d, h3⟩ := nonfloat_data hk' l
    obtain ⟨y, hy⟩ := stored l d h3
    refine ⟨.one k d, y, ?_, hy⟩
    show (do let vs ← (Indexer.slice sl).apply v; (getCoordData k vs).map (MCoord.one k)) = _
    have : (Indexer.slice sl).apply v = .ok l := h1
    rw [this]
    show (getCoordData k l).map _ = _
    rw [h3]; rfl

/-- Every coordinate of the manager can be read. -/
def AllRead (e : Ents) : Prop := ∀ name ds c, Dict.get? e name = some (ds, c) → ∃ x, c.canon = .ok x

/-- Indexing the coordinates attached to the dimension, one after the other. -/
theorem indirect_total {m : CM} {d : String} {x : Indexer} : ∀ (l : List String) (e : Ents), l.Nodup → AllRead e →
    (∀ n ∈ l, ∃ ds c ds' c0 c' y, Dict.get? e n = some (ds, c) ∧ m.ents.get? n = some (ds', c0) ∧ c.index x (ds'.idxOf d) = .ok c' ∧ c'.canon = .ok y) →
    ∃ e', l.foldlM (m.indirectOne d x) e = .ok e' ∧ AllRead e'
  | [], e, _, hr, _ => ⟨e, rfl, hr⟩
  | n :: l, e, hn, hr, h => by
    rw [List.nodup_cons] at hn
    obtain ⟨ds, c, ds', c0, c', y, h1, h2, h3, h4⟩ := h n (by simp)
    have e1 : m.indirectOne d x e n = .ok (Dict.set e n (ds, c')) := by
      unfold CM.indirectOne
      rw [h1, h2]
      simp only [h3]
      rfl
    obtain ⟨e', h5, h6⟩ := indirect_total (m := m) (d := d) (x := x) l (Dict.set e n (ds, c')) hn.2 (by
      intro name ds1 c1 hg
      rw [Dict.get?_set] at hg
      split_ifs at hg
      · cases hg; exact ⟨y, h4⟩
      · exact hr name ds1 c1 hg) (by
      intro n' hn'
      have hne : n' ≠ n := by rintro rfl; exact hn.1 hn'
      obtain ⟨a1, a2, a3, a4, a5, a6, g1, g2, g3, g4⟩ := h n' (by simp [hn'])
      exact ⟨a1, a2, a3, a4, a5, a6, by rw [Dict.get?_set, if_neg hne]; exact g1, g2, g3, g4⟩)
    exact ⟨e', by rw [List.foldlM_cons, e1]; exact h5, h6⟩

/-- One keyword. -/
theorem selStep_total {argsort : List ℚ → List ℕ} {m : CM} (hm : Regular m) (hf : EvenFloats m) {st : Ents × Dict Indexer}
    {red : String → List ℕ} {touched : String → Prop} (hi : Inv m st red touched) (hr : AllRead st.1) {p : String × CQuery} (hq : IntervalOrSlice p.2)
    (hp : Askable m p.1) (hfree : ∀ d c, m.ents.get? p.1 = some ([d], c) → ¬ touched d) :
    ∃ st', m.selStep argsort st p = .ok st' ∧ AllRead st'.1 := by
  obtain ⟨d, k, c, hent, hc⟩ := hp
  have hmem := Dict.mem_of_get? hent
  have hwf := hm.classes _ _ _ _ hmem
  obtain ⟨c1, sl, h1, h2, h3⟩ := query_total argsort (k := k) hwf (by
    rcases hc with h | ⟨l, rfl⟩
    · exact Or.inl h
    · right
      refine ⟨?_, l, rfl⟩
      rintro rfl
      rcases hf _ _ _ hent with ⟨_, h⟩ | ⟨_, h⟩ <;> cases h) hq
  have hd : d ∈ m.dims := hm.wf.attached _ _ _ hmem d (by simp)
  have hnt := hfree d _ hent
  have hred := hi.fresh d hd hnt
  obtain ⟨e', h4, h5⟩ := indirect_total (m := m) (d := d) (x := .slice sl)
    ((m.ents.filter fun q => q.2.1.contains d && q.1 != p.1).map Prod.fst) (Dict.set st.1 p.1 ([d], .one k c1)) (Dict.nodup_filter hm.wf.names _) (by
      intro name ds1 c2 hg
      rw [Dict.get?_set] at hg
      split_ifs at hg
      · cases hg; exact h3
      · exact hr name ds1 c2 hg) (by
      intro n hn
      obtain ⟨⟨n, ds, c0⟩, hn', rfl⟩ := List.mem_map.1 hn
      clear hn
      rename _ => hn
      rw [List.mem_filter] at hn
      obtain ⟨hn1, hn2⟩ := hn
      simp only [Bool.and_eq_true, List.contains_eq_mem, decide_eq_true_eq, bne_iff_ne] at hn2
      have hg := Dict.get?_of_mem hm.wf.names hn1
      have hne : ds ≠ [] := by rintro rfl; simp at hn2
      obtain ⟨c', g1, g2⟩ := hi.shows n ds c0 hg hne
      cases c0 with
      | one k0 c0 =>
        obtain ⟨c'', rfl, hc''⟩ := g2
        obtain ⟨d1, rfl, _, hl⟩ := hm.one_dim hg hne
        have : d = d1 := by simpa using hn2.1
        subst this
        have := (hc'' d rfl).1 hnt
        subst this
        obtain ⟨x, y, w1, w2⟩ := index_one_total (k := k0) (hm.classes _ _ _ _ hn1) (by rintro rfl; exact hf _ _ _ hg) h2
        refine ⟨[d], _, [d], _, x, y, by rw [Dict.get?_set, if_neg hn2.2]; exact g1, hg, ?_, w2⟩
        rw [List.idxOf_cons_self]; exact w1
      | nd a =>
        obtain ⟨b, rfl, hb, _⟩ := g2
        obtain ⟨ps, hps⟩ := pySlice_ok (List.range (red d).length) h2
        have hps : (Indexer.slice sl).positions (red d).length = .ok ps := hps
        have hk : b.shape[ds.idxOf d]? = some (red d).length := by
          rw [hb, List.getElem?_map, List.getElem?_eq_getElem (List.idxOf_lt_length_of_mem hn2.1)]
          simp
        refine ⟨ds, _, ds, _, .nd (b.takeAxis (ds.idxOf d) ps), _, by rw [Dict.get?_set, if_neg hn2.2]; exact g1, hg, ?_, rfl⟩
        show (b.indexAxis (ds.idxOf d) (.slice sl)).map MCoord.nd = _
        unfold Nd.indexAxis
        rw [hk]
        simp only [hps]
        rfl)
  refine ⟨(e', st.2.set d (.slice sl)), ?_, h5⟩
  unfold CM.selStep
  rw [hent]
  simp only [bind, Except.bind, h1]
  unfold CM.indirect
  rw [h4]
  rfl

theorem fold_total {argsort : List ℚ → List ℕ} (ha : IsArgsort argsort) {m : CM} (hm : Regular m) (hf : EvenFloats m) :
    ∀ (kw : Dict CQuery) (st : Ents × Dict Indexer) (red : String → List ℕ) (touched : String → Prop), Inv m st red touched → AllRead st.1 →
      (∀ p ∈ kw, IntervalOrSlice p.2) → (∀ p ∈ kw, Askable m p.1) → (∀ p ∈ kw, NonNegSamples p.2) → OnePerDim m kw →
      (∀ p ∈ kw, ∀ d c, m.ents.get? p.1 = some ([d], c) → ¬ touched d) →
      ∃ st', kw.foldlM (m.selStep argsort) st = .ok st' ∧ AllRead st'.1
  | [], st, _, _, _, hr, _, _, _, _, _ => ⟨st, rfl, hr⟩
  | p :: kw, st, red, touched, hi, hr, h1, h2, h3, h4, h5 => by
    obtain ⟨st1, e1, hr1⟩ := selStep_total (argsort := argsort) hm hf hi hr (h1 p (by simp)) (h2 p (by simp)) (h5 p (by simp))
    obtain ⟨red', touched', hi', ht', _⟩ := selStep_inv ha hm hi (h3 p (by simp)) (h5 p (by simp)) e1
    unfold OnePerDim at h4
    rw [List.pairwise_cons] at h4
    obtain ⟨st', e2, hr2⟩ := fold_total ha hm hf kw st1 red' touched' hi' hr1 (fun q hq => h1 q (by simp [hq])) (fun q hq => h2 q (by simp [hq]))
      (fun q hq => h3 q (by simp [hq])) h4.2 (by
        intro q hq d c hc
        rw [ht']
        rintro (h | ⟨c', hc'⟩)
        · exact h5 q (by simp [hq]) d c hc h
        · exact h4.1 q hq d c' c hc' hc)
    exact ⟨st', by rw [List.foldlM_cons, e1]; exact e2, hr2⟩

/-- The coordinates obtained can be made into a manager, and the data indexed. -/
theorem finish_total {α} {argsort : List ℚ → List ℕ} (ha : IsArgsort argsort) {m : CM} {a : Nd α} (hm : Regular m) (hd : m.dims ≠ []) (hsh : m.shape = a.shape)
    (hread : AllRead m.ents) {kw : Dict CQuery} (hn : ∀ r ∈ kw, NonNegSamples r.2) (hone : OnePerDim m kw) {st : Ents × Dict Indexer}
    (hst : kw.foldlM (m.selStep argsort) (m.ents, m.dims.map fun d => (d, Indexer.slice {})) = .ok st) (hr : AllRead st.1) :
    ∃ q, CM.selectGroup argsort (m, a) kw = .ok q := by
  obtain ⟨red, touched, hi, ht, _, hsurv⟩ := fold_inv ha hm kw _ st _ _ (inv_start hm) hn (by simp) hone hst
  have hval : RangesValid st.1 := by
    refine CM.foldlM_inv (P := fun st : Ents × Dict Indexer => RangesValid st.1) ?_ hst ?_
    · intro b p b' hb he; exact selStep_valid hm hb he
    · intro name ds k r hg
      exact hm.classes _ _ _ _ (Dict.mem_of_get? hg)
  have hlen : ∀ d ∈ m.dims, newLen m (CM.nested st.1) d = (red d).length := by
    intro d hdd
    obtain ⟨c, n, hc, hsn⟩ := CM.WellFormed.get_dim hm.wf hdd
    obtain ⟨c', h4, h5⟩ := hi.shows d [d] c hc (by simp)
    unfold newLen
    rw [get?_nested, h4]
    simp only [Option.map_some, argOf]
    cases c with
    | nd b =>
      obtain ⟨b', rfl, hb', _⟩ := h5
      simp [MCoord.len, MCoord.shape, MCoord.arr, hb']
    | one k c =>
      obtain ⟨c', rfl, hc'⟩ := h5
      have hl : c.length = m.ents.lenOf d := by
        obtain ⟨_, e, _, hl⟩ := hm.one_dim hc (by simp)
        cases e; exact hl
      simp only [MCoord.len, one_shape, List.getD_cons_zero]
      by_cases ht' : touched d
      · refine ((hc' d rfl).2 ht').length (hm.classes _ _ _ _ (Dict.mem_of_get? hc)) (by rw [hl]; exact hi.bound d hdd) ?_
        intro r hr
        exact hval d [d] k r (by rw [h4, hr])
      · rw [(hc' d rfl).1 ht', hi.fresh d hdd ht', hl]; simp
  obtain ⟨cm, hcm⟩ := update_total hm.wf (kw := CM.nested st.1) (by rw [CM.nested_keys, hi.keys]; exact hm.wf.names)
    (by rw [CM.nested_keys, hi.keys]; exact hm.plain) (by
      intro name a' ha'
      rw [get?_nested] at ha'
      cases hg : Dict.get? st.1 name with
      | none => rw [hg] at ha'; cases ha'
      | some v =>
        obtain ⟨ds, c⟩ := v
        rw [hg] at ha'
        cases ha'
        obtain ⟨x, hx⟩ := hr name ds c hg
        obtain ⟨⟨ds0, c0⟩, h0⟩ := Dict.mem_keys.1 (by rw [← hi.keys]; exact Dict.mem_keys.2 ⟨_, hg⟩ : name ∈ m.ents.keys)
        obtain ⟨c', g1⟩ := hi.dims name ds0 c0 h0
        rw [hg] at g1; cases g1
        have hatt := hm.wf.attached _ _ _ (Dict.mem_of_get? h0)
        refine ⟨ds, c, x, rfl, hx, hatt, ?_, ?_⟩
        · intro hdd
          obtain ⟨c2, n, hc, _⟩ := CM.WellFormed.get_dim hm.wf hdd
          rw [h0] at hc; cases hc; rfl
        · by_cases hne : ds = []
          · exact Or.inl hne
          · right
            obtain ⟨c', g1, g2⟩ := hi.shows name ds c0 h0 hne
            rw [hg] at g1; cases g1
            rw [List.map_congr_left fun d hdd => hlen d (hatt d hdd)]
            cases c0 with
            | nd b =>
              obtain ⟨b', rfl, hb', _⟩ := g2
              exact hb'.symm
            | one k c0 =>
              obtain ⟨c', rfl, hc'⟩ := g2
              obtain ⟨d, rfl, hdd, hl⟩ := hm.one_dim h0 hne
              rw [one_shape]
              simp only [List.map_cons, List.map_nil]
              congr 1
              by_cases ht' : touched d
              · refine (((hc' d rfl).2 ht').length (hm.classes _ _ _ _ (Dict.mem_of_get? h0)) (by rw [hl]; exact hi.bound d hdd) ?_).symm
                intro r hr
                exact hval name [d] k r (by rw [hg, hr])
              · rw [(hc' d rfl).1 ht', hi.fresh d hdd ht', hl]; simp) hread
  have hshape : a.shape = m.dims.map m.ents.lenOf := by
    rw [← hsh]; unfold CM.shape; rw [if_neg hd]
  have hxs : ((m.dims.map fun d => (st.2.get? d).getD (Indexer.slice {})).zip a.shape).mapM
      (fun p => p.1.positions p.2) = .ok (m.dims.map red) := by
    rw [hshape, List.zip_map', List.mapM_map]
    apply mapM_ok'
    intro d hdd
    obtain ⟨x, hx1, hx2⟩ := hi.ixs d hdd
    simp only [Function.comp, hx1, Option.getD_some, hx2]
  obtain ⟨s1, _⟩ := applyUnion_spec (m.dims.map fun d => (st.2.get? d).getD (Indexer.slice {})) a (by rw [hshape]; simp)
  obtain ⟨b, hb1, _⟩ := s1 _ hxs
  refine ⟨(cm, b), ?_⟩
  have e1 : m.indexersAndCoords argsort kw = .ok (st.1, m.dims.map fun d => (st.2.get? d).getD (.slice {})) := by
    unfold CM.indexersAndCoords
    rw [hst]; rfl
  have e2 : m.groupCM argsort kw = .ok (cm, m.dims.map fun d => (st.2.get? d).getD (.slice {})) := by
    unfold CM.groupCM
    rw [e1]
    show (do let cm ← m.update (CM.nested st.1); return (cm, _)) = _
    rw [hcm]; rfl
  unfold CM.selectGroup
  simp only
  rw [e2]
  show (do let a ← applyUnion _ a; return (cm, a)) = _
  rw [hb1]; rfl

theorem groups_single {m : CM} {kw : Dict CQuery} (h2 : ∀ p ∈ kw, Askable m p.1) (h4 : OnePerDim m kw) : m.groups kw = [kw] := by
  have hused : (kw.filter fun p => m.ents.keys.contains p.1) = kw := by
    rw [List.filter_eq_self]
    intro p hp
    obtain ⟨d, k, c, hc, _⟩ := h2 p hp
    simpa using Dict.mem_keys.2 ⟨_, hc⟩
  unfold CM.groups
  simp only [hused]
  rw [if_pos]
  rw [List.Nodup, List.pairwise_map]
  have : kw.Pairwise fun p q => p ∈ kw ∧ q ∈ kw := List.pairwise_of_forall_mem_list fun a ha b hb => ⟨ha, hb⟩
  refine (h4.and this).imp ?_
  rintro p q ⟨hpq, hp, hq⟩ he
  obtain ⟨d, k, c, hc, _⟩ := h2 p hp
  obtain ⟨d', k', c', hc', _⟩ := h2 q hq
  rw [hc, hc'] at he
  simp only [Option.map_some, Option.getD_some, List.cons.injEq, and_true] at he
  subst he
  exact hpq d _ _ hc hc'

theorem allRead_even {m : CM} (hf : EvenFloats m) : AllRead m.ents := by
  intro name ds c hc
  cases c with
  | nd a => exact ⟨_, rfl⟩
  | one k c =>
    by_cases hk : k = .float
    · subst hk
      rcases hf _ _ _ hc with ⟨r, rfl⟩ | ⟨n, rfl⟩ <;> exact ⟨_, rfl⟩
    · exact nonfloat_canon hk c

theorem CM.select_total {α} {argsort : List ℚ → List ℕ} (ha : IsArgsort argsort) {m : CM} {a : Nd α} (hm : Regular m) (hd : m.dims ≠ []) (hsh : m.shape = a.shape)
    (hf : EvenFloats m) {kw : Dict CQuery} (h1 : ∀ p ∈ kw, IntervalOrSlice p.2) (h2 : ∀ p ∈ kw, Askable m p.1) (h4 : OnePerDim m kw) :
    ∃ q, m.select argsort a kw = .ok q := by
  have h3 : ∀ p ∈ kw, NonNegSamples p.2 := by
    intro p hp
    have := h1 p hp
    revert this
    cases p.2 <;> simp [IntervalOrSlice, NonNegSamples]
  obtain ⟨st, hst, hr⟩ := fold_total ha hm hf kw _ _ _ (inv_start hm) (allRead_even hf) h1 h2 h3 h4 (by simp)
  obtain ⟨q, hq⟩ := finish_total (a := a) ha hm hd hsh (allRead_even hf) h3 h4 hst hr
  refine ⟨q, ?_⟩
  unfold CM.select
  rw [groups_single h2 h4, List.foldlM_cons, hq]
  rfl

theorem CM.select_nothing {α} {argsort : List ℚ → List ℕ} (ha : IsArgsort argsort) {m : CM} {a : Nd α} (hm : Regular m) (hd : m.dims ≠ []) (hsh : m.shape = a.shape)
    (hr : AllRead m.ents) : ∃ q, m.select argsort a [] = .ok q := by
  obtain ⟨q, hq⟩ := finish_total (argsort := argsort) (a := a) ha hm hd hsh hr (kw := []) (by simp) List.Pairwise.nil (st := _) rfl hr
  refine ⟨q, ?_⟩
  unfold CM.select
  have : m.groups [] = [[]] := rfl
  rw [this, List.foldlM_cons, hq]
  rfl

theorem PatchM.select_total {α} {argsort : List ℚ → List ℕ} (ha : IsArgsort argsort) {p : PatchM α} (hm : Regular p.cm) (hd : p.cm.dims ≠ [])
    (hsh : p.cm.shape = p.data.shape) (hf : EvenFloats p.cm) {kw : Dict CQuery} (h1 : ∀ r ∈ kw, IntervalOrSlice r.2) (h2 : ∀ r ∈ kw, Askable p.cm r.1)
    (h4 : OnePerDim p.cm kw) : ∃ q, p.select argsort kw = .ok q := by
  have h3 : ∀ p ∈ kw, NonNegSamples p.2 := by
    intro p hp
    have := h1 p hp
    revert this
    cases p.2 <;> simp [IntervalOrSlice, NonNegSamples]
  obtain ⟨q, hq⟩ := CM.select_total (a := p.data) ha hm hd hsh hf h1 h2 h4
  have hs : q.1.shape = q.2.shape := by
    have hp := groups_perm p.cm kw
    exact (chain_spec ha _ p q hm hd hsh (fun g hg r hr => h3 r (List.mem_of_mem_filter (hp.mem_iff.1 (List.mem_flatten.2 ⟨g, hg, hr⟩))))
      (groups_onePerDim p.cm kw) hq).2.2
  refine ⟨⟨q.1, q.2⟩, ?_⟩
  unfold PatchM.select
  rw [if_neg]
  · show (do let r ← p.cm.select argsort p.data kw; PatchM.new r.1 r.2) = _
    rw [hq]
    show PatchM.new q.1 q.2 = _
    unfold PatchM.new
    rw [if_pos hs]
  · rw [Bool.not_eq_true, List.any_eq_false]
    intro r hr
    obtain ⟨d, k, c, hc, _⟩ := h2 r hr
    simpa using Dict.mem_keys.2 ⟨_, hc⟩

end Verif
