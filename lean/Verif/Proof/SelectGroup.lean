import Verif.Proof.Select
import Verif.Proof.CMWf
/-! # Lemmas: one group of a selection -/
namespace Verif
open Spec

theorem fold_inv {argsort : List ℚ → List ℕ} (ha : IsArgsort argsort) {m : CM} (hm : Regular m) :
    ∀ (kw : Dict CQuery) (st st' : Ents × Dict Indexer) (red : String → List ℕ) (touched : String → Prop), Inv m st red touched →
      (∀ p ∈ kw, NonNegSamples p.2) →
      (∀ p ∈ kw, ∀ d c, m.ents.get? p.1 = some ([d], c) → ¬ touched d) →
      kw.Pairwise (fun p q => ∀ d c c', m.ents.get? p.1 = some ([d], c) → m.ents.get? q.1 ≠ some ([d], c')) →
      kw.foldlM (m.selStep argsort) st = .ok st' →
      ∃ red' touched', Inv m st' red' touched' ∧
        (∀ d, touched' d ↔ touched d ∨ ∃ p ∈ kw, ∃ c, m.ents.get? p.1 = some ([d], c)) ∧
        (∀ d, touched d → red' d = red d) ∧
        (∀ p ∈ kw, ∀ d k c, m.ents.get? p.1 = some ([d], .one k c) → Survivors c (red' d) p.2) := by
  intro kw
  induction kw with
  | nil =>
    intro st st' red touched hi _ _ _ h
    cases h
    exact ⟨red, touched, hi, by simp, fun _ _ => rfl, by simp⟩
  | cons p kw ih =>
    intro st st' red touched hi hn hf hp h
    rw [List.foldlM_cons] at h
    cases h1 : m.selStep argsort st p with
    | error e => rw [h1] at h; cases h
    | ok st1 =>
      rw [h1] at h
      rw [List.pairwise_cons] at hp
      obtain ⟨red1, t1, i1, i2, i3, i4⟩ := selStep_inv ha hm hi (hn p List.mem_cons_self) (hf p List.mem_cons_self) h1
      have hfree : ∀ q ∈ kw, ∀ d c, m.ents.get? q.1 = some ([d], c) → ¬ t1 d := by
        intro q hq d c hd ht
        rcases (i2 d).1 ht with ht | ⟨c', hc'⟩
        · exact hf q (List.mem_cons_of_mem _ hq) d c hd ht
        · exact hp.1 q hq d c' c hc' hd
      obtain ⟨red2, t2, j1, j2, j3, j4⟩ := ih st1 st' red1 t1 i1 (fun q hq => hn q (List.mem_cons_of_mem _ hq)) hfree hp.2 h
      refine ⟨red2, t2, j1, ?_, ?_, ?_⟩
      · intro d
        rw [j2, i2]
        simp only [List.mem_cons, exists_eq_or_imp, or_assoc]
      · intro d hd
        rw [j3 d ((i2 d).2 (Or.inl hd)), i3 d hd]
      · intro q hq d k c hc
        rcases List.mem_cons.1 hq with rfl | hq
        · rw [j3 d ((i2 d).2 (Or.inr ⟨_, hc⟩))]
          exact i4 d k c hc
        · exact j4 q hq d k c hc

theorem showsNd_start {α} {a : Nd α} {ds : List String} {f : String → ℕ} (hs' : a.shape = ds.map f) :
    ShowsNd (fun d => List.range (f d)) ds a a := by
  refine ⟨by simp [hs'], ?_⟩
  intro i hi
  congr 1
  rw [hs'] at hi
  clear hs'
  induction ds generalizing i with
  | nil => cases hi; rfl
  | cons d ds ih =>
    cases hi with
    | cons h1 h2 =>
      rw [List.map_cons, List.zipWith_cons_cons, ← ih _ h2]
      congr 1
      unfold lookup
      rw [List.getD_eq_getElem?_getD, List.getElem?_range h1]; rfl

theorem core_start {m : CM} (hm : Regular m) : Core m m.ents (fun d => List.range (m.ents.lenOf d)) (fun _ => False) := by
  refine ⟨rfl, ?_, ?_, fun _ _ _ => rfl, ?_⟩
  · intro name ds c h hne
    refine ⟨c, h, ?_⟩
    cases c with
    | one k c => exact ⟨c, rfl, fun d _ => ⟨fun _ => rfl, fun h => h.elim⟩⟩
    | nd a =>
      have hs := CM.WellFormed.shape_eq hm.wf (Dict.mem_of_get? h) hne
      have hs' : a.shape = ds.map m.ents.lenOf := hs
      exact ⟨a, rfl, showsNd_start hs'⟩
  · intro name ds c h; exact ⟨c, h⟩
  · intro d _ j hj; exact List.mem_range.1 hj

theorem inv_start {m : CM} (hm : Regular m) :
    Inv m (m.ents, m.dims.map fun d => (d, Indexer.slice {})) (fun d => List.range (m.ents.lenOf d)) (fun _ => False) := by
  refine ⟨core_start hm, ?_⟩
  intro d hd
  refine ⟨.slice {}, ?_, slice_all_positions _⟩
  have hm' := hm.distinct
  unfold DistinctDims at hm'
  simp only
  apply Dict.get?_of_mem
  · simpa [Dict.keys, Function.comp_def] using hm'
  · exact List.mem_map.2 ⟨d, hd, rfl⟩

/-! ### The update with all coordinates -/

/-- `d.update(e)` when `e` has all the keys of `d`. -/
theorem parseArg_nested {dims : List String} {name : String} {ds : List String} {c : MCoord} {r : List String × MCoord}
    (h : parseArg dims name (.nested ds c) = .ok r) : ∃ c', c.canon = .ok c' ∧ r = (ds, c') := by
  unfold parseArg at h
  simp only at h
  split at h
  · obtain ⟨c', h1, h2⟩ := except_map_ok h
    exact ⟨c', h1, h2.symm⟩
  · cases h

theorem get?_nested (e : Ents) (k : String) : Dict.get? (CM.nested e) k = (Dict.get? e k).map fun p => CArg.nested p.1 p.2 := by
  unfold CM.nested
  exact Dict.get?_map_val e (fun _ p => CArg.nested p.1 p.2) k

theorem mapM_get?' {α β : Type} {d : Dict α} {f : String × α → Except Err β} {e : Dict β}
    (h : (d.mapM fun p => (f p).map fun x => (p.1, x)) = .ok e) (k : String) {a : α} (hv : Dict.get? d k = some a) :
    ∃ v, Dict.get? e k = some v ∧ f (k, a) = .ok v := by
  have hk : k ∈ Dict.keys e := by rw [Dict.mapM_keys h]; exact Dict.mem_keys.2 ⟨a, hv⟩
  obtain ⟨v, hv'⟩ := Dict.mem_keys.1 hk
  obtain ⟨a', h1, h2⟩ := Dict.mapM_get? h k hv'
  rw [hv] at h1; cases h1
  exact ⟨v, hv', h2⟩

theorem update_nested {m m' : CM} (hm : Regular m) {new : Ents} (hk : new.keys = m.ents.keys)
    (hds : ∀ name ds c, m.ents.get? name = some (ds, c) → ∃ c', new.get? name = some (ds, c'))
    (h : m.update (CM.nested new) = .ok m') :
    m'.dims = m.dims ∧
    (∀ name, m'.ents.get? name = none ↔ m.ents.get? name = none) ∧
    (∀ name ds c, new.get? name = some (ds, c) → ∃ c', c.canon = .ok c' ∧ m'.ents.get? name = some (ds, c')) := by
  have hnk : (CM.nested new).keys = m.ents.keys := by rw [CM.nested_keys, hk]
  have hplain : ∀ p ∈ CM.nested new, matchesPrefixSuffix m.dims p.1 = false := by
    intro p hp
    apply hm.plain
    rw [← hnk]; exact List.mem_map_of_mem hp
  have hnd : ∀ p ∈ CM.nested new, p.2.isDrop = false := by
    intro p hp
    unfold CM.nested at hp
    obtain ⟨q, _, rfl⟩ := List.mem_map.1 hp
    rfl
  have hnodup : (CM.nested new).keys.Nodup := by rw [hnk]; exact hm.wf.names
  have e1 : (CM.nested new).filter (fun p => matchesPrefixSuffix m.dims p.1) = [] := by
    rw [List.filter_eq_nil_iff]; intro p hp; rw [hplain p hp]; simp
  have e2 : (CM.nested new).filter (fun p => !matchesPrefixSuffix m.dims p.1) = CM.nested new := by
    rw [List.filter_eq_self]; intro p hp; rw [hplain p hp]; rfl
  have e3 : ((CM.nested new).filter fun p => p.2.isDrop) = [] := by
    rw [List.filter_eq_nil_iff]; intro p hp; rw [hnd p hp]; simp
  have e4 : ((CM.nested new).filter fun p => !p.2.isDrop) = CM.nested new := by
    rw [List.filter_eq_self]; intro p hp; rw [hnd p hp]; rfl
  unfold CM.update at h
  simp only [e1, e2, e3, e4] at h
  simp only [bind, Except.bind] at h
  split at h
  · cases h
  · rename_i r hr
    split at h
    · cases h
    · rename_i ind hind
      split at h
      · cases h
      · rename_i coords hcoords
        simp only [List.map_nil, List.foldlM_nil, pure, Except.pure, List.contains_nil, Bool.not_false, List.filter_true] at h
        obtain ⟨c1, _, c3, c4⟩ := CM.coordDimMap_spec (e := r.1) (dims' := r.2) hr hnodup
        have hattach : ∀ (name : String) ds c, Dict.get? new name = some (ds, c) → ds = [name] → name ∈ m.dims := by
          intro name ds c h1 h2
          have : name ∈ m.ents.keys := by rw [← hk]; exact Dict.mem_keys.2 ⟨_, h1⟩
          obtain ⟨⟨ds0, c0⟩, hv⟩ := Dict.mem_keys.1 this
          obtain ⟨c', hc'⟩ := hds name ds0 c0 hv
          rw [h1] at hc'; cases hc'
          exact hm.wf.attached name ds c0 (Dict.mem_of_get? hv) name (by simp [h2])
        have hdims : r.2 = m.dims := by
          rw [c3]
          have : (r.1.filter fun p => p.2.1 == [p.1] && !m.dims.contains p.1) = [] := by
            rw [List.filter_eq_nil_iff]
            rintro ⟨name, ds, c⟩ hp
            simp only [Bool.and_eq_true, Bool.not_eq_true', List.contains_eq_mem, decide_eq_false_iff_not, beq_iff_eq, not_and, not_not]
            intro hds'
            have hrk : r.1.keys.Nodup := by rw [c1]; exact hnodup
            obtain ⟨a, ha1, ha2⟩ := Dict.mapM_get? (f := fun p => parseArg m.dims p.1 p.2) c4 name (Dict.get?_of_mem hrk hp)
            rw [get?_nested] at ha1
            cases hnm : Dict.get? new name with
            | none => rw [hnm] at ha1; cases ha1
            | some v =>
              rw [hnm] at ha1
              cases ha1
              obtain ⟨c', _, hc'⟩ := parseArg_nested ha2
              cases hc'
              exact hattach name _ _ hnm hds'
          rw [this]; simp
        rw [hdims] at h
        have hsub : ∀ name, name ∈ coords.ents.keys → name ∈ m.ents.keys := by
          intro name hn
          unfold CM.dropCoords at hcoords
          split at hcoords
          · obtain ⟨rfl, _⟩ := CM.mk?_ok hcoords
            obtain ⟨p, hp, rfl⟩ := List.mem_map.1 hn
            exact List.mem_map_of_mem (List.mem_filter.1 hp).1
          · cases hcoords; exact hn
        set out := (CM.nested coords.ents).update (CM.nested new) with hout
        have hget : ∀ name, Dict.get? out name = Dict.get? (CM.nested new) name := by
          intro name
          rw [hout, Dict.get?_update _ _ hnodup]
          cases hx : Dict.get? (CM.nested new) name with
          | some v => rfl
          | none =>
            simp only [Option.none_or]
            rw [Dict.get?_eq_none] at hx ⊢
            rw [hnk] at hx
            rw [CM.nested_keys]
            exact fun hc => hx (hsub name hc)
        have houtk : out.keys.Nodup := by
          apply Dict.nodup_update
          rw [CM.nested_keys]
          have hw := (CM.dropCoords_wf hcoords hm.wf).1
          exact hw.names
        unfold getCoordManager at h
        simp only [bind, Except.bind] at h
        split at h
        · cases h
        · rename_i r2 hr2
          obtain ⟨d1, _, d3, d4⟩ := CM.coordDimMap_spec (e := r2.1) (dims' := r2.2) hr2 houtk
          have hr2k : r2.1.keys.Nodup := by rw [d1]; exact houtk
          have hdims2 : r2.2 = m.dims := by
            rw [d3]
            have : (r2.1.filter fun p => p.2.1 == [p.1] && !m.dims.contains p.1) = [] := by
              rw [List.filter_eq_nil_iff]
              rintro ⟨name, ds, c⟩ hp
              simp only [Bool.and_eq_true, Bool.not_eq_true', List.contains_eq_mem, decide_eq_false_iff_not, beq_iff_eq, not_and, not_not]
              intro hds'
              obtain ⟨a, ha1, ha2⟩ := Dict.mapM_get? (f := fun p => parseArg m.dims p.1 p.2) d4 name (Dict.get?_of_mem hr2k hp)
              rw [hget, get?_nested] at ha1
              cases hnm : Dict.get? new name with
              | none => rw [hnm] at ha1; cases ha1
              | some v =>
                rw [hnm] at ha1
                cases ha1
                obtain ⟨c', _, hc'⟩ := parseArg_nested ha2
                cases hc'
                exact hattach name _ _ hnm hds'
            rw [this]; simp
          obtain ⟨rfl, _⟩ := CM.mk?_ok h
          refine ⟨hdims2, ?_, ?_⟩
          · intro name
            simp only
            rw [Dict.get?_eq_none, Dict.get?_eq_none, d1, ← Dict.get?_eq_none, hget, Dict.get?_eq_none, hnk]
          · intro name ds c hn
            obtain ⟨v, hv1, hv2⟩ := mapM_get?' (f := fun p => parseArg m.dims p.1 p.2) d4 name (a := .nested ds c)
              (by rw [hget, get?_nested, hn]; rfl)
            obtain ⟨c', hc1, hc2⟩ := parseArg_nested hv2
            subst hc2
            exact ⟨c', hc1, hv1⟩

/-! ### Passing through `get_coord` again -/

theorem getCoordData_wf {k : Kind} {l : List ℚ} {d : Coord} (h : getCoordData k l = .ok d) : d.Wf := by
  cases hl : l with
  | nil => subst hl; cases h; trivial
  | cons a r =>
    rcases C14_declared_partial k l (by simp [hl]) with ⟨d', h1, h2, _⟩ | ⟨_, h1, _⟩
    · rw [h] at h1; cases h1; exact h2
    · rw [h] at h1; cases h1

theorem canon_one {k : Kind} {c : Coord} {x : MCoord} (h : (MCoord.one k c).canon = .ok x) :
    ∃ d, x = .one k d ∧ (Storable c.vals → d.labels = c.labels) ∧ ((∀ r, c = .range r → r.Valid) → d.Wf) := by
  cases c with
  | range r => cases h; exact ⟨_, rfl, fun _ => rfl, fun hv => hv r rfl⟩
  | part n => cases h; exact ⟨_, rfl, fun _ => rfl, fun _ => trivial⟩
  | mono vs =>
    obtain ⟨d, h1, h2⟩ := except_map_ok h
    exact ⟨d, h2.symm, fun hs => getCoordData_labels hs h1, fun _ => getCoordData_wf h1⟩
  | arr vs =>
    obtain ⟨d, h1, h2⟩ := except_map_ok h
    exact ⟨d, h2.symm, fun hs => getCoordData_labels hs h1, fun _ => getCoordData_wf h1⟩

theorem storable_range {r : RangeCoord} (hv : r.Valid) : Storable r.values := by
  rw [hv.values_eq]
  exact Or.inr (Or.inl ⟨_, _, _, hv.step_ne, rfl⟩)

end Verif
