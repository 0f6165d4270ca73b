import Verif.Spec.Arith
import Verif.Proof.Squeeze
import Verif.Proof.Dasdae
import Verif.Props.PatchShape
import Verif.Props.CoordArray
/-! # Lemmas: arithmetic between patches -/
namespace Verif
open Spec

theorem getCoordData_not_part {k : Kind} {l : List ℚ} {d : Coord} (hl : l ≠ []) (h : getCoordData k l = .ok d) : ∀ n, d ≠ .part n := by
  intro n hn
  subst hn
  match l, hl, h with
  | [x], _, h => cases h
  | x :: y :: l, _, h =>
    rcases getCoordData_cases k (l := x :: y :: l) (by simp) none with ⟨h1, _⟩ | ⟨h1, _⟩ | ⟨_, _, d, _, h1 | h1⟩
    · rw [h] at h1; cases h1
    · rw [h] at h1; cases h1
    · rw [h] at h1; cases h1
    · rw [h] at h1; cases h1.2

/-- The coordinate `c'` is what a manager makes of `c`. -/
def Stored (c c' : MCoord) : Prop :=
  (∃ b, c = .nd b ∧ c' = .nd b) ∨ ∃ k x x', c = .one k x ∧ c' = .one k x' ∧ x'.Wf ∧ x'.length = x.length ∧
    ((∃ n, x = .part n) ↔ ∃ n, x' = .part n) ∧ (Storable x.vals → x'.labels = x.labels ∧ Storable x'.vals)

theorem stored_refl {c : MCoord} (hw : ∀ k x, c = .one k x → x.Wf) : Stored c c := by
  cases c with
  | nd b => exact Or.inl ⟨b, rfl, rfl⟩
  | one k x => exact Or.inr ⟨k, x, x, rfl, rfl, hw k x rfl, rfl, Iff.rfl, fun h => ⟨rfl, h⟩⟩

theorem vals_of_labels {x x' : Coord} (hw : ∀ n, x ≠ .part n) (hw' : ∀ n, x' ≠ .part n) (h : x'.labels = x.labels) : x'.vals = x.vals := by
  have h1 : x.labels = x.vals.map some := by
    cases x with
    | part n => exact absurd rfl (hw n)
    | _ => rfl
  have h2 : x'.labels = x'.vals.map some := by
    cases x' with
    | part n => exact absurd rfl (hw' n)
    | _ => rfl
  rw [h1, h2] at h
  exact List.map_injective_iff.2 (Option.some_injective _) h

theorem canon_stored {c c' : MCoord} (hw : ∀ k x, c = .one k x → x.Wf) (h : c.canon = .ok c') : Stored c c' := by
  cases c with
  | nd b => cases h; exact Or.inl ⟨b, rfl, rfl⟩
  | one k x =>
    have hx := hw k x rfl
    obtain ⟨d, rfl, h2, h3⟩ := canon_one h
    have hl : d.length = x.length := by
      have := canon_length h
      simpa [MCoord.shape, MCoord.arr] using this
    have hd : d.Wf := h3 fun r hr => by subst hr; exact hx
    have hp : (∃ n, x = .part n) ↔ ∃ n, d = .part n := by
      cases x with
      | part n => cases h; exact ⟨fun _ => ⟨n, rfl⟩, fun _ => ⟨n, rfl⟩⟩
      | range r => cases h; exact Iff.rfl
      | mono vs =>
        obtain ⟨e, h4, h5⟩ := except_map_ok h
        cases h5
        refine ⟨fun ⟨n, hn⟩ => (by cases hn), fun ⟨n, hn⟩ => absurd hn (getCoordData_not_part hx.2 h4 n)⟩
      | arr vs =>
        obtain ⟨e, h4, h5⟩ := except_map_ok h
        cases h5
        refine ⟨fun ⟨n, hn⟩ => (by cases hn), fun ⟨n, hn⟩ => absurd hn (getCoordData_not_part hx h4 n)⟩
    refine Or.inr ⟨k, x, d, rfl, rfl, hd, hl, hp, fun hs => ⟨h2 hs, ?_⟩⟩
    by_cases hpx : ∃ n, x = .part n
    · obtain ⟨n, hn⟩ := hp.1 hpx
      subst hn
      exact Or.inl (by simp [Coord.vals])
    · have hpd : ¬ ∃ n, d = .part n := fun h => hpx (hp.2 h)
      rw [vals_of_labels (fun n hn => hpx ⟨n, hn⟩) (fun n hn => hpd ⟨n, hn⟩) (h2 hs)]
      exact hs

theorem Stored.trans {a b c : MCoord} (h : Stored a b) (h' : Stored b c) : Stored a c := by
  rcases h with ⟨x, rfl, rfl⟩ | ⟨k, x, x', rfl, rfl, h1, h2, h3, h4⟩
  · rcases h' with ⟨y, h5, rfl⟩ | ⟨k, x, x', h5, _⟩
    · cases h5; exact Or.inl ⟨_, rfl, rfl⟩
    · cases h5
  · rcases h' with ⟨y, h5, rfl⟩ | ⟨k', y, y', h5, rfl, g1, g2, g3, g4⟩
    · cases h5
    · cases h5
      refine Or.inr ⟨k, x, y', rfl, rfl, g1, g2.trans h2, h3.trans g3, fun hs => ?_⟩
      obtain ⟨e1, e2⟩ := h4 hs
      obtain ⟨e3, e4⟩ := g4 e2
      exact ⟨e3.trans e1, e4⟩

theorem Stored.same {a b : MCoord} (h : Stored a b) : SameValues a b := by
  rcases h with ⟨x, rfl, rfl⟩ | ⟨k, x, x', rfl, rfl, h1, h2, h3, h4⟩
  · exact ⟨rfl, fun _ => rfl⟩
  · refine ⟨by rw [one_shape, one_shape, h2], fun hs => ?_⟩
    show (⟨[x'.length], fun i => x'.labels.getD (i.getD 0 0) none⟩ : Nd (Option ℚ)) = ⟨[x.length], fun i => x.labels.getD (i.getD 0 0) none⟩
    rw [(h4 (hs k x rfl)).1, h2]

theorem Stored.partial {a b : MCoord} (h : Stored a b) : b.isPartial = a.isPartial := by
  rcases h with ⟨x, rfl, rfl⟩ | ⟨k, x, x', rfl, rfl, h1, h2, h3, h4⟩
  · rfl
  · have key : ∀ (y : Coord), (MCoord.one k y).isPartial = true ↔ ∃ n, y = .part n := by
      intro y
      cases y <;> simp [MCoord.isPartial]
    rw [Bool.eq_iff_iff, key, key]
    exact h3.symm

theorem Stored.wf {a b : MCoord} (h : Stored a b) : ∀ k x, b = .one k x → x.Wf := by
  rintro k x rfl
  rcases h with ⟨y, _, h⟩ | ⟨k', y, y', _, h, h1, _⟩
  · cases h
  · cases h; exact h1

/-- `p'` is `p` laid out along the dimensions `D`, at the positions `red`. -/
structure Lay {α} (p p' : PatchM α) (D : List String) (red : String → List ℕ) : Prop where
  wf : WellFormed p'.cm
  dims : p'.cm.dims = D
  csh : p'.cm.shape = p'.data.shape
  shape : p'.data.shape = D.map fun d => (red d).length
  bound : ∀ d ∈ p.cm.dims, ∀ j ∈ red d, j < lenDim p.cm d
  new : ∀ d ∈ D, d ∉ p.cm.dims → red d = [0] ∧ p'.cm.ents.get? d = some ([d], .one .float (.part 1))
  own : ∀ d ∈ p.cm.dims, ∀ k c, p.cm.ents.get? d = some ([d], .one k c) →
    ∃ c', p'.cm.ents.get? d = some ([d], .one k c') ∧ c'.Wf ∧ Storable c'.vals ∧ c'.labels = takeIdx c.labels (red d)
  data : ∀ i, InRange p'.data.shape i →
    p'.data.get i = p.data.get (p.cm.dims.map fun d => (red d).getD (i.getD (D.idxOf d) 0) 0)
  keys : ∀ name ∈ p'.cm.ents.keys, name ∈ p.cm.ents.keys ∨ name ∈ D
  extra : ∀ name ds c, p.cm.ents.get? name = some (ds, c) → name ∉ p.cm.dims → (∀ d ∈ ds, (red d).length = lenDim p.cm d) →
    ∃ c', p'.cm.ents.get? name = some (ds, c') ∧ Stored c c'

theorem shape_lenOf {m : CM} {sh : List ℕ} (hd : m.dims ≠ []) (hsh : m.shape = sh) : sh = m.dims.map m.ents.lenOf := by
  rw [← hsh]; unfold CM.shape; rw [if_neg hd]

theorem nodup_update {α} {p : PatchM α} {i : List ℕ} (hn : p.cm.dims.Nodup) (hi : i.length = p.cm.dims.length) :
    (p.cm.dims.map fun d => i.getD (p.cm.dims.idxOf d) 0) = i := map_posAlong hn hi

theorem lay_self {α} {p : PatchM α} (hm : Regular p.cm) (hd : p.cm.dims ≠ []) (hsh : p.cm.shape = p.data.shape)
    (hs : ∀ d k c, d ∈ p.cm.dims → p.cm.ents.get? d = some ([d], .one k c) → Storable c.vals) :
    Lay p p p.cm.dims fun d => List.range (lenDim p.cm d) := by
  have hshape := shape_lenOf hd hsh
  refine ⟨hm.wf, rfl, hsh, by rw [hshape]; simp [lenDim], fun d _ j hj => List.mem_range.1 hj, fun d h1 h2 => absurd h1 h2, ?_, ?_,
    fun n h => Or.inl h, fun name ds c h _ _ => ⟨c, h, stored_refl ?_⟩⟩
  · intro d hdd k c hc
    have hw := hm.classes _ _ _ _ (Dict.mem_of_get? hc)
    refine ⟨c, hc, hw, hs d k c hdd hc, ?_⟩
    have h1 := (dim_one hm hdd hc).2
    have h2 := labels_length hw
    unfold lenDim
    rw [← h1, ← h2, takeIdx_range_self]
  · intro i hi
    congr 1
    rw [hshape] at hi
    have : (p.cm.dims.map fun d => (List.range (lenDim p.cm d)).getD (i.getD (p.cm.dims.idxOf d) 0) 0) = p.cm.dims.map fun d => i.getD (p.cm.dims.idxOf d) 0 := by
      refine List.map_congr_left fun d hdd => ?_
      have h1 := inRange_getD hi hdd
      rw [List.getD_eq_getElem?_getD, List.getElem?_range (by exact h1)]
      rfl
    rw [this, nodup_update hm.distinct (by simpa using inRange_length hi)]
  · rintro k x rfl
    exact hm.classes _ _ _ _ (Dict.mem_of_get? h)

theorem matches_mono {dims dims' : List String} {s : String} (hd : dims ≠ []) (h : ∀ d ∈ dims, d ∈ dims')
    (hs : matchesPrefixSuffix dims' s = false) : matchesPrefixSuffix dims s = false := by
  have hd' : dims' ≠ [] := by
    intro h0
    obtain ⟨d, hdd⟩ := List.exists_mem_of_ne_nil _ hd
    have := h d hdd
    rw [h0] at this; cases this
  unfold matchesPrefixSuffix at hs ⊢
  simp only at hs ⊢
  have e1 : dims.isEmpty = false := by simpa using hd
  have e2 : dims'.isEmpty = false := by simpa using hd'
  rw [e2] at hs
  rw [e1]
  simp only [Bool.false_eq_true, if_false] at hs ⊢
  rw [List.any_eq_false] at hs ⊢
  exact fun d hdd => hs d (h d hdd)

theorem map_idx_take {l l' : List String} (hn : l.Nodup) {i : List ℕ} (hi : l.length ≤ i.length) :
    (l.map fun d => i.getD ((l ++ l').idxOf d) 0) = i.take l.length := by
  apply List.ext_getElem
  · simp [hi]
  · intro j h1 h2
    have hj : j < l.length := by simpa using h1
    rw [List.getElem_map, List.getElem_take, List.idxOf_append_of_mem (List.getElem_mem hj), hn.idxOf_getElem j hj,
      List.getD_eq_getElem?_getD, List.getElem?_eq_getElem (by omega)]
    rfl

/-- Appending dimensions with one sample each. -/
structure Appended {α} (p q : PatchM α) (new : List String) : Prop where
  wf : WellFormed q.cm
  distinct : DistinctDims q.cm
  dims : q.cm.dims = p.cm.dims ++ new
  shape : q.cm.shape = q.data.shape
  old : ∀ name ds c, p.cm.ents.get? name = some (ds, c) → ∃ c', q.cm.ents.get? name = some (ds, c') ∧ Stored c c'
  fresh : ∀ d ∈ new, q.cm.ents.get? d = some ([d], .one .float (.part 1))
  keys : ∀ name ∈ q.cm.ents.keys, name ∈ p.cm.ents.keys ∨ name ∈ new
  data : ∀ i, InRange q.data.shape i → q.data.get i = p.data.get (p.cm.dims.map fun d => i.getD (q.cm.dims.idxOf d) 0)

theorem appendDims_appended {α} {p q : PatchM α} (hm : Regular p.cm) (hd : p.cm.dims ≠ []) (hsh : p.cm.shape = p.data.shape)
    {D : List String} (hD : D.Nodup) (hfresh : ∀ d ∈ D, d ∉ p.cm.dims → p.cm.ents.get? d = none)
    (hplain : ∀ d ∈ D, matchesPrefixSuffix p.cm.dims d = false)
    (h : p.appendDims (D.map fun d => (d, MCoord.one .float (.part 1))) = .ok q) :
    Appended p q (D.filter fun d => d ∉ p.cm.dims) := by
  have hshape := shape_lenOf hd hsh
  set new := D.filter fun d => d ∉ p.cm.dims with hnew
  have hnewm : ∀ d ∈ new, d ∈ D ∧ d ∉ p.cm.dims := by
    intro d hdd
    rw [hnew, List.mem_filter] at hdd
    exact ⟨hdd.1, by simpa using hdd.2⟩
  have hcls : ∀ name ds c, p.cm.ents.get? name = some (ds, c) → ∀ k x, c = MCoord.one k x → x.Wf := by
    rintro name ds c hn k x rfl
    exact hm.classes _ _ _ _ (Dict.mem_of_get? hn)
  unfold PatchM.appendDims at h
  have hf : (D.map fun d => (d, MCoord.one .float (.part 1))).filter (fun q => !p.cm.dims.contains q.1) =
      new.map fun d => (d, MCoord.one .float (.part 1)) := by
    rw [hnew, List.filter_map]
    congr 1
    refine List.filter_congr fun d _ => ?_
    simp
  simp only [hf] at h
  split at h
  · rename_i he
    cases h
    have h0 : new = [] := by simpa using he
    rw [h0]
    refine ⟨hm.wf, hm.distinct, by simp, hsh, fun name ds c hn => ⟨c, hn, stored_refl (hcls name ds c hn)⟩, by simp,
      fun n h => Or.inl h, ?_⟩
    intro i hi
    rw [hshape] at hi
    rw [nodup_update hm.distinct (by simpa using inRange_length hi)]
  · simp only [bind, Except.bind] at h
    split at h
    · cases h
    rename_i cm hcm
    obtain ⟨rfl, hs⟩ := new_ok h
    have hkw : ((new.map fun d => (d, MCoord.one .float (.part 1))).map fun q => (q.1, CArg.nested [q.1] q.2)) =
        new.map fun d => (d, CArg.nested [d] (.one .float (.part 1))) := by
      rw [List.map_map]; rfl
    rw [hkw] at hcm
    set kw : Dict CArg := new.map fun d => (d, CArg.nested [d] (.one .float (.part 1))) with hkw'
    have hkk : Dict.keys kw = new := by rw [hkw']; simp [Dict.keys, Function.comp_def]
    have hkn : (Dict.keys kw).Nodup := by rw [hkk]; exact hD.filter _
    have hget : ∀ d ∈ new, Dict.get? kw d = some (CArg.nested [d] (.one .float (.part 1))) := by
      intro d hdd
      refine Dict.get?_of_mem hkn ?_
      rw [hkw']
      exact List.mem_map.2 ⟨d, hdd, rfl⟩
    have hgetn : ∀ d, d ∉ new → Dict.get? kw d = none := by
      intro d hdd
      rw [Dict.get?_eq_none, hkk]; exact hdd
    have hU := update_spec hm.wf hkn (fun n hn => hplain n (hnewm n (hkk ▸ hn)).1) hcm
    have hwf := CM.update_wf hcm hm.wf hkn
    have hdn : dropNames kw = [] := by
      unfold dropNames
      rw [List.map_eq_nil_iff, List.filter_eq_nil_iff]
      intro r hr
      rw [hkw'] at hr
      obtain ⟨d, _, rfl⟩ := List.mem_map.1 hr
      simp [CArg.isDrop]
    have hdims : cm.dims = p.cm.dims ++ new := by
      rw [hU.dims, hdn]
      have : (kw.filter fun q => ((argOf q.1 q.2).map Prod.fst == some [q.1]) && !p.cm.dims.contains q.1) = kw := by
        rw [List.filter_eq_self]
        intro r hr
        rw [hkw'] at hr
        obtain ⟨d, hdd, rfl⟩ := List.mem_map.1 hr
        simp [argOf, (hnewm d hdd).2]
      rw [this, hkw']
      simp [Function.comp_def]
    have hres : ∀ e, ¬ Resized p.cm kw e := by
      rintro e ⟨h1, a', ds, c1, ds', c2, h2, h3, h4, h5⟩
      have : e ∈ new := by rw [← hkk]; exact Dict.mem_keys.2 ⟨_, h2⟩
      exact (hnewm e this).2 h1
    have hold : ∀ name ds c, p.cm.ents.get? name = some (ds, c) → name ∉ new := by
      intro name ds c hn hc
      rw [hfresh name (hnewm name hc).1 (hnewm name hc).2] at hn; cases hn
    refine ⟨hwf.1, hwf.2 hm.distinct, hdims, hs, ?_, ?_, ?_, ?_⟩
    · intro name ds c hn
      obtain ⟨x, h1, h2⟩ := hU.keptC name ds c (hgetn name (hold name ds c hn)) hn fun e _ => ⟨by simp [hdn], hres e⟩
      exact ⟨x, h2, canon_stored (hcls name ds c hn) h1⟩
    · intro d hdd
      obtain ⟨x, h1, h2⟩ := hU.givenC d _ [d] (.one .float (.part 1)) (hget d hdd) rfl
      cases h1
      exact h2
    · intro name hn
      by_contra hc
      push Not at hc
      obtain ⟨v, hv⟩ := Dict.mem_keys.1 hn
      rw [hU.none name (hgetn name hc.2) (Dict.get?_eq_none.2 hc.1)] at hv
      cases hv
    · intro i hi
      show p.data.get (i.take p.data.shape.length) = _
      have hi' : InRange (p.data.shape ++ _) i := hi
      have hl := inRange_length hi'
      have hle : p.cm.dims.length ≤ i.length := by
        rw [hl, hshape]; simp
      simp only [hdims]
      rw [map_idx_take hm.distinct hle, hshape]
      simp

theorem spread_lay {α} {p p' : PatchM α} (hm : Regular p.cm) (hd : p.cm.dims ≠ []) (hsh : p.cm.shape = p.data.shape)
    (hs : ∀ d k c, d ∈ p.cm.dims → p.cm.ents.get? d = some ([d], .one k c) → Storable c.vals)
    {D : List String} (hD : D.Nodup) (hsub : ∀ d ∈ p.cm.dims, d ∈ D) (hfresh : ∀ d ∈ D, d ∉ p.cm.dims → p.cm.ents.get? d = none)
    (hplain : ∀ d ∈ D, matchesPrefixSuffix p.cm.dims d = false) (h : p.spread D = .ok p') :
    Lay p p' D (fun d => if d ∈ p.cm.dims then List.range (lenDim p.cm d) else [0]) := by
  unfold PatchM.spread at h
  simp only [bind, Except.bind] at h
  split at h
  · cases h
  rename_i q hq
  have hA := appendDims_appended hm hd hsh hD hfresh hplain hq
  have hqd : q.cm.dims ≠ [] := by rw [hA.dims]; simp [hd]
  obtain ⟨t1, t2, t3, t4, t5, t6⟩ := transpose_data hA.wf hA.distinct hqd hA.shape h
  have hDne : D ≠ [] := by
    intro h0
    obtain ⟨d, hdd⟩ := List.exists_mem_of_ne_nil _ hd
    have := hsub d hdd
    rw [h0] at this; cases this
  have hreq := ((C18_dims q hA.wf hA.distinct hqd hA.shape (D.map .dim) p'.cm.dims).1 ⟨p', h, rfl⟩).1
  have hdims : p'.cm.dims = D := by
    rcases hreq with ⟨h1, _⟩ | ⟨_, h1⟩ | ⟨a, b, h1, _⟩
    · simp [hDne] at h1
    · exact (List.map_injective_iff.2 (fun x y hxy => by injection hxy) h1).symm
    · have : CM.TDim.dots ∈ D.map CM.TDim.dim := by rw [h1]; simp
      simp at this
  have hents : p'.cm.ents = q.cm.ents := by rw [t2]
  have hwf' : WellFormed p'.cm := by
    have : p'.cm = ⟨p'.cm.dims, q.cm.ents⟩ := t2
    rw [this]
    exact ⟨hA.wf.names, fun d hdd => hA.wf.own d (t1.mem_iff.1 hdd), fun name ds c h1 d hdd => t1.mem_iff.2 (hA.wf.attached name ds c h1 d hdd),
      hA.wf.shapes⟩
  have hlenq : ∀ d ∈ D, q.cm.ents.lenOf d = (if d ∈ p.cm.dims then List.range (lenDim p.cm d) else [0]).length := by
    intro d hdd
    by_cases hp : d ∈ p.cm.dims
    · rw [if_pos hp, List.length_range]
      obtain ⟨c, n, h1, h2, h3⟩ := CM.WellFormed.get_dim hm.wf hp
      obtain ⟨c', h4, h5⟩ := hA.old d _ _ h1
      unfold lenDim Ents.lenOf
      rw [h1, h4]
      exact SameValues.len h5.same
    · rw [if_neg hp]
      have := hA.fresh d (List.mem_filter.2 ⟨hdd, by simpa using hp⟩)
      unfold Ents.lenOf
      rw [this]; rfl
  refine ⟨hwf', hdims, t4, ?_, ?_, ?_, ?_, ?_, ?_, ?_⟩
  · rw [t3, hdims]
    exact List.map_congr_left hlenq
  · intro d hdd j hj
    rw [if_pos hdd] at hj
    exact List.mem_range.1 hj
  · intro d hdd hp
    rw [if_neg hp, hents]
    exact ⟨rfl, hA.fresh d (List.mem_filter.2 ⟨hdd, by simpa using hp⟩)⟩
  · intro d hdd k c hc
    obtain ⟨c', h4, h5⟩ := hA.old d _ _ hc
    rcases h5 with ⟨b, h6, _⟩ | ⟨k', x, x', h6, h7, g1, g2, g3, g4⟩
    · cases h6
    · cases h6
      subst h7
      obtain ⟨g5, g6⟩ := g4 (hs d k c hdd hc)
      rw [hents]
      refine ⟨x', h4, g1, g6, ?_⟩
      rw [if_pos hdd, g5]
      have h1 := (dim_one hm hdd hc).2
      have h2 := labels_length (hm.classes _ _ _ _ (Dict.mem_of_get? hc))
      unfold lenDim
      rw [← h1, ← h2, takeIdx_range_self]
  · intro i hi
    rw [t6, hdims]
    rw [t3, hdims] at hi
    have hi' : InRange q.data.shape (untranspose q.cm.dims D i) := by
      rw [t5]
      exact inRange_map fun d hdd => inRange_getD hi (by rw [← hdims]; exact t1.mem_iff.2 hdd)
    rw [hA.data _ hi']
    congr 1
    refine List.map_congr_left fun d hdd => ?_
    have hdq : d ∈ q.cm.dims := by rw [hA.dims]; simp [hdd]
    rw [untranspose_getD hdq, if_pos hdd]
    have hlt := inRange_getD hi (hsub d hdd)
    rw [hlenq d (hsub d hdd), if_pos hdd, List.length_range] at hlt
    rw [List.getD_eq_getElem?_getD (l := List.range _), List.getElem?_range hlt]
    rfl
  · intro name hn
    rw [hents] at hn
    rcases hA.keys name hn with h1 | h1
    · exact Or.inl h1
    · exact Or.inr (List.mem_filter.1 h1).1
  · intro name ds c hn _ _
    rw [hents]
    exact hA.old name ds c hn

theorem Lay.lens {α} {p p' : PatchM α} {D : List String} {red : String → List ℕ} (h : Lay p p' D red) {d : String} (hd : d ∈ D) :
    lenDim p'.cm d = (red d).length := by
  have hne : p'.cm.dims ≠ [] := by rw [h.dims]; exact List.ne_nil_of_mem hd
  have h1 := shape_lenOf hne h.csh
  rw [h.shape, h.dims] at h1
  exact (List.map_inj_left.1 h1 d hd).symm

theorem canon_labels {k : Kind} {c : Coord} {x : MCoord} (h : (MCoord.one k c).canon = .ok x) (hs : Storable c.vals)
    (hv : ∀ r, c = .range r → r.Valid) : ∃ d, x = .one k d ∧ d.Wf ∧ d.labels = c.labels ∧ Storable d.vals := by
  obtain ⟨d, rfl, h2, h3⟩ := canon_one h
  refine ⟨d, rfl, h3 hv, h2 hs, ?_⟩
  by_cases hp : ∃ n, d = .part n
  · obtain ⟨n, rfl⟩ := hp
    exact Or.inl (by simp [Coord.vals])
  · by_cases hc : ∃ n, c = .part n
    · obtain ⟨n, rfl⟩ := hc
      cases h
      exact absurd ⟨n, rfl⟩ hp
    · rw [vals_of_labels (fun n hn => hc ⟨n, hn⟩) (fun n hn => hp ⟨n, hn⟩) (h2 hs)]
      exact hs

theorem applyUnion_map {α} {a b : Nd α} {dims : List String} {f : String → ℕ} {x : String → Indexer} {red : String → List ℕ}
    (hs : a.shape = dims.map f) (hx : ∀ d ∈ dims, (x d).positions (f d) = .ok (red d)) (h : applyUnion (dims.map x) a = .ok b) :
    b.shape = (dims.map fun d => (red d).length) ∧ ∀ i, InRange b.shape i → b.get i = a.get (origin dims red i) := by
  have hm : ((dims.map x).zip a.shape).mapM (fun p => p.1.positions p.2) = .ok (dims.map red) := by
    rw [hs, List.zip_map', List.mapM_map]
    apply mapM_ok'
    intro d hd
    exact hx d hd
  obtain ⟨b', h1, h2, h3⟩ := (applyUnion_spec (dims.map x) a (by rw [hs]; simp)).1 _ hm
  rw [h] at h1; cases h1
  exact ⟨by rw [h2, List.map_map]; rfl, h3⟩

theorem realign_lay {α} {p p' p'' : PatchM α} (hm : Regular p.cm) {D : List String}
    (hsub : ∀ d ∈ p.cm.dims, d ∈ D) (hplain : ∀ d ∈ D, matchesPrefixSuffix D d = false)
    (hL : Lay p p' D (fun d => if d ∈ p.cm.dims then List.range (lenDim p.cm d) else [0]))
    {new : Dict (MCoord × Indexer)} {ps : String → List ℕ} (hn : new.keys.Nodup)
    (hnew : ∀ d mc x, new.get? d = some (mc, x) → d ∈ p.cm.dims ∧ ∃ k c c1, p'.cm.ents.get? d = some ([d], .one k c) ∧ c.Wf ∧ mc = .one k c1 ∧
      x.positions (lenDim p'.cm d) = .ok (ps d) ∧ c1.labels = takeIdx c.labels (ps d) ∧ Storable c1.vals ∧ (∀ r, c1 = .range r → r.Valid))
    (hps : ∀ d ∈ D, new.get? d = none → ps d = List.range (lenDim p'.cm d)) (h : p'.realign new = .ok p'') : Lay p p'' D ps := by
  set full := fun d => if d ∈ p.cm.dims then List.range (lenDim p.cm d) else [0] with hfull
  unfold PatchM.realign at h
  simp only [bind, Except.bind] at h
  split at h
  · cases h
  rename_i cm hcm
  split at h
  · cases h
  rename_i a ha
  obtain ⟨rfl, hs⟩ := new_ok h
  set kw : Dict CArg := new.map fun q => (q.1, CArg.simple q.2.1) with hkw
  have hkk : Dict.keys kw = Dict.keys new := by rw [hkw]; simp [Dict.keys, Function.comp_def]
  have hget : ∀ name, Dict.get? kw name = (Dict.get? new name).map fun v => CArg.simple v.1 := by
    intro name
    rw [hkw]
    exact Dict.get?_map_val new (fun _ v => CArg.simple v.1) name
  have hkD : ∀ n ∈ Dict.keys new, n ∈ p.cm.dims := by
    intro n hnn
    obtain ⟨v, hv⟩ := Dict.mem_keys.1 hnn
    exact (hnew n v.1 v.2 hv).1
  have hU := update_spec hL.wf (by rw [hkk]; exact hn) (fun n hnn => by rw [hL.dims]; exact hplain n (hsub n (hkD n (hkk ▸ hnn)))) hcm
  have hwf := CM.update_wf hcm hL.wf (by rw [hkk]; exact hn)
  have hdn : dropNames kw = [] := by
    unfold dropNames
    rw [List.map_eq_nil_iff, List.filter_eq_nil_iff]
    intro r hr
    rw [hkw] at hr
    obtain ⟨r', _, rfl⟩ := List.mem_map.1 hr
    simp [CArg.isDrop]
  have hdims : cm.dims = D := by
    rw [hU.dims, hdn, hL.dims]
    have : (kw.filter fun q => ((argOf q.1 q.2).map Prod.fst == some [q.1]) && !D.contains q.1) = [] := by
      rw [List.filter_eq_nil_iff]
      intro r hr
      have := hsub _ (hkD r.1 (hkk ▸ List.mem_map_of_mem hr))
      simp [this]
    rw [this]; simp
  have hpos : ∀ d ∈ D, (((Dict.get? new d).map Prod.snd).getD (Indexer.slice {})).positions (lenDim p'.cm d) = .ok (ps d) := by
    intro d hdd
    cases hg : Dict.get? new d with
    | none => rw [hps d hdd hg]; exact slice_all_positions _
    | some v =>
      obtain ⟨_, k, c, c1, _, _, _, h3, _⟩ := hnew d v.1 v.2 hg
      exact h3
  have hsh' : p'.data.shape = D.map (lenDim p'.cm) := by
    rw [hL.shape]
    exact List.map_congr_left fun d hdd => (hL.lens hdd).symm
  rw [hL.dims] at ha
  obtain ⟨a1, a2⟩ := applyUnion_map (x := fun d => ((Dict.get? new d).map Prod.snd).getD (Indexer.slice {})) hsh' hpos ha
  have hfl : ∀ d ∈ D, lenDim p'.cm d = (full d).length := fun d hdd => hL.lens hdd
  have hfp : ∀ d ∈ p.cm.dims, lenDim p'.cm d = lenDim p.cm d := by
    intro d hdd
    rw [hfl d (hsub d hdd), hfull]
    simp [hdd]
  have hbnd : ∀ d ∈ D, ∀ j ∈ ps d, j < lenDim p'.cm d := fun d hdd => positions_lt (hpos d hdd)
  refine ⟨hwf.1, hdims, hs, a1, ?_, ?_, ?_, ?_, ?_, ?_⟩
  · intro d hdd j hj
    rw [← hfp d hdd]
    exact hbnd d (hsub d hdd) j hj
  · intro d hdd hp
    have hno : Dict.get? new d = none := by
      rw [Dict.get?_eq_none]
      exact fun hc => hp (hkD d hc)
    obtain ⟨n1, n2⟩ := hL.new d hdd hp
    refine ⟨?_, ?_⟩
    · rw [hps d hdd hno, hfl d hdd, n1]; rfl
    · obtain ⟨x, h1, h2⟩ := hU.keptC d [d] _ (by rw [hget, hno]; rfl) n2 (by
        intro e he
        rw [List.mem_singleton] at he
        subst he
        refine ⟨by simp [hdn], ?_⟩
        rintro ⟨_, a', ds, c1, ds', c2, g2, _⟩
        rw [hget, hno] at g2; cases g2)
      cases h1
      exact h2
  · intro d hdd k c hc
    obtain ⟨c', o1, o2, o3, o4⟩ := hL.own d hdd k c hc
    have hlab : c'.labels = c.labels := by
      rw [o4]
      simp only [hfull, if_pos hdd]
      have h1 := (dim_one hm hdd hc).2
      have h2 := labels_length (hm.classes _ _ _ _ (Dict.mem_of_get? hc))
      unfold lenDim
      rw [← h1, ← h2, takeIdx_range_self]
    cases hg : Dict.get? new d with
    | some v =>
      obtain ⟨_, k', c0, c1, g1, _, g2, g3, g4, g5, g6⟩ := hnew d v.1 v.2 hg
      rw [o1] at g1; cases g1
      obtain ⟨x, h1, h2⟩ := hU.givenC d (CArg.simple v.1) [d] v.1 (by rw [hget, hg]; rfl) rfl
      rw [g2] at h1
      obtain ⟨e, rfl, e2, e3, e4⟩ := canon_labels h1 g5 g6
      exact ⟨e, h2, e2, e4, by rw [e3, g4, hlab]⟩
    | none =>
      obtain ⟨x, h1, h2⟩ := hU.keptC d [d] _ (by rw [hget, hg]; rfl) o1 (by
        intro e he
        rw [List.mem_singleton] at he
        subst he
        refine ⟨by simp [hdn], ?_⟩
        rintro ⟨_, a', ds, c1, ds', c2, g2, _⟩
        rw [hget, hg] at g2; cases g2)
      obtain ⟨e, rfl, e2, e3, e4⟩ := canon_labels h1 o3 (fun r hr => by subst hr; exact o2)
      refine ⟨e, h2, e2, e4, ?_⟩
      rw [e3, hlab, hps d (hsub d hdd) hg, hfp d hdd]
      have h1 := (dim_one hm hdd hc).2
      have h2 := labels_length (hm.classes _ _ _ _ (Dict.mem_of_get? hc))
      unfold lenDim
      rw [← h1, ← h2, takeIdx_range_self]
  · intro i hi
    have hi' : InRange (D.map fun d => (ps d).length) i := by rw [← a1]; exact hi
    have hin : InRange p'.data.shape (origin D ps i) := by
      rw [hsh']
      exact origin_inRange hbnd hi'
    show a.get i = _
    rw [a2 i hi, hL.data _ hin]
    congr 1
    refine List.map_congr_left fun d hdd => ?_
    have hil : i.length = D.length := by simpa using inRange_length hi'
    rw [origin_getD (hsub d hdd) hil]
    have hlt := inRange_getD hi' (hsub d hdd)
    have hin' : lookup (ps d) (i.getD (D.idxOf d) 0) < lenDim p.cm d := by
      rw [← hfp d hdd]
      apply hbnd d (hsub d hdd)
      show (ps d).getD _ 0 ∈ ps d
      rw [List.getD_eq_getElem?_getD, List.getElem?_eq_getElem hlt]
      exact List.getElem_mem hlt
    simp only [hfull, if_pos hdd]
    rw [List.getD_eq_getElem?_getD (l := List.range _), List.getElem?_range hin']
    rfl
  · intro name hnn
    by_contra hc
    push Not at hc
    obtain ⟨v, hv⟩ := Dict.mem_keys.1 hnn
    have h1 : Dict.get? kw name = none := by
      rw [Dict.get?_eq_none, hkk]
      exact fun h => hc.2 (hsub _ (hkD name h))
    have h2 : p'.cm.ents.get? name = none := by
      rw [Dict.get?_eq_none]
      intro h3
      rcases hL.keys name h3 with h4 | h4
      · exact hc.1 h4
      · exact hc.2 h4
    rw [hU.none name h1 h2] at hv
    cases hv
  · intro name ds c hnm hnd hlen
    have hds : ∀ d ∈ ds, d ∈ p.cm.dims := fun d hdd => hm.wf.attached _ _ _ (Dict.mem_of_get? hnm) d hdd
    obtain ⟨c', h1, h2⟩ := hL.extra name ds c hnm hnd (fun d hdd => by simp only [hfull, if_pos (hds d hdd), List.length_range])
    have hno : Dict.get? kw name = none := by
      rw [Dict.get?_eq_none, hkk]
      exact fun h => hnd (hkD name h)
    obtain ⟨x, h3, h4⟩ := hU.keptC name ds c' hno h1 (by
      intro e he
      refine ⟨by simp [hdn], ?_⟩
      rintro ⟨_, a', ds', c1, ds'', c2, g2, g3, g4, g5⟩
      rw [hget] at g2
      obtain ⟨v, g6, rfl⟩ := Option.map_eq_some_iff.1 g2
      obtain ⟨_, k, c0, c1', g7, g13, g8, g9, g10, g11, g12⟩ := hnew e v.1 v.2 g6
      cases g3
      rw [g4] at g7
      cases g7
      apply g5
      rw [g8]
      show c1'.length = c0.length
      have e1 := hlen e he
      have heD := hsub e (hds e he)
      have hl0 : c0.length = lenDim p'.cm e := by
        obtain ⟨cc, n, hcc, hshp, hl⟩ := CM.WellFormed.get_dim hL.wf (d := e) (by rw [hL.dims]; exact heD)
        rw [g4] at hcc
        cases hcc
        unfold lenDim
        rw [hl]
        simpa [one_shape] using hshp
      rw [← labels_length' g12, g10, takeIdx_length, e1, hl0, hfp e (hds e he)]
      intro j hj
      rw [labels_length g13, hl0]
      exact hbnd e heD j hj)
    exact ⟨x, h4, h2.trans (canon_stored h2.wf h3)⟩

/-- The position used in an axis of length `n`. -/
def clipped (n t : ℕ) : ℕ := if n = 1 then 0 else t

theorem clip_getD {D : List String} {f : String → ℕ} {i : List ℕ} (hi : i.length = D.length) {d : String} (hd : d ∈ D) :
    (Nd.clip (D.map f) i).getD (D.idxOf d) 0 = clipped (f d) (i.getD (D.idxOf d) 0) := by
  unfold Nd.clip
  have h1 := List.idxOf_lt_length_of_mem hd
  have h2 : D.idxOf d < i.length := by omega
  rw [List.getD_eq_getElem?_getD, List.getElem?_zipWith, List.getElem?_map, List.getElem?_eq_getElem h1, List.getElem?_eq_getElem h2]
  simp [clipped, List.getD_eq_getElem?_getD, List.getElem?_eq_getElem h2]

theorem clip_inRange {sh : List ℕ} : ∀ {i : List ℕ}, i.length = sh.length → (∀ (k n t : ℕ), sh[k]? = some n → i[k]? = some t → n ≠ 1 → t < n) →
    InRange sh (Nd.clip sh i) := by
  induction sh with
  | nil => intro i hi _; exact .nil
  | cons n sh ih =>
    intro i hi h
    cases i with
    | nil => simp at hi
    | cons t i =>
      refine .cons ?_ (ih (by simpa using hi) fun k n t h1 h2 => h (k + 1) n t (by simpa using h1) (by simpa using h2))
      by_cases h1 : n = 1
      · simp [h1]
      · simp only [h1, if_false]; exact h 0 n t rfl rfl h1

theorem label_dim {α} {p : PatchM α} {d : String} {k : Kind} {c : Coord} (h : p.cm.ents.get? d = some ([d], .one k c)) (j : List ℕ) :
    label p d j = some (c.labels.getD (posAlong p d j) none) := by
  unfold label
  rw [h]
  rfl

theorem posAlong_map {α} {p : PatchM α} {d : String} (h : d ∈ p.cm.dims) (J : String → ℕ) : posAlong p d (p.cm.dims.map J) = J d := by
  unfold posAlong
  rw [List.getD_eq_getElem?_getD, List.getElem?_map, List.getElem?_eq_getElem (List.idxOf_lt_length_of_mem h)]
  simp

theorem label_none {α} {p : PatchM α} {d : String} {k : Kind} {c : Coord} (h : p.cm.ents.get? d = some ([d], .one k c)) {j : List ℕ} :
    label p d j = some none ↔ c.labels.getD (posAlong p d j) none = none := by
  rw [label_dim h, Option.some.injEq]

theorem label_some {α} {p : PatchM α} {d : String} {k : Kind} {c : Coord} (h : p.cm.ents.get? d = some ([d], .one k c)) {j : List ℕ} {v : ℚ} :
    label p d j = some (some v) ↔ c.labels.getD (posAlong p d j) none = some v := by
  rw [label_dim h, Option.some.injEq]

/-- One of the two patches and the result. -/
structure Side {α γ} (p : PatchM α) (r : PatchM γ) (D : List String) (P : String → List ℕ) : Prop where
  sub : ∀ d ∈ p.cm.dims, d ∈ D
  rdims : r.cm.dims = D
  len : ∀ d ∈ p.cm.dims, (P d).length ≠ 1 → lenDim r.cm d = (P d).length
  lab : ∀ d ∈ p.cm.dims, ∀ k c, p.cm.ents.get? d = some ([d], .one k c) → ∃ kz z, r.cm.ents.get? d = some ([d], .one kz z) ∧
    ∀ t < lenDim r.cm d, ∀ v, (takeIdx c.labels (P d)).getD (clipped (P d).length t) none = some v → z.labels.getD t none = some v
  nul : ∀ d ∈ p.cm.dims, ∀ k c, p.cm.ents.get? d = some ([d], .one k c) →
    (∃ t < (P d).length, (takeIdx c.labels (P d)).getD t none = none) → P d = List.range (lenDim p.cm d)

/-- Where the sample at `i` of the result comes from. -/
def sourceOf {α γ} (p : PatchM α) (r : PatchM γ) (P : String → List ℕ) (i : List ℕ) : List ℕ :=
  p.cm.dims.map fun d => (P d).getD (clipped (P d).length (posAlong r d i)) 0

theorem getD_mem {l : List ℕ} {t : ℕ} (h : t < l.length) : l.getD t 0 ∈ l := by
  rw [List.getD_eq_getElem?_getD, List.getElem?_eq_getElem h]
  exact List.getElem_mem h

theorem range_getD' {n t : ℕ} (h : t < n) : (List.range n).getD t 0 = t := by
  rw [List.getD_eq_getElem?_getD, List.getElem?_range h]; rfl

theorem side_stands {α γ} {p p'' : PatchM α} {r : PatchM γ} {D : List String} {P : String → List ℕ} (hm : Regular p.cm) (hl : DimsListed p.cm)
    (hd : p.cm.dims ≠ []) (hsh : p.cm.shape = p.data.shape) (hr : r.cm.shape = r.data.shape) (hL : Lay p p'' D P) (hS : Side p r D P)
    {i : List ℕ} (hi : InRange r.data.shape i) :
    InRange p.data.shape (sourceOf p r P i) ∧ Stands p r (sourceOf p r P i) i ∧
      (∀ d ∈ p.cm.dims, clipped (P d).length (posAlong r d i) < (P d).length ∧ posAlong r d i < lenDim r.cm d) ∧
      (∀ d ∈ p.cm.dims, ∀ k c, p.cm.ents.get? d = some ([d], .one k c) →
        label p d (sourceOf p r P i) = some ((takeIdx c.labels (P d)).getD (clipped (P d).length (posAlong r d i)) none)) := by
  have hshape := shape_lenOf hd hsh
  obtain ⟨d0, hd0⟩ := List.exists_mem_of_ne_nil _ hd
  have hrne : r.cm.dims ≠ [] := by rw [hS.rdims]; exact List.ne_nil_of_mem (hS.sub d0 hd0)
  have hrshape := shape_lenOf hrne hr
  rw [hrshape] at hi
  have hpos : ∀ d ∈ p.cm.dims, posAlong r d i < lenDim r.cm d := by
    intro d hdd
    exact inRange_getD hi (by rw [hS.rdims]; exact hS.sub d hdd)
  have hclip : ∀ d ∈ p.cm.dims, clipped (P d).length (posAlong r d i) < (P d).length := by
    intro d hdd
    unfold clipped
    split_ifs with h1
    · omega
    · rw [← hS.len d hdd h1]; exact hpos d hdd
  have hlabel : ∀ d ∈ p.cm.dims, ∀ k c, p.cm.ents.get? d = some ([d], .one k c) →
      label p d (sourceOf p r P i) = some ((takeIdx c.labels (P d)).getD (clipped (P d).length (posAlong r d i)) none) := by
    intro d hdd k c hc
    rw [label_dim hc]
    congr 1
    unfold sourceOf
    rw [posAlong_map hdd]
    refine (takeIdx_getD ?_ (hclip d hdd)).symm
    intro j hj
    rw [labels_length (hm.classes _ _ _ _ (Dict.mem_of_get? hc)), (dim_one hm hdd hc).2]
    exact hL.bound d hdd j hj
  refine ⟨?_, ?_, fun d hdd => ⟨hclip d hdd, hpos d hdd⟩, hlabel⟩
  · rw [hshape]
    exact inRange_map fun d hdd => hL.bound d hdd _ (getD_mem (hclip d hdd))
  · intro d hdd
    obtain ⟨k, c, hc⟩ := hl d hdd
    obtain ⟨kz, z, hz1, hz2⟩ := hS.lab d hdd k c hc
    refine ⟨?_, ?_⟩
    · intro v hv
      rw [hlabel d hdd k c hc, Option.some.injEq] at hv
      rw [label_some hz1]
      exact hz2 _ (hpos d hdd) v hv
    · intro hv
      rw [hlabel d hdd k c hc, Option.some.injEq] at hv
      have h1 := hS.nul d hdd k c hc ⟨_, hclip d hdd, hv⟩
      unfold sourceOf
      rw [posAlong_map hdd]
      have h2 := hclip d hdd
      rw [h1, List.length_range] at h2 ⊢
      rw [range_getD' h2]
      unfold clipped
      split_ifs with h3
      · exact Or.inr h3
      · exact Or.inl rfl

/-- The labels of a shared dimension and the positions taken from both patches. -/
inductive Glued (l l' : List (Option ℚ)) (P Q : List ℕ) : Prop where
  | valued : (∀ x ∈ l, x ≠ none) → (∀ x ∈ l', x ≠ none) → takeIdx l P = takeIdx l' Q →
      (∀ a b v, l[a]? = some (some v) → l'[b]? = some (some v) → ∃ t : ℕ, P[t]? = some a ∧ Q[t]? = some b) → Glued l l' P Q
  | null : ((∀ x ∈ l, x = none) ∨ (∀ x ∈ l', x = none)) → P = List.range l.length → Q = List.range l'.length → Glued l l' P Q

/-- The manager of the result. -/
structure Merged (m n cm : CM) : Prop where
  dims : cm.dims = m.dims
  eq : m.dims = n.dims
  own : ∀ d ∈ m.dims, ∀ k x k' y, m.ents.get? d = some ([d], .one k x) → n.ents.get? d = some ([d], .one k' y) →
    x.Wf → y.Wf → Storable x.vals → Storable y.vals →
    ∃ kz z, cm.ents.get? d = some ([d], .one kz z) ∧
      ((∀ e, x ≠ .part e) → z.labels = x.labels ∧ z.length = x.length) ∧ ((∃ e, x = .part e) → (∀ e, y ≠ .part e) → 0 < z.length → z.labels = y.labels ∧ z.length = y.length)
  extra : ∀ name ds c, m.ents.get? name = some (ds, c) → (∀ k x, c = .one k x → x.Wf) → (n.ents.get? name = none ∨ c.isPartial = false) →
    (∀ d ∈ ds, lenDim cm d = lenDim m d) → ∃ c', cm.ents.get? name = some (ds, c') ∧ Stored c c'
  none : ∀ name, m.ents.get? name = Option.none → cm.ents.get? name = Option.none

theorem isPartial_one {k : Kind} {x : Coord} : (MCoord.one k x).isPartial = true ↔ ∃ n, x = .part n := by
  cases x <;> simp [MCoord.isPartial]

theorem sharedEnts_get? {m n : CM} (hw : WellFormed m) (name : String) :
    Dict.get? (sharedEnts m n) name = (m.ents.get? name).bind fun e => (n.ents.get? name).map fun f => (e, f) := by
  unfold sharedEnts
  have := get?_filterMap_val (d := m.ents) (fun k e => (n.ents.get? k).map fun f => (e, f)) hw.names name
  rw [← this]
  congr 1
  refine List.filterMap_congr fun e _ => ?_
  cases n.ents.get? e.1 <;> rfl

theorem sharedEnts_nodup {m n : CM} (hw : WellFormed m) : (Dict.keys (sharedEnts m n)).Nodup := by
  have : List.Sublist (Dict.keys (sharedEnts m n)) (Dict.keys m.ents) := by
    unfold sharedEnts
    generalize m.ents = e
    induction e with
    | nil => exact .slnil
    | cons a e ih =>
      rw [List.filterMap_cons]
      cases n.ents.get? a.1 with
      | none => exact ih.cons _
      | some f => exact ih.cons_cons _
  exact this.nodup hw.names

theorem mergeAligned_spec {m n cm : CM} (hw : WellFormed m) (hplain : ∀ name ∈ m.ents.keys, matchesPrefixSuffix m.dims name = false)
    (h : mergeAligned m n = .ok cm) : Merged m n cm ∧ WellFormed cm := by
  unfold mergeAligned at h
  split at h
  · cases h
  rename_i hdims
  push Not at hdims
  simp only [bind, Except.bind] at h
  split at h
  · cases h
  rename_i out hout
  have hk : Dict.keys out = Dict.keys (sharedEnts m n) := Dict.mapM_keys hout
  have hkn : (Dict.keys out).Nodup := by rw [hk]; exact sharedEnts_nodup hw
  have hkey : ∀ name ∈ Dict.keys out, name ∈ m.ents.keys := by
    intro name hn
    rw [hk] at hn
    obtain ⟨v, hv⟩ := Dict.mem_keys.1 hn
    rw [sharedEnts_get? hw] at hv
    obtain ⟨e, he, _⟩ := Option.bind_eq_some_iff.1 hv
    exact Dict.mem_keys.2 ⟨_, he⟩
  have hU := update_spec hw hkn (fun name hn => hplain name (hkey name hn)) h
  have hwf := CM.update_wf h hw hkn
  have hget : ∀ name e f, m.ents.get? name = some e → n.ents.get? name = some f → ∃ a, Dict.get? out name = some a ∧ joinCoord e f = .ok a := by
    intro name e f he hf
    exact mapM_get?' hout name (a := (e, f)) (by rw [sharedEnts_get? hw, he, hf]; rfl)
  have hjoin : ∀ e f a, joinCoord e f = .ok a → ∃ z, a = .nested e.1 z := by
    intro e f a ha
    unfold joinCoord at ha
    split_ifs at ha <;> cases ha <;> exact ⟨_, rfl⟩
  have harg : ∀ name a, Dict.get? out name = some a → ∃ e f z, m.ents.get? name = some e ∧ n.ents.get? name = some f ∧ joinCoord e f = .ok a ∧
      a = .nested e.1 z := by
    intro name a ha
    obtain ⟨v, hv1, hv2⟩ := Dict.mapM_get? hout name ha
    rw [sharedEnts_get? hw] at hv1
    obtain ⟨e, he, h1⟩ := Option.bind_eq_some_iff.1 hv1
    obtain ⟨f, hf, rfl⟩ := Option.map_eq_some_iff.1 h1
    obtain ⟨z, hz⟩ := hjoin e f a hv2
    exact ⟨e, f, z, he, hf, hv2, hz⟩
  have hdn : dropNames out = [] := by
    unfold dropNames
    rw [List.map_eq_nil_iff, List.filter_eq_nil_iff]
    intro r hr
    obtain ⟨e, f, z, _, _, _, h4⟩ := harg r.1 r.2 (Dict.get?_of_mem hkn hr)
    rw [h4]
    simp [CArg.isDrop]
  have hcd : cm.dims = m.dims := by
    rw [hU.dims, hdn]
    have : (out.filter fun q => ((argOf q.1 q.2).map Prod.fst == some [q.1]) && !m.dims.contains q.1) = [] := by
      rw [List.filter_eq_nil_iff]
      intro r hr
      obtain ⟨e, f, z, h1, _, _, h4⟩ := harg r.1 r.2 (Dict.get?_of_mem hkn hr)
      rw [h4]
      by_cases h5 : e.1 = [r.1]
      · have := hw.attached r.1 e.1 e.2 (Dict.mem_of_get? h1) r.1 (by rw [h5]; simp)
        simp [this]
      · simp [argOf, h5]
    rw [this]; simp
  refine ⟨⟨hcd, hdims, ?_, ?_, ?_⟩, hwf.1⟩
  · intro d hdd k x k' y hx hy hxw hyw hxs hys
    obtain ⟨a, ha, hj⟩ := hget d _ _ hx hy
    obtain ⟨w, hw'⟩ := hjoin _ _ _ hj
    subst hw'
    obtain ⟨z', hz1, hz2⟩ := hU.givenC d _ [d] w ha rfl
    have key : (w = .one k x ∧ ¬ (∃ e, x = .part e)) ∨ (w = .one k' y ∧ (∃ e, x = .part e) ∧ ¬ ∃ e, y = .part e) ∨
        ((w = .one k x ∨ w = .one k' y) ∧ (∃ e, x = .part e) ∧ ∃ e, y = .part e) := by
      unfold joinCoord at hj
      simp only at hj
      by_cases p1 : ∃ e, x = .part e
      · by_cases p2 : ∃ e, y = .part e
        · right; right
          refine ⟨?_, p1, p2⟩
          rw [if_pos (by rw [isPartial_one.2 p1, isPartial_one.2 p2]; rfl)] at hj
          split_ifs at hj <;> cases hj <;> simp
        · right; left
          have e2 : (MCoord.one k' y).isPartial = false := by
            rw [← Bool.not_eq_true, isPartial_one]; exact p2
          rw [e2, isPartial_one.2 p1] at hj
          simp only [Bool.and_false, Bool.false_eq_true, if_false, if_true] at hj
          cases hj
          exact ⟨rfl, p1, p2⟩
      · left
        have e1 : (MCoord.one k x).isPartial = false := by
          rw [← Bool.not_eq_true, isPartial_one]; exact p1
        rw [e1] at hj
        simp only [Bool.false_and, Bool.false_eq_true, if_false] at hj
        split_ifs at hj <;> cases hj <;> exact ⟨rfl, p1⟩
    rcases key with ⟨rfl, p1⟩ | ⟨rfl, p1, p2⟩ | ⟨p0, p1, p2⟩
    · obtain ⟨z, rfl, _, z3, _⟩ := canon_labels hz1 hxs (fun r hr => by subst hr; exact hxw)
      refine ⟨k, z, hz2, fun _ => ⟨z3, ?_⟩, fun h => absurd h p1⟩
      have := canon_length hz1
      simpa [MCoord.shape, MCoord.arr] using this
    · obtain ⟨z, rfl, _, z3, _⟩ := canon_labels hz1 hys (fun r hr => by subst hr; exact hyw)
      obtain ⟨e, he⟩ := p1
      refine ⟨k', z, hz2, fun h => absurd he (h e), fun _ _ _ => ⟨z3, ?_⟩⟩
      have := canon_length hz1
      simpa [MCoord.shape, MCoord.arr] using this
    · obtain ⟨e1, he1⟩ := p1
      obtain ⟨e2, he2⟩ := p2
      have : ∃ kz z, z' = .one kz z := by
        rcases p0 with rfl | rfl
        · obtain ⟨z, hz, _⟩ := canon_one hz1; exact ⟨_, z, hz⟩
        · obtain ⟨z, hz, _⟩ := canon_one hz1; exact ⟨_, z, hz⟩
      obtain ⟨kz, z, rfl⟩ := this
      exact ⟨kz, z, hz2, fun h => absurd he1 (h e1), fun _ h => absurd he2 (h e2)⟩
  · intro name ds c hc hcw hor hlen
    cases hf : n.ents.get? name with
    | some f =>
      have hp : c.isPartial = false := by
        rcases hor with h1 | h1
        · rw [hf] at h1; cases h1
        · exact h1
      obtain ⟨a, ha, hj⟩ := hget name _ _ hc hf
      have : a = .nested ds c := by
        unfold joinCoord at hj
        simp only at hj
        rw [hp] at hj
        simp only [Bool.false_and, Bool.false_eq_true, if_false] at hj
        split_ifs at hj <;> cases hj <;> rfl
      subst this
      obtain ⟨z', hz1, hz2⟩ := hU.givenC name _ ds c ha rfl
      exact ⟨z', hz2, canon_stored hcw hz1⟩
    | none =>
      have hno : Dict.get? out name = none := by
        rw [Dict.get?_eq_none, hk]
        intro hc'
        obtain ⟨v, hv⟩ := Dict.mem_keys.1 hc'
        rw [sharedEnts_get? hw, hc, hf] at hv
        cases hv
      obtain ⟨z', hz1, hz2⟩ := hU.keptC name ds c hno hc (by
        intro e he
        refine ⟨by simp [hdn], ?_⟩
        rintro ⟨g0, a', ds', c1, ds'', c2, g2, g3, g4, g5⟩
        apply g5
        obtain ⟨x, g6, g7⟩ := hU.given e a' ds' c1 g2 g3
        have h1 := hlen e he
        unfold lenDim Ents.lenOf at h1
        rw [g7, g4] at h1
        simp only at h1
        rw [← h1]
        exact (SameValues.len g6).symm)
      exact ⟨z', hz2, canon_stored hcw hz1⟩
  · intro name hn
    refine hU.none name ?_ hn
    rw [Dict.get?_eq_none]
    intro hc
    obtain ⟨v, hv⟩ := Dict.mem_keys.1 (hkey name hc)
    rw [hn] at hv; cases hv

theorem zipWith_spec {α β γ} {f : α → β → γ} {a : Nd α} {b : Nd β} {c : Nd γ} {D : List String} {n m : String → ℕ} {N : String → ℕ}
    (ha : a.shape = D.map n) (hb : b.shape = D.map m) (hc : c.shape = D.map N) (h : Nd.zipWith f a b = .ok c) :
    (∀ d ∈ D, (n d = m d ∧ N d = n d) ∨ (n d = 1 ∧ N d = m d) ∨ (m d = 1 ∧ N d = n d)) ∧
      ∀ i, c.get i = f (a.get (Nd.clip a.shape i)) (b.get (Nd.clip b.shape i)) := by
  unfold Nd.zipWith at h
  simp only [bind, Except.bind] at h
  split at h
  · cases h
  rename_i sh hsh
  cases h
  refine ⟨?_, fun i => rfl⟩
  simp only at hc
  rw [ha, hb, List.zip_map'] at hsh
  subst hc
  have h2 := mapM_forall₂ hsh
  rw [List.forall₂_map_left_iff, List.forall₂_map_right_iff, List.forall₂_same] at h2
  intro d hd
  have := h2 d hd
  simp only [Nd.broadcastLen] at this
  split_ifs at this with g1 g2 g3
  · injection this with this; exact Or.inl ⟨g1, this.symm⟩
  · injection this with this; exact Or.inr (Or.inl ⟨g2, this.symm⟩)
  · injection this with this; exact Or.inr (Or.inr ⟨g3, this.symm⟩)

end Verif
