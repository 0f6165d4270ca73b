import Verif.Spec.Aggregate
import Verif.Spec.Correlate
import Verif.Proof.UpdateTotal
import Verif.Proof.Correlate
import Verif.Proof.Squeeze
/-! # Lemmas: aggregations -/
namespace Verif
open Spec

theorem canon_again {c x : MCoord} (h : c.canon = .ok x) : ∃ y, x.canon = .ok y := by
  have key : ∀ (k : Kind) (vs : List ℚ) (d : Coord), getCoordData k vs = .ok d → ∃ y, (MCoord.one k d).canon = .ok y := by
    intro k vs d hd
    match vs, hd with
    | [], hd => cases hd; exact ⟨_, rfl⟩
    | [x], hd => cases hd; exact ⟨_, rfl⟩
    | a :: b :: l, hd =>
      rcases getCoordData_cases k (l := a :: b :: l) (by simp) none with ⟨h1, _⟩ | ⟨h1, _⟩ | ⟨_, _, e, _, h1 | ⟨_, h1⟩⟩
      · have h0 := hd; rw [h1] at h0; cases h0
        exact ⟨_, by simp only [MCoord.canon]; rw [hd]; rfl⟩
      · have h0 := hd; rw [h1] at h0; cases h0
        exact ⟨_, by simp only [MCoord.canon]; rw [hd]; rfl⟩
      · rw [h1] at hd; cases hd
        exact ⟨_, rfl⟩
      · rw [h1] at hd; cases hd
  cases c with
  | nd a => cases h; exact ⟨_, rfl⟩
  | one k c =>
    cases c with
    | range r => cases h; exact ⟨_, rfl⟩
    | part n => cases h; exact ⟨_, rfl⟩
    | mono vs =>
      obtain ⟨d, h1, h2⟩ := except_map_ok h
      subst h2; exact key k vs d h1
    | arr vs =>
      obtain ⟨d, h1, h2⟩ := except_map_ok h
      subst h2; exact key k vs d h1

theorem canon_listed {k : Kind} {c : Coord} {x : MCoord} (h : (MCoord.one k c).canon = .ok x) : ∃ d, x = .one k d :=
  let ⟨d, h1, _⟩ := canon_one h; ⟨d, h1⟩

/-- After an update every coordinate can be stored again. -/
theorem update_readable {m m' : CM} {kw : Dict CArg} (hU : UpdatedC m m' kw)
    (hargs : ∀ name a, kw.get? name = some a → ∃ ds c, argOf name a = some (ds, c)) : Readable m' := by
  intro name ds x hx
  cases hkw : Dict.get? kw name with
  | some a =>
    obtain ⟨ds', c, h1⟩ := hargs name a hkw
    obtain ⟨x', h2, h3⟩ := hU.givenC name a ds' c hkw h1
    rw [hx] at h3; cases h3
    exact canon_again h2
  | none =>
    cases hme : Dict.get? m.ents name with
    | none => rw [hU.none name hkw hme] at hx; cases hx
    | some p =>
      obtain ⟨ds', c⟩ := p
      by_cases hl : ∃ d ∈ ds', d ∈ dropNames kw ∨ Resized m kw d
      · rw [hU.lost name ds' c hkw hme hl] at hx; cases hx
      · push Not at hl
        obtain ⟨x', h2, h3⟩ := hU.keptC name ds' c hkw hme hl
        rw [hx] at h3; cases h3
        exact canon_again h2

/-- The arguments that give every dimension listed a coordinate. -/
def givenTo (names : List String) (g : String → MCoord) : Dict CArg := names.map fun d => (d, CArg.simple (g d))

theorem givenTo_keys (names : List String) (g : String → MCoord) : (givenTo names g).keys = names := by
  unfold givenTo Dict.keys; rw [List.map_map]; exact List.map_id _

theorem givenTo_get {names : List String} (hn : names.Nodup) (g : String → MCoord) {d : String} (hd : d ∈ names) :
    (givenTo names g).get? d = some (CArg.simple (g d)) :=
  Dict.get?_of_mem (by rw [givenTo_keys]; exact hn) (List.mem_map_of_mem hd)

theorem givenTo_none {names : List String} (g : String → MCoord) {d : String} (hd : d ∉ names) : (givenTo names g).get? d = none :=
  Dict.get?_eq_none.2 (by rw [givenTo_keys]; exact hd)

theorem givenTo_mem {names : List String} (hn : names.Nodup) {g : String → MCoord} {d : String} {a : CArg}
    (h : (givenTo names g).get? d = some a) : d ∈ names ∧ a = CArg.simple (g d) := by
  by_cases hd : d ∈ names
  · rw [givenTo_get hn g hd] at h; cases h; exact ⟨hd, rfl⟩
  · rw [givenTo_none g hd] at h; cases h

/-- The coordinates given have one position and can be stored. -/
structure Short (g : String → MCoord) (names : List String) : Prop where
  one : ∀ d ∈ names, ∃ k c x, g d = .one k c ∧ c.length = 1 ∧ (∀ r, c = .range r → r.Valid) ∧ (g d).canon = .ok x

structure Shrunk (m cm : CM) (names : List String) (g : String → MCoord) : Prop where
  upd : UpdatedC m cm (givenTo names g)
  dims : cm.dims = m.dims
  len : ∀ d ∈ m.dims, lenDim cm d = if d ∈ names then 1 else lenDim m d
  regular : Regular cm
  readable : Readable cm
  listed : DimsListed cm

theorem mem_ents_keys {m : CM} (hw : WellFormed m) {d : String} (hd : d ∈ m.dims) : d ∈ m.ents.keys := by
  obtain ⟨c, n, hc, _, _⟩ := CM.WellFormed.get_dim hw hd
  exact Dict.mem_keys.2 ⟨_, hc⟩

theorem shrink {m : CM} (hm : Regular m) (hr : Readable m) (hl : DimsListed m) {names : List String} (hn : names.Nodup)
    (hsub : ∀ d ∈ names, d ∈ m.dims) {g : String → MCoord} (hg : Short g names) :
    ∃ cm, m.update (givenTo names g) = .ok cm ∧ Shrunk m cm names g := by
  have hplain : ∀ name ∈ (givenTo names g).keys, matchesPrefixSuffix m.dims name = false := by
    intro d hd
    rw [givenTo_keys] at hd
    exact hm.plain d (mem_ents_keys hm.wf (hsub d hd))
  have hkn : (givenTo names g).keys.Nodup := by rw [givenTo_keys]; exact hn
  have hshape : ∀ d ∈ names, (g d).shape = [1] := by
    intro d hd
    obtain ⟨k, c, x, h1, h2, _⟩ := hg.one d hd
    rw [h1, one_shape, h2]
  have hlen : ∀ d ∈ names, (g d).len = 1 := by
    intro d hd
    have := hshape d hd
    unfold MCoord.len; rw [this]; rfl
  obtain ⟨cm, hcm⟩ := update_total hm.wf hkn hplain (by
    intro name a ha
    obtain ⟨hd, rfl⟩ := givenTo_mem hn ha
    obtain ⟨k, c, x, h1, h2, h3, h4⟩ := hg.one name hd
    refine ⟨[name], g name, x, rfl, h4, by simpa using hsub name hd, fun _ => rfl, Or.inr ?_⟩
    rw [hshape name hd]
    simp only [List.map_cons, List.map_nil, newLen, givenTo_get hn g hd, argOf, hlen name hd]) hr
  have hU := update_spec hm.wf hkn hplain hcm
  have hdrop : dropNames (givenTo names g) = [] := by
    unfold dropNames givenTo
    rw [List.map_eq_nil_iff, List.filter_eq_nil_iff]
    intro p hp
    obtain ⟨d, _, rfl⟩ := List.mem_map.1 hp
    simp [CArg.isDrop]
  have hdims : cm.dims = m.dims := by
    rw [hU.dims, hdrop]
    have : ((givenTo names g).filter fun p => ((argOf p.1 p.2).map Prod.fst == some [p.1]) && !m.dims.contains p.1) = [] := by
      rw [List.filter_eq_nil_iff]
      intro p hp
      obtain ⟨d, hd, rfl⟩ := List.mem_map.1 hp
      simp
      intro _ _; exact hsub d hd
    rw [this]; simp
  have hent : ∀ d ∈ m.dims, ∃ k c, cm.ents.get? d = some ([d], .one k c) ∧ c.length = if d ∈ names then 1 else lenDim m d := by
    intro d hd
    by_cases hdn : d ∈ names
    · obtain ⟨k, c, x, h1, h2, _, h4⟩ := hg.one d hdn
      obtain ⟨x', h5, h6⟩ := hU.givenC d _ [d] (g d) (givenTo_get hn g hdn) rfl
      rw [h4] at h5; cases h5
      rw [h1] at h4
      have hL := canon_length h4
      obtain ⟨d', rfl⟩ := canon_listed h4
      refine ⟨k, d', h6, ?_⟩
      rw [one_shape, h2] at hL
      simpa [hdn] using hL
    · obtain ⟨k, c, hc⟩ := hl d hd
      have hnr : ∀ e ∈ [d], e ∉ dropNames (givenTo names g) ∧ ¬ Resized m (givenTo names g) e := by
        intro e he
        simp at he; subst he
        refine ⟨by rw [hdrop]; simp, ?_⟩
        rintro ⟨_, a, ds, c1, ds', c', h1, _⟩
        rw [givenTo_none g hdn] at h1; cases h1
      obtain ⟨x, h5, h6⟩ := hU.keptC d [d] (.one k c) (givenTo_none g hdn) hc hnr
      have hL := canon_length h5
      obtain ⟨d', rfl⟩ := canon_listed h5
      refine ⟨k, d', h6, ?_⟩
      rw [one_shape] at hL
      have := (dim_one hm hd hc).2
      rw [if_neg hdn]
      unfold lenDim; rw [← this]; simpa using hL
  have hreg : Regular cm := by
    refine update_regular hm hkn ?_ ?_ hcm hdims
    · intro d hd
      rw [givenTo_keys] at hd
      exact mem_ents_keys hm.wf (hsub d hd)
    · intro name a ha
      obtain ⟨hd, rfl⟩ := givenTo_mem hn ha
      obtain ⟨k, c, x, h1, _, h3, _⟩ := hg.one name hd
      refine ⟨[name], g name, rfl, by simp, ?_⟩
      intro k' r hkr
      rw [h1] at hkr; cases hkr
      exact h3 r rfl
  refine ⟨cm, hcm, hU, hdims, ?_, hreg, ?_, ?_⟩
  · intro d hd
    obtain ⟨k, c, h1, h2⟩ := hent d hd
    rw [← h2]
    exact ((dim_one hreg (by rw [hdims]; exact hd) h1).2).symm
  · refine update_readable hU ?_
    intro name a ha
    obtain ⟨_, rfl⟩ := givenTo_mem hn ha
    exact ⟨_, _, rfl⟩
  · intro d hd
    rw [hdims] at hd
    obtain ⟨k, c, h1, _⟩ := hent d hd
    exact ⟨k, c, h1⟩

theorem resized_iff {m : CM} {names : List String} {g : String → MCoord} (hm : Regular m) (hn : names.Nodup)
    (hsub : ∀ d ∈ names, d ∈ m.dims) (hl : DimsListed m) (hlen : ∀ d ∈ names, (g d).len = 1) (d : String) :
    Resized m (givenTo names g) d ↔ d ∈ names ∧ lenDim m d ≠ 1 := by
  constructor
  · rintro ⟨hd, a, ds, c, ds', c', h1, h2, h3, h4⟩
    obtain ⟨hdn, rfl⟩ := givenTo_mem hn h1
    cases h2
    refine ⟨hdn, ?_⟩
    obtain ⟨k, x, hx⟩ := hl d hd
    rw [hx] at h3; cases h3
    rw [hlen d hdn] at h4
    have := (dim_one hm hd hx).2
    intro hc
    apply h4
    unfold lenDim at hc
    simp [MCoord.len, MCoord.shape, MCoord.arr]
    omega
  · rintro ⟨hdn, h⟩
    obtain ⟨k, x, hx⟩ := hl d (hsub d hdn)
    refine ⟨hsub d hdn, _, [d], g d, [d], _, givenTo_get hn g hdn, rfl, hx, ?_⟩
    have := (dim_one hm (hsub d hdn) hx).2
    rw [hlen d hdn]
    unfold lenDim at h
    simp [MCoord.len, MCoord.shape, MCoord.arr]
    omega

end Verif
