import Verif.Proof.SelectTotal
import Verif.Proof.H5Simple
import Verif.Model.Labelled
import Verif.Spec.Labelled
/-! # Lemmas: arrays with labels -/
namespace Verif
open Spec

/-- Coordinates which can label the dimensions `ds` of an array with `N d` samples along the dimension `d`. -/
structure Labels (coords : Dict MCoord) (ds : List String) (N : String → ℕ) : Prop where
  nodup : ds.Nodup
  names : (Dict.keys coords).Nodup
  keys : ∀ n, n ∈ Dict.keys coords ↔ n ∈ ds
  plain : ∀ d ∈ ds, matchesPrefixSuffix ds d = false
  some_dim : ds ≠ []
  good : ∀ d ∈ ds, ∃ k c, Dict.get? coords d = some (.one k c) ∧ (MCoord.one k c).canon = .ok (.one k c) ∧ c.Wf ∧ c.length = N d

theorem get?_simple (coords : Dict MCoord) (n : String) :
    Dict.get? (coords.map fun e : String × MCoord => (e.1, CArg.simple e.2)) n = (Dict.get? coords n).map CArg.simple := by
  unfold Dict.get?
  rw [List.find?_map]
  rw [Option.map_map, Option.map_map]
  rfl

theorem keys_simple (coords : Dict MCoord) : Dict.keys (coords.map fun e : String × MCoord => (e.1, CArg.simple e.2)) = Dict.keys coords := by
  unfold Dict.keys
  rw [List.map_map]
  rfl

variable {α : Type} {coords : Dict MCoord} {ds : List String} {N : String → ℕ} {data : Nd α}

theorem wholeCM_spec (h : Labels coords ds N) : ∃ m, wholeCM coords ds = .ok m ∧ m.dims = ds ∧ Regular m ∧ m.shape = ds.map N ∧
    (∀ n, n ∉ ds → m.ents.get? n = none) ∧ (∀ n, n ∈ m.ents.keys ↔ n ∈ ds) ∧
    ∀ d ∈ ds, ∃ k c, Dict.get? coords d = some (.one k c) ∧ m.ents.get? d = some ([d], .one k c) ∧ c.length = N d := by
  set e := coords.map fun e : String × MCoord => (e.1, CArg.simple e.2) with he
  have hek : Dict.keys e = Dict.keys coords := keys_simple coords
  obtain ⟨m, hm, hmd, hmk, hmg⟩ := getCoordManager_total (coords := e) (dims := ds) (by rw [hek]; exact h.names) N
    (by
      intro name a ha
      have hd : name ∈ ds := (h.keys name).1 (by rw [← hek]; exact Dict.mem_keys.2 ⟨_, ha⟩)
      obtain ⟨k, c, h1, h2, h3, h4⟩ := h.good name hd
      rw [he, get?_simple, h1] at ha; cases ha
      refine ⟨[name], _, _, rfl, h2, by simpa using hd, fun _ => rfl, Or.inr ?_⟩
      rw [one_shape, h4]; rfl)
    (by intro d hd; rw [hek]; exact (h.keys d).2 hd)
  have hment : ∀ d ∈ ds, ∃ k c, Dict.get? coords d = some (.one k c) ∧ m.ents.get? d = some ([d], .one k c) ∧ c.Wf ∧ c.length = N d := by
    intro d hd
    obtain ⟨k, c, h1, h2, h3, h4⟩ := h.good d hd
    obtain ⟨x, hx, hg⟩ := hmg d (.simple (.one k c)) _ _ (by rw [he, get?_simple, h1]; rfl) rfl
    rw [h2] at hx; cases hx
    exact ⟨k, c, h1, hg, h3, h4⟩
  have hwf := CM.getCoordManager_wf hm (by rw [hek]; exact h.names)
  have hmkm : ∀ n, n ∈ m.ents.keys ↔ n ∈ ds := fun n => by rw [hmk, hek]; exact h.keys n
  have hmem : ∀ name ds' c, (name, ds', c) ∈ m.ents → ∃ k c', name ∈ ds ∧ ds' = [name] ∧ c = .one k c' ∧ c'.Wf := by
    intro name ds' c hc
    have hg := Dict.get?_of_mem hwf.1.names hc
    have hd := (hmkm name).1 (Dict.mem_keys.2 ⟨_, hg⟩)
    obtain ⟨k, c', _, h1, h2, _⟩ := hment name hd
    rw [hg] at h1; cases h1
    exact ⟨k, c', hd, rfl, rfl, h2⟩
  refine ⟨m, hm, hmd, ⟨hwf.1, hwf.2 h.nodup, ?_, ?_, ?_⟩, ?_, ?_, hmkm, ?_⟩
  · intro name ds' c hc
    obtain ⟨k, c', _, rfl, _⟩ := hmem name ds' c hc
    simp
  · intro name ds' k c hc
    obtain ⟨k', c', _, _, h3, h4⟩ := hmem name ds' _ hc
    cases h3
    exact h4
  · intro name hn
    rw [hmd]
    exact h.plain name ((hmkm name).1 hn)
  · unfold CM.shape
    rw [hmd, if_neg h.some_dim]
    refine List.map_congr_left fun d hd => ?_
    obtain ⟨k, c, _, h1, _, h3⟩ := hment d hd
    unfold Ents.lenOf
    rw [h1]
    simp only [MCoord.len, one_shape, List.getD_cons_zero, h3]
  · intro n hn
    rw [Dict.get?_eq_none]
    exact fun hc => hn ((hmkm n).1 hc)
  · intro d hd
    obtain ⟨k, c, h0, h1, _, h3⟩ := hment d hd
    exact ⟨k, c, h0, h1, h3⟩

/-- The array with these coordinates. -/
theorem holds_whole (hsh : data.shape = ds.map N) {m : CM} (hmd : m.dims = ds) (hno : ∀ n, n ∉ ds → m.ents.get? n = none) {L : String → ℕ → ℚ}
    (hL : ∀ d ∈ ds, ∃ k c, m.ents.get? d = some ([d], .one k c) ∧ ∀ i : ℕ, i < N d → c.labels.getD i none = some (L d i)) :
    HoldsArray data ds L ⟨m, data⟩ where
  dims := hmd
  shape := rfl
  data := fun _ _ => rfl
  only := hno
  labels := by
    intro d hd i hi
    obtain ⟨k, c, h1, h2⟩ := hL d hd
    rw [label_dim (p := ⟨m, data⟩) h1]
    congr 1
    apply h2
    unfold posAlong
    simp only [hmd]
    rw [hsh] at hi
    exact inRange_getD hi hd

/-- The labels which the coordinates give. -/
def Gives (coords : Dict MCoord) (ds : List String) (N : String → ℕ) (L : String → ℕ → ℚ) : Prop :=
  ∀ d ∈ ds, ∀ k c, Dict.get? coords d = some (.one k c) → ∀ i : ℕ, i < N d → c.labels.getD i none = some (L d i)

/-- Reading everything. -/
theorem readLabelled_whole (argsort : List ℚ → List ℕ) (h : Labels coords ds N) (hsh : data.shape = ds.map N) (hpos : ∀ d ∈ ds, 0 < N d) {L : String → ℕ → ℚ}
    (hL : Gives coords ds N L) :
    ∃ q, readLabelled argsort coords ds data none = .ok (some q) ∧ HoldsArray data ds L q := by
  obtain ⟨m, h1, h2, h3, h4, h5, h6, h7⟩ := wholeCM_spec h
  refine ⟨⟨m, data⟩, ?_, holds_whole hsh h2 h5 ?_⟩
  · have hp : data.shape.prod ≠ 0 := by
      rw [hsh]
      apply SimpleFile.prod_ne_zero
      intro x hx
      obtain ⟨d, hd, rfl⟩ := List.mem_map.1 hx
      exact (hpos d hd).ne'
    unfold readLabelled
    rw [h1]
    show nonEmpty (m, data) = _
    unfold nonEmpty
    rw [if_neg hp]
    unfold PatchM.new
    rw [if_pos (by rw [h4, hsh])]
    rfl
  · intro d hd
    obtain ⟨k, c, g0, g1, g2⟩ := h7 d hd
    exact ⟨k, c, g1, hL d hd k c g0⟩

/-- Reading a part. -/
theorem readLabelled_part {argsort : List ℚ → List ℕ} (ha : IsArgsort argsort) (h : Labels coords ds N) (hsh : data.shape = ds.map N) {L : String → ℕ → ℚ}
    (hL : Gives coords ds N L) {kw : Dict CQuery}
    (hn : ∀ r ∈ kw, NonNegSamples r.2) {o : Option (PatchM α)} (ho : readLabelled argsort coords ds data (some kw) = .ok o) :
    ∃ w gs q, HoldsArray data ds L w ∧ gs.flatten.Perm (kw.filter fun r => r.1 ∈ ds) ∧ SelectedBy w gs q ∧ o = if q.data.shape.prod = 0 then none else some q := by
  obtain ⟨m, h1, h2, h3, h4, h5, h6, h7⟩ := wholeCM_spec h
  have hd : m.dims ≠ [] := by rw [h2]; exact h.some_dim
  unfold readLabelled at ho
  rw [h1] at ho
  obtain ⟨r, hr, ho⟩ := bind_split (show (trimmed argsort m data (some kw)).bind nonEmpty = .ok o from ho)
  have hp := groups_perm m kw
  obtain ⟨g1, g2, g3⟩ := chain_spec ha _ ⟨m, data⟩ r h3 hd (by rw [h4, hsh])
    (fun g hg r hr => hn r (List.mem_of_mem_filter (hp.mem_iff.1 (List.mem_flatten.2 ⟨g, hg, hr⟩)))) (groups_onePerDim m kw) hr
  refine ⟨⟨m, data⟩, _, _, holds_whole hsh h2 h5 ?_, ?_, g1, ?_⟩
  · intro d hd
    obtain ⟨k, c, g0, g1, g2⟩ := h7 d hd
    exact ⟨k, c, g1, hL d hd k c g0⟩
  · refine hp.trans (List.Perm.of_eq ?_)
    refine List.filter_congr fun x _ => ?_
    have := h6 x.1
    by_cases hx : x.1 ∈ ds
    · simp only [List.contains_eq_mem, decide_eq_true (this.2 hx), hx, decide_true]
    · simp only [List.contains_eq_mem, decide_eq_false (fun hc => hx (this.1 hc)), hx, decide_false]
  · unfold nonEmpty at ho
    simp only
    split_ifs at ho ⊢
    · cases ho; rfl
    · unfold PatchM.new at ho
      rw [if_pos g3] at ho
      cases ho; rfl

/-- Reading with intervals succeeds, if the coordinates can be asked. -/
theorem readLabelled_succeeds {argsort : List ℚ → List ℕ} (ha : IsArgsort argsort) (h : Labels coords ds N) (hsh : data.shape = ds.map N) {kw : Dict CQuery}
    (hc : ∀ d ∈ ds, ∀ k c, Dict.get? coords d = some (.one k c) → (∃ r, c = .range r) ∨ (∃ l, c = .mono l ∧ k ≠ .float))
    (hk : (kw.map Prod.fst).Nodup) (hq : ∀ r ∈ kw, IntervalOrSlice r.2) :
    ∃ o, readLabelled argsort coords ds data (some kw) = .ok o := by
  obtain ⟨m, h1, h2, h3, h4, h5, h6, h7⟩ := wholeCM_spec h
  have hd : m.dims ≠ [] := by rw [h2]; exact h.some_dim
  have hcl : ∀ d ∈ ds, ∃ k c, m.ents.get? d = some ([d], .one k c) ∧ ((∃ r, c = .range r) ∨ (∃ l, c = .mono l ∧ k ≠ .float)) := by
    intro d hdd
    obtain ⟨k, c, g0, g1, _⟩ := h7 d hdd
    exact ⟨k, c, g1, hc d hdd k c g0⟩
  have heq : m.select argsort data kw = m.select argsort data (kw.filter fun p => m.ents.keys.contains p.1) := by
    unfold CM.select CM.groups
    simp only [List.filter_filter, Bool.and_self]
  have hin : ∀ r ∈ kw.filter fun p => m.ents.keys.contains p.1, r ∈ kw ∧ r.1 ∈ ds := by
    intro r hr
    rw [List.mem_filter] at hr
    refine ⟨hr.1, (h6 r.1).1 ?_⟩
    simpa using hr.2
  have hask : ∀ r ∈ kw.filter fun p => m.ents.keys.contains p.1, Askable m r.1 := by
    intro r hr
    obtain ⟨k, c, g1, g2⟩ := hcl r.1 (hin r hr).2
    exact ⟨r.1, k, _, g1, g2.imp id fun ⟨l, hl, _⟩ => ⟨l, hl⟩⟩
  obtain ⟨r, hr⟩ := CM.select_total (argsort := argsort) (a := data) ha h3 hd (by rw [h4, hsh]) (by
    intro name ds' c hc
    obtain ⟨k, c', g1, g2⟩ := hcl name ((h6 name).1 (Dict.mem_keys.2 ⟨_, hc⟩))
    rw [hc] at g1; cases g1
    rcases g2 with g2 | ⟨l, _, g2⟩
    · exact Or.inl g2
    · exact absurd rfl g2) (kw := kw.filter fun p => m.ents.keys.contains p.1) (fun r hr => hq r (hin r hr).1) hask (by
    have hk' : (kw.filter fun p => m.ents.keys.contains p.1).Pairwise fun p q => p.1 ≠ q.1 := by
      rw [List.Nodup, List.pairwise_map] at hk
      exact hk.filter _
    have hmem : (kw.filter fun p => m.ents.keys.contains p.1).Pairwise fun p q => p.1 ∈ ds ∧ q.1 ∈ ds :=
      List.pairwise_of_forall_mem_list fun a ha b hb => ⟨(hin a ha).2, (hin b hb).2⟩
    refine (hk'.and hmem).imp ?_
    rintro p q ⟨hne, hp, hq⟩ d c c' hc hc'
    obtain ⟨_, _, g1, _⟩ := hcl _ hp
    obtain ⟨_, _, g2, _⟩ := hcl _ hq
    rw [hc] at g1; rw [hc'] at g2
    simp only [Option.some.injEq, Prod.mk.injEq, List.cons.injEq, and_true] at g1 g2
    exact hne (g1.1.symm.trans g2.1))
  rw [← heq] at hr
  have hshape : r.1.shape = r.2.shape := by
    have hp := groups_perm m kw
    refine (chain_spec ha _ ⟨m, data⟩ r h3 hd (by rw [h4, hsh]) (fun g hg r hr => ?_) (groups_onePerDim m kw) hr).2.2
    have := hq r (List.mem_of_mem_filter (hp.mem_iff.1 (List.mem_flatten.2 ⟨g, hg, hr⟩)))
    revert this
    cases r.2 <;> simp [IntervalOrSlice, NonNegSamples]
  unfold readLabelled
  rw [h1]
  show ∃ o, (m.select argsort data kw).bind nonEmpty = .ok o
  rw [hr]
  show ∃ o, nonEmpty r = .ok o
  unfold nonEmpty
  split_ifs
  · exact ⟨_, rfl⟩
  · unfold PatchM.new
    rw [if_pos hshape]
    exact ⟨_, rfl⟩

end Verif
