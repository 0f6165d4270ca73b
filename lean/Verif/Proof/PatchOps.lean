import Verif.Proof.UpdateDim
import Verif.Proof.SelectPatch
import Verif.Proof.SortPatch
import Verif.Spec.PatchOps
/-! # Lemmas: patch operations -/
namespace Verif
open Spec

theorem indexTuple_spec {α} {a b : Nd α} {dims : List String} {f : String → ℕ} {x : String → Indexer} {red : String → List ℕ}
    (hs : a.shape = dims.map f) (hx : ∀ d ∈ dims, (x d).positions (f d) = .ok (red d))
    (h : a.indexTuple (dims.map x) = .ok b) :
    b.shape = (dims.map fun d => (red d).length) ∧ ∀ i, b.get i = a.get (origin dims red i) := by
  unfold Nd.indexTuple at h
  split_ifs at h
  have : ((dims.map x).zip a.shape).mapM (fun p => p.1.positions p.2) = .ok (dims.map red) := by
    rw [hs, List.zip_map', List.mapM_map]
    apply mapM_ok'
    intro d hd
    exact hx d hd
  rw [this] at h
  cases h
  exact ⟨by simp [Nd.outer, Function.comp_def], fun i => rfl⟩

theorem showsNd_congr {α} {red red' : String → List ℕ} {ds : List String} {a b : Nd α} (h : ∀ d ∈ ds, red d = red' d)
    (hs : ShowsNd red ds a b) : ShowsNd red' ds a b := by
  unfold ShowsNd at *
  have e : ds.map red = ds.map red' := List.map_congr_left h
  have e2 : (ds.map fun d => (red d).length) = ds.map fun d => (red' d).length := List.map_congr_left fun d hd => by rw [h d hd]
  rw [← e, ← e2]
  exact hs

/-- A coordinate that was not touched shows all positions. -/
theorem shows_self {m : CM} (hm : Regular m) {red : String → List ℕ} {touched : String → Prop} {name : String} {ds : List String}
    {c : MCoord} (h : m.ents.get? name = some (ds, c)) (hne : ds ≠ []) (ht : ∀ d ∈ ds, ¬ touched d)
    (hr : ∀ d ∈ ds, red d = List.range (m.ents.lenOf d)) : Shows red touched ds c c := by
  cases c with
  | one k c =>
    refine ⟨c, rfl, fun d e => ⟨fun _ => rfl, fun h => absurd h (ht d (by simp [e]))⟩⟩
  | nd a =>
    have hs := CM.WellFormed.shape_eq hm.wf (Dict.mem_of_get? h) hne
    exact ⟨a, rfl, showsNd_congr (fun d hd => (hr d hd).symm) (showsNd_start (f := m.ents.lenOf) hs)⟩

theorem thin_core {α} {p : PatchM α} (hm : Regular p.cm) (hd : p.cm.dims ≠ []) (hsh : p.cm.shape = p.data.shape)
    {dim : String} (hdim : dim ∈ p.cm.dims) {k : Kind} {c d : Coord} (hc : p.cm.ents.get? dim = some ([dim], .one k c))
    {ps : List ℕ} (hbnd : ∀ j ∈ ps, j < c.length) (hC : Carries k c d ps) (hdv : ∀ r, d = .range r → r.Valid)
    {a : Nd α} (d1 : a.shape = p.cm.dims.map fun d => (keepAlong p.cm dim ps d).length)
    (d2 : ∀ i, InRange a.shape i → a.get i = p.data.get (origin p.cm.dims (keepAlong p.cm dim ps) i))
    {cm : CM} (hu : p.cm.update [(dim, .simple (.one k d))] = .ok cm) : Thinned p ⟨cm, a⟩ dim ps := by
  have hshape : p.data.shape = p.cm.dims.map p.cm.ents.lenOf := by
    rw [← hsh]; unfold CM.shape; rw [if_neg hd]
  have hwf : c.Wf := hm.classes _ _ _ _ (Dict.mem_of_get? hc)
  have hl : c.length = p.cm.ents.lenOf dim := by
    obtain ⟨e, he, _, h3⟩ := hm.one_dim hc (by simp)
    cases he; exact h3
  have hdl : d.length = ps.length := hC.length hwf hbnd hdv
  set red := keepAlong p.cm dim ps with hred
  have hU := update_spec hm.wf (kw := [(dim, CArg.simple (.one k d))]) (by simp [Dict.keys]) (by
    intro n hn
    simp [Dict.keys] at hn
    subst hn
    exact hm.plain _ (Dict.mem_keys.2 ⟨_, hc⟩)) hu
  have hkwd : Dict.get? [(dim, CArg.simple (.one k d))] dim = some (.simple (.one k d)) := by simp [Dict.get?_cons]
  have hkwn : ∀ n, n ≠ dim → Dict.get? [(dim, CArg.simple (.one k d))] n = none := by
    intro n hn; simp [Dict.get?_cons, Dict.get?_nil, Ne.symm hn]
  have hdn : dropNames [(dim, CArg.simple (.one k d))] = [] := rfl
  have hres : ∀ e, Resized p.cm [(dim, CArg.simple (.one k d))] e ↔ e = dim ∧ ps.length ≠ p.cm.ents.lenOf dim := by
    intro e
    constructor
    · rintro ⟨h1, a', ds, c1, ds', c2, h2, h3, h4, h5⟩
      by_cases he : e = dim
      · subst he
        rw [hkwd] at h2; cases h2
        cases h3
        rw [hc] at h4; cases h4
        refine ⟨rfl, ?_⟩
        rw [← hdl, ← hl]
        exact h5
      · rw [hkwn e he] at h2; cases h2
    · rintro ⟨rfl, h⟩
      refine ⟨hdim, _, _, _, _, _, hkwd, rfl, hc, ?_⟩
      rw [← hdl, ← hl] at h
      exact h
  have hdims : cm.dims = p.cm.dims := by
    rw [hU.dims, hdn]
    simp [hdim]
  have hii : ∀ i, InRange a.shape i → InRange (p.cm.dims.map fun d => (red d).length) i := by
    intro i hi; rw [← d1]; exact hi
  have hbound : ∀ e ∈ p.cm.dims, ∀ j ∈ red e, j < p.cm.ents.lenOf e := by
    intro e _ j hj
    rw [hred] at hj
    unfold keepAlong at hj
    split_ifs at hj with he
    · rw [he, ← hl]; exact hbnd j hj
    · exact List.mem_range.1 hj
  have hfresh : ∀ e ∈ p.cm.dims, ¬ e = dim → red e = List.range (p.cm.ents.lenOf e) := by
    intro e _ he
    rw [hred]; unfold keepAlong; rw [if_neg he]; rfl
  refine ⟨hdims, d1, ?_, ?_, ?_, ?_⟩
  · intro i hi
    refine ⟨?_, d2 i hi⟩
    rw [hshape]
    exact origin_inRange hbound (hii i hi)
  · intro name ds c0 hn hcase hsto i hi
    unfold label
    rw [hn]
    cases ds with
    | nil =>
      by_cases he : name = dim
      · rw [he, hc] at hn; cases hn
      · obtain ⟨x', _, h2⟩ := hU.keptC name [] c0 (hkwn name he) hn (by simp)
        simp only [h2]
    | cons d0 ds =>
      by_cases he : name = dim
      · subst he
        obtain ⟨x', h1, h2⟩ := hU.givenC name _ [name] (.one k d) hkwd rfl
        rw [hc] at hn; cases hn
        simp only [h2, hdims]
        have := shows_label hm (red := red) (touched := fun e => e = name) (c' := .one k d) hc (by simp)
          ⟨d, rfl, fun e he => ⟨fun h => by simp at he; exact absurd he.symm h, fun _ => by
            have : red e = ps := by rw [hred]; unfold keepAlong; simp at he; rw [if_pos he.symm]
            rw [this]; exact hC⟩⟩ hsto hfresh hbound h1 (hii i hi)
        rw [this]
      · have hkeep : ∀ e ∈ d0 :: ds, e ∉ dropNames [(dim, CArg.simple (.one k d))] ∧ ¬ Resized p.cm [(dim, CArg.simple (.one k d))] e := by
          intro e hee
          refine ⟨by simp [hdn], ?_⟩
          rw [hres]
          rintro ⟨rfl, h⟩
          rcases hcase with h' | h' | h'
          · exact he h'
          · exact h' hee
          · rw [h'] at h; simp [lenDim] at h
        obtain ⟨x', h1, h2⟩ := hU.keptC name _ c0 (hkwn name he) hn hkeep
        simp only [h2, hdims]
        have hall : ∀ e ∈ d0 :: ds, red e = List.range (p.cm.ents.lenOf e) := by
          intro e hee
          rcases hcase with h' | h' | h'
          · exact absurd h' he
          · exact hfresh e (hm.wf.attached _ _ _ (Dict.mem_of_get? hn) e hee) (fun h => h' (h ▸ hee))
          · rw [hred]; unfold keepAlong
            split_ifs with hed
            · rw [hed]; exact h'
            · rfl
        by_cases hmem : dim ∈ d0 :: ds
        · have hall' : ∀ e ∈ p.cm.dims, red e = List.range (p.cm.ents.lenOf e) := by
            intro e hee
            by_cases hed : e = dim
            · rw [hed]; exact hall dim hmem
            · exact hfresh e hee hed
          have := shows_label hm (red := red) (touched := fun _ => False) (c' := c0) hn (by simp)
            (shows_self hm hn (by simp) (by simp) hall) hsto (fun e hee _ => hall' e hee) hbound h1 (hii i hi)
          rw [this]
        · have := shows_label hm (red := red) (touched := fun e => e = dim) (c' := c0) hn (by simp)
            (shows_self hm hn (by simp) (fun e hee h => hmem (h ▸ hee)) hall) hsto hfresh hbound h1 (hii i hi)
          rw [this]
  · intro name ds c0 hn hne hmem hlen
    exact hU.lost name ds c0 (hkwn name hne) hn ⟨dim, hmem, Or.inr ((hres dim).2 ⟨rfl, hlen⟩)⟩
  · intro name hn
    have hne : name ≠ dim := by rintro rfl; rw [hc] at hn; cases hn
    exact hU.none name (hkwn name hne) hn

theorem thin_spec {α} {p : PatchM α} (hm : Regular p.cm) (hd : p.cm.dims ≠ []) (hsh : p.cm.shape = p.data.shape)
    {dim : String} (hdim : dim ∈ p.cm.dims) {k : Kind} {c d : Coord} (hc : p.cm.ents.get? dim = some ([dim], .one k c))
    {x : Indexer} {ps : List ℕ} (hp : x.positions c.length = .ok ps) (hC : Carries k c d ps) (hdv : ∀ r, d = .range r → r.Valid)
    {a : Nd α} (ha : p.data.indexTuple (p.cm.dims.map fun e => if e = dim then x else .slice {}) = .ok a)
    {cm : CM} (hu : p.cm.update [(dim, .simple (.one k d))] = .ok cm) : Thinned p ⟨cm, a⟩ dim ps := by
  have hshape : p.data.shape = p.cm.dims.map p.cm.ents.lenOf := by
    rw [← hsh]; unfold CM.shape; rw [if_neg hd]
  have hl : c.length = p.cm.ents.lenOf dim := by
    obtain ⟨e, he, _, h3⟩ := hm.one_dim hc (by simp)
    cases he; exact h3
  have hx : ∀ e ∈ p.cm.dims, (if e = dim then x else Indexer.slice {}).positions (p.cm.ents.lenOf e) = .ok (keepAlong p.cm dim ps e) := by
    intro e _
    unfold keepAlong
    split_ifs with he
    · rw [he, ← hl]; exact hp
    · exact slice_all_positions _
  obtain ⟨d1, d2⟩ := indexTuple_spec (x := fun e => if e = dim then x else Indexer.slice {}) hshape hx ha
  exact thin_core hm hd hsh hdim hc (positions_lt hp) hC hdv d1 (fun i _ => d2 i) hu

/-- Updating coordinates that exist keeps the manager regular. -/
theorem update_regular {m m' : CM} (hm : Regular m) {kw : Dict CArg} (hk : kw.keys.Nodup)
    (hkeys : ∀ name ∈ kw.keys, name ∈ m.ents.keys)
    (hargs : ∀ name a, kw.get? name = some a → ∃ ds c, argOf name a = some (ds, c) ∧ ds.Nodup ∧ ∀ k r, c = .one k (.range r) → r.Valid)
    (h : m.update kw = .ok m') (hdims : m'.dims = m.dims) : Regular m' := by
  have hU := update_spec hm.wf hk (fun n hn => hm.plain n (hkeys n hn)) h
  have hwf := CM.update_wf h hm.wf hk
  have key : ∀ name ds x, m'.ents.get? name = some (ds, x) → name ∈ m.ents.keys ∧ ds.Nodup ∧ ∃ c, c.canon = .ok x ∧
      ∀ k r, c = MCoord.one k (.range r) → r.Valid := by
    intro name ds x hx
    cases hkw : Dict.get? kw name with
    | some a =>
      obtain ⟨ds', c, h1, h2, h3⟩ := hargs name a hkw
      obtain ⟨x', h4, h5⟩ := hU.givenC name a ds' c hkw h1
      rw [hx] at h5; cases h5
      exact ⟨hkeys name (Dict.mem_keys.2 ⟨_, hkw⟩), h2, c, h4, h3⟩
    | none =>
      cases hc : m.ents.get? name with
      | none => rw [hU.none name hkw hc] at hx; cases hx
      | some v =>
        obtain ⟨ds', c⟩ := v
        by_cases hkeep : ∀ d ∈ ds', d ∉ dropNames kw ∧ ¬ Resized m kw d
        · obtain ⟨x', h4, h5⟩ := hU.keptC name ds' c hkw hc hkeep
          rw [hx] at h5; cases h5
          refine ⟨Dict.mem_keys.2 ⟨_, hc⟩, hm.coordDims _ _ _ (Dict.mem_of_get? hc), c, h4, ?_⟩
          rintro k r rfl
          exact hm.classes _ _ _ _ (Dict.mem_of_get? hc)
        · push Not at hkeep
          obtain ⟨d, hd, hd'⟩ := hkeep
          have : d ∈ dropNames kw ∨ Resized m kw d := by
            by_cases hdd : d ∈ dropNames kw
            · exact Or.inl hdd
            · exact Or.inr (hd' hdd)
          rw [hU.lost name ds' c hkw hc ⟨d, hd, this⟩] at hx; cases hx
  refine ⟨hwf.1, hwf.2 hm.distinct, ?_, ?_, ?_⟩
  · intro name ds x hx
    exact (key name ds x (Dict.get?_of_mem hwf.1.names hx)).2.1
  · intro name ds k x hx
    obtain ⟨_, _, c, h1, h2⟩ := key name ds _ (Dict.get?_of_mem hwf.1.names hx)
    cases c with
    | nd b => cases h1
    | one k' c' =>
      obtain ⟨e, h4, _, h6⟩ := canon_one h1
      cases h4
      exact h6 fun r hr => h2 k r (by rw [hr])
  · intro name hn
    rw [hdims]
    obtain ⟨v, hv⟩ := Dict.mem_keys.1 hn
    exact hm.plain name (key name v.1 v.2 hv).1

theorem nth_positions {n : ℤ} (hn : 0 < n) (L : ℕ) :
    (Indexer.slice ⟨none, none, some n⟩).positions L = .ok ((List.range L).filter fun i => decide (n ∣ (i : ℤ))) := by
  show pySlice (List.range L) ⟨none, none, some n⟩ = _
  unfold pySlice PySlice.indices
  simp only [Option.getD_some, Option.map_none, Option.getD_none, List.length_range]
  rw [if_neg (by omega), if_pos hn]
  simp only [bind, Except.bind, pure, Except.pure, PyRange.toList]
  congr 1
  have hmem : ∀ i : ℕ, i < (if (0 : ℤ) < (L : ℤ) then (((L : ℤ) - 0 - 1) / n + 1).toNat else 0) ↔ (i : ℤ) * n < L := by
    intro i
    split_ifs with h
    · have h1 : (i : ℤ) < ((L : ℤ) - 0 - 1) / n + 1 ↔ (i : ℤ) * n < L := by
        rw [Int.lt_add_one_iff, Int.le_ediv_iff_mul_le hn]; omega
      have h2 : 0 ≤ ((L : ℤ) - 0 - 1) / n := Int.ediv_nonneg (by omega) hn.le
      rw [← h1]; omega
    · constructor
      · intro h; omega
      · intro h'
        have : 0 ≤ (i : ℤ) * n := by positivity
        omega
  have htk : takeIdx (List.range L) (((List.range (if (0 : ℤ) < (L : ℤ) then (((L : ℤ) - 0 - 1) / n + 1).toNat else 0)).map
      fun i : ℕ => 0 + (i : ℤ) * n).map Int.toNat) =
      (List.range (if (0 : ℤ) < (L : ℤ) then (((L : ℤ) - 0 - 1) / n + 1).toNat else 0)).map fun i : ℕ => ((i : ℤ) * n).toNat := by
    have := takeIdx_map_range (f := fun i : ℕ => i) (n := L) (ix := ((List.range (if (0 : ℤ) < (L : ℤ) then (((L : ℤ) - 0 - 1) / n + 1).toNat else 0)).map
      fun i : ℕ => 0 + (i : ℤ) * n).map Int.toNat) (by
        intro j hj
        rw [List.map_map, List.mem_map] at hj
        obtain ⟨i, hi, rfl⟩ := hj
        have := (hmem i).1 (List.mem_range.1 hi)
        simp only [Function.comp, zero_add]
        have h0 : 0 ≤ (i : ℤ) * n := by positivity
        omega)
    simp only [List.map_id'] at this
    rw [this]
    simp [Function.comp_def]
  rw [htk]
  refine List.Pairwise.eq_of_mem_iff (r := (· < ·)) ?_ (List.Pairwise.filter _ (List.pairwise_lt_range)) ?_
  · rw [List.pairwise_map]
    refine List.Pairwise.imp_of_mem ?_ List.pairwise_lt_range
    intro a b _ _ hab
    have h1 : (a : ℤ) * n < (b : ℤ) * n := by
      have : (a : ℤ) < b := by exact_mod_cast hab
      exact mul_lt_mul_of_pos_right this hn
    have h0 : 0 ≤ (a : ℤ) * n := by positivity
    omega
  · intro j
    rw [List.mem_map, List.mem_filter, List.mem_range, decide_eq_true_iff]
    constructor
    · rintro ⟨i, hi, rfl⟩
      have h1 := (hmem i).1 (List.mem_range.1 hi)
      have h0 : 0 ≤ (i : ℤ) * n := by positivity
      refine ⟨by omega, ⟨i, ?_⟩⟩
      rw [Int.toNat_of_nonneg h0]; ring
    · rintro ⟨hj, ⟨k, hk⟩⟩
      have hk0 : 0 ≤ k := by
        by_contra hneg
        have : n * k < 0 := mul_neg_of_pos_of_neg hn (by omega)
        omega
      refine ⟨k.toNat, List.mem_range.2 ((hmem _).2 ?_), ?_⟩
      · rw [Int.toNat_of_nonneg hk0, mul_comm, ← hk]; exact_mod_cast hj
      · rw [Int.toNat_of_nonneg hk0, mul_comm, ← hk]; rfl

theorem getSlice_carries {k : Kind} {c d : Coord} (hc : c.Wf) {s : PySlice} (h : c.getSlice s = .ok d) :
    ∃ ps, (Indexer.slice s).positions c.length = .ok ps ∧ Carries k c d ps ∧ ∀ r, d = .range r → r.Valid := by
  have hq : c.query stableArgsort k (.slice (.slice s)) = .ok (d, .slice s) := by
    simp only [Coord.query, toSlice, h, Except.map]
  obtain ⟨ps, h1, _, h3⟩ := query_spec stableArgsort stableArgsort_spec k c hc (.slice (.slice s)) trivial d (.slice s) hq
  exact ⟨ps, h1, h3, fun r hr => query_valid hc hq hr⟩

theorem dim_one {m : CM} (hm : Regular m) {dim : String} (hd : dim ∈ m.dims) {ds : List String} {k : Kind} {c : Coord}
    (h : m.ents.get? dim = some (ds, .one k c)) : m.ents.get? dim = some ([dim], .one k c) ∧ c.length = m.ents.lenOf dim := by
  obtain ⟨c', n, hc', hs, hl⟩ := CM.WellFormed.get_dim hm.wf hd
  rw [h] at hc'
  cases hc'
  refine ⟨h, ?_⟩
  rw [hl]
  simpa [one_shape] using hs

theorem thin_regular {m cm : CM} (hm : Regular m) {dim : String} {k : Kind} {c d : Coord} (hdim : dim ∈ m.dims)
    (hc : m.ents.get? dim = some ([dim], .one k c)) (hdv : ∀ r, d = .range r → r.Valid)
    (hu : m.update [(dim, .simple (.one k d))] = .ok cm) : Regular cm := by
  have hmem : dim ∈ m.ents.keys := Dict.mem_keys.2 ⟨_, hc⟩
  have hk : ∀ n ∈ Dict.keys [(dim, CArg.simple (.one k d))], n ∈ m.ents.keys := by
    intro n hn
    simp [Dict.keys] at hn
    subst hn; exact hmem
  have hU := update_spec hm.wf (kw := [(dim, CArg.simple (.one k d))]) (by simp [Dict.keys]) (fun n hn => hm.plain n (hk n hn)) hu
  refine update_regular hm (by simp [Dict.keys]) hk ?_ hu ?_
  · intro n a ha
    have := Dict.mem_of_get? ha
    simp only [List.mem_singleton, Prod.mk.injEq] at this
    obtain ⟨rfl, rfl⟩ := this
    refine ⟨_, _, rfl, by simp, ?_⟩
    rintro k' r h
    cases h
    exact hdv r rfl
  · rw [hU.dims, show dropNames [(dim, CArg.simple (.one k d))] = [] from rfl]
    simp [hdim]

theorem new_ok {α} {m : CM} {a : Nd α} {q : PatchM α} (h : PatchM.new m a = .ok q) : q = ⟨m, a⟩ ∧ m.shape = a.shape := by
  unfold PatchM.new at h
  split_ifs at h with hs
  cases h; exact ⟨rfl, hs⟩

theorem decimate_spec {α} {p q : PatchM α} (hm : Regular p.cm) (hd : p.cm.dims ≠ []) (hsh : p.cm.shape = p.data.shape)
    {dim : String} {n : ℤ} (hn : 0 < n) (h : p.decimate dim n = .ok q) :
    dim ∈ p.cm.dims ∧ Thinned p q dim ((List.range (p.cm.ents.lenOf dim)).filter fun i => decide (n ∣ (i : ℤ))) ∧
      Regular q.cm ∧ q.cm.shape = q.data.shape := by
  unfold PatchM.decimate at h
  simp only [bind, Except.bind] at h
  split at h
  · cases h
  rename_i r hr
  split at h
  · cases h
  rename_i a ha
  obtain ⟨rfl, hs⟩ := new_ok h
  unfold CM.decimate at hr
  by_cases hdim : dim ∈ p.cm.dims
  · simp only [hdim, not_true_eq_false, if_false] at hr
    split at hr
    · rename_i ds k c hc
      obtain ⟨hc', hl⟩ := dim_one hm hdim hc
      simp only [bind, Except.bind] at hr
      split at hr
      · cases hr
      rename_i d hgs
      split at hr
      · cases hr
      rename_i cm hcm
      cases hr
      obtain ⟨ps, h1, h2, h3⟩ := getSlice_carries (k := k) (hm.classes _ _ _ _ (Dict.mem_of_get? hc)) hgs
      have hdims : cm.dims = p.cm.dims := by
        have hU := update_spec hm.wf (kw := [(dim, CArg.simple (.one k d))]) (by simp [Dict.keys]) (by
          intro n hn
          simp [Dict.keys] at hn
          subst hn
          exact hm.plain _ (Dict.mem_keys.2 ⟨_, hc⟩)) hcm
        rw [hU.dims, show dropNames [(dim, CArg.simple (.one k d))] = [] from rfl]
        simp [hdim]
      simp only [hdims] at ha
      refine ⟨hdim, ?_, thin_regular hm hdim hc' h3 hcm, hs⟩
      have := thin_spec hm hd hsh hdim hc' h1 h2 h3 ha hcm
      rw [nth_positions hn] at h1
      cases h1
      rw [hl] at this
      exact this
    · cases hr
  · simp only [hdim, not_false_eq_true, if_true] at hr
    cases hr

theorem mem_indices : ∀ {sh i : List ℕ}, i ∈ Nd.indices sh ↔ InRange sh i := by
  intro sh
  induction sh with
  | nil => intro i; simp [Nd.indices, InRange]
  | cons n ns ih =>
    intro i
    simp only [Nd.indices, List.mem_flatMap, List.mem_range, List.mem_map]
    constructor
    · rintro ⟨k, hk, j, hj, rfl⟩
      exact .cons hk (ih.1 hj)
    · intro h
      cases h with
      | cons h1 h2 => exact ⟨_, h1, _, ih.2 h2, rfl⟩

theorem keepsLabel_iff {α} (nul : α → Bool) (all : Bool) (p : PatchM α) (dim : String) (k : ℕ) :
    PatchM.keepsLabel nul all p.data (p.cm.dims.idxOf dim) k = true ↔ Clean nul all p dim k := by
  unfold PatchM.keepsLabel Clean posAlong
  cases all with
  | true =>
    simp only [if_true, Bool.not_eq_true', List.all_eq_false, List.mem_filter, mem_indices, beq_iff_eq, Bool.not_eq_true]
    constructor
    · rintro ⟨i, ⟨h1, h2⟩, h3⟩; exact ⟨i, h1, h2, h3⟩
    · rintro ⟨i, h1, h2, h3⟩; exact ⟨i, ⟨h1, h2⟩, h3⟩
  | false =>
    simp only [Bool.false_eq_true, if_false, Bool.not_eq_true', List.any_eq_false, List.mem_filter, mem_indices, beq_iff_eq, Bool.not_eq_true]
    constructor
    · intro h i h1 h2; exact h i ⟨h1, h2⟩
    · intro h i hi; exact h i hi.1 hi.2

theorem dropna_spec {α} {nul : α → Bool} {all : Bool} {p q : PatchM α} (hm : Regular p.cm) (hd : p.cm.dims ≠ []) (hsh : p.cm.shape = p.data.shape)
    {dim : String} (h : p.dropna nul dim all = .ok q) :
    dim ∈ p.cm.dims ∧ (∃ ps, Thinned p q dim ps ∧ ps.Pairwise (· < ·) ∧ ∀ k, k ∈ ps ↔ k < p.cm.ents.lenOf dim ∧ Clean nul all p dim k) ∧
      Regular q.cm ∧ q.cm.shape = q.data.shape := by
  unfold PatchM.dropna at h
  by_cases hdim : dim ∈ p.cm.dims
  · simp only [hdim, not_true_eq_false, if_false] at h
    split at h
    · rename_i ds k c hc
      obtain ⟨hc', hl⟩ := dim_one hm hdim hc
      simp only [bind, Except.bind] at h
      split at h
      · cases h
      rename_i a ha
      split at h
      · cases h
      rename_i d hgm
      split at h
      · cases h
      rename_i cm hcm
      obtain ⟨rfl, hs⟩ := new_ok h
      have hwf := hm.classes _ _ _ _ (Dict.mem_of_get? hc)
      obtain ⟨h1, h2⟩ := getMask_labels hwf hgm
      have hpos := mask_positions _ _ h1
      have := thin_spec hm hd hsh hdim hc' hpos h2 (fun r hr => getMask_valid hgm hr) ha hcm
      refine ⟨hdim, ⟨_, this, List.Pairwise.filter _ List.pairwise_lt_range, ?_⟩,
        thin_regular hm hdim hc' (fun r hr => getMask_valid hgm hr) hcm, hs⟩
      intro j
      rw [List.mem_filter, List.mem_range, ← hl]
      rw [List.length_map, List.length_range] at h1
      have e : ∀ hj : j < c.length, ((List.range (p.data.shape.getD (p.cm.dims.idxOf dim) 0)).map
          (PatchM.keepsLabel nul all p.data (p.cm.dims.idxOf dim))).getD j false = PatchM.keepsLabel nul all p.data (p.cm.dims.idxOf dim) j := by
        intro hj
        rw [List.getD_eq_getElem?_getD, List.getElem?_map, List.getElem?_range (by omega)]; rfl
      constructor
      · rintro ⟨h3, h4⟩
        rw [e h3, keepsLabel_iff] at h4
        exact ⟨h3, h4⟩
      · rintro ⟨h3, h4⟩
        refine ⟨h3, ?_⟩
        rw [e h3, keepsLabel_iff]
        exact h4
    · cases h
  · simp only [hdim, not_false_eq_true, if_true] at h
    cases h

end Verif
