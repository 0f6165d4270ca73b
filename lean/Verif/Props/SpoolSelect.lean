import Verif.Proof.SpoolSelect
import Verif.Props.Patch
import Verif.Proof.Nd
import Verif.Proof.UpdateTotal
import Verif.Proof.Strain
import Verif.Props.CoordLimits
import Verif.Props.Dasdae
/-!
# Property C73: `spool.select`
-/
namespace Verif
open Spec

open Classical in
/-- One operation of a history. -/
theorem step_tracks {P : Type} {glob : String → String → Bool} {row : P → TRow} {s s' : MemSpool P}
    {z : List (((TRow × Bool) × P) × (P × Query))} (hi : s.tab.Inv) (hc : s.tab.contents = z.map fun w => selfRow w.1)
    (hz : ∀ w ∈ z, Tracks glob s.cols row w.1 w.2) {o : MemSpool.Op} (ho : ∀ q, o = .select q → SpoolQuery s.cols q)
    (h : s.step glob o = .ok s') :
    s'.tab.Inv ∧ s'.cols = s.cols ∧ s'.kwargs = s.kwargs ∧ ∃ z' : List (((TRow × Bool) × P) × (P × Query)), s'.tab.contents = (z'.map fun w => selfRow w.1) ∧
      (∀ w ∈ z', Tracks glob s.cols row w.1 w.2) ∧ askStep glob s.cols row (z.map Prod.snd) o = .ok (z'.map Prod.snd) := by
  cases o with
  | slice sl =>
    simp only [MemSpool.step] at h
    obtain ⟨h1, h2⟩ := SpoolT.slice_spec hi sl
    rw [hc, pySlice_map] at h1 h2
    cases hp : pySlice z sl with
    | error e => rw [hp] at h1; rw [h1 e rfl] at h; cases h
    | ok z' =>
      rw [hp] at h2
      obtain ⟨t, t1, t2, t3⟩ := h2 _ rfl
      rw [t1] at h
      cases h
      refine ⟨t2, rfl, rfl, z', t3, fun w hw => hz w (mem_pySlice hp w hw), ?_⟩
      simp only [askStep, pySlice_map, hp, Except.map]
  | ints ix =>
    simp only [MemSpool.step] at h
    obtain ⟨h1, h2⟩ := SpoolT.takeArr_spec hi ix
    rw [hc, takeInts_map] at h1 h2
    cases hp : takeInts z ix with
    | error e => rw [hp] at h1; rw [h1 e rfl] at h; cases h
    | ok z' =>
      rw [hp] at h2
      obtain ⟨t, t1, t2, t3⟩ := h2 _ rfl
      rw [t1] at h
      cases h
      refine ⟨t2, rfl, rfl, z', t3, fun w hw => hz w (mem_takeInts hp w hw), ?_⟩
      simp only [askStep, takeInts_map, hp, Except.map]
  | mask m =>
    simp only [MemSpool.step] at h
    obtain ⟨h1, h2⟩ := SpoolT.maskArr_spec hi m
    by_cases hl : m.length = s.tab.contents.length
    · obtain ⟨t, t1, t2, t3⟩ := h2 hl
      rw [t1] at h
      cases h
      rw [hc, maskIdx_map] at t3
      refine ⟨t2, rfl, rfl, maskIdx z m, t3, fun w hw => hz w (mem_maskIdx w hw), ?_⟩
      rw [hc, List.length_map] at hl
      simp only [askStep, List.length_map, if_pos hl, maskIdx_map]
    · rw [h1 hl] at h; cases h
  | select q =>
    have hq := ho q rfl
    simp only [MemSpool.step] at h
    have hc' : s.tab.contents = (z.map Prod.fst).map selfRow := by rw [hc, List.map_map]; rfl
    obtain ⟨k1, k2, k3, _, T, k4, k5⟩ := select_contents hi hc' (fun x hx => by
      obtain ⟨w, hw, rfl⟩ := List.mem_map.1 hx
      exact (hz w hw).ordered) hq h
    refine ⟨k1, k2, k3, (z.filter fun w => ∀ kv ∈ q, Satisfies glob s.cols kv.1 kv.2 w.1.1.1).map
      fun w => ((T w.1.1, w.1.2), (w.2.1, w.2.2 ++ q)), ?_, ?_, ?_⟩
    · rw [k5, List.filter_map, List.map_map, List.map_map, List.map_map]
      rfl
    · intro w' hw'
      obtain ⟨w, hw, rfl⟩ := List.mem_map.1 hw'
      obtain ⟨hw1, hw2⟩ := List.mem_filter.1 hw
      exact (hz w hw1).step hq (by simpa using hw2) (k4 _)
    · simp only [askStep, Except.ok.injEq]
      rw [List.map_map, List.filter_map, List.map_map]
      have hf : (z.filter fun w => ∀ kv ∈ q, Satisfies glob s.cols kv.1 kv.2 w.1.1.1) = z.filter
          ((fun e : P × Query => decide (Answers glob s.cols (row e.1) e.2)) ∘ (fun e => (e.1, e.2 ++ q)) ∘ Prod.snd) := by
        apply List.filter_congr
        intro w hw
        have := (hz w hw).sat_iff hq
        simp only [Function.comp, decide_eq_decide]
        exact this
      rw [hf]
      rfl

/-- A history. -/
theorem run_tracks {P : Type} {glob : String → String → Bool} {row : P → TRow} : ∀ (ops : List MemSpool.Op) {s s' : MemSpool P}
    {z : List (((TRow × Bool) × P) × (P × Query))}, s.tab.Inv → (s.tab.contents = z.map fun w => selfRow w.1) →
    (∀ w ∈ z, Tracks glob s.cols row w.1 w.2) → (∀ q, .select q ∈ ops → SpoolQuery s.cols q) → s.run glob ops = .ok s' →
    s'.tab.Inv ∧ s'.cols = s.cols ∧ s'.kwargs = s.kwargs ∧ ∃ z' : List (((TRow × Bool) × P) × (P × Query)), s'.tab.contents = (z'.map fun w => selfRow w.1) ∧
      (∀ w ∈ z', Tracks glob s.cols row w.1 w.2) ∧ askRun glob s.cols row ops (z.map Prod.snd) = .ok (z'.map Prod.snd)
  | [], s, s', z, hi, hc, hz, _, h => by
    simp only [MemSpool.run, Except.ok.injEq] at h
    subst h
    exact ⟨hi, rfl, rfl, z, hc, hz, rfl⟩
  | o :: ops, s, s', z, hi, hc, hz, hq, h => by
    simp only [MemSpool.run, bind, Except.bind] at h
    split at h
    · cases h
    rename_i s₁ h1
    obtain ⟨k1, k2, k3, z₁, k4, k5, k6⟩ := step_tracks hi hc hz (fun q e => hq q (by simp [e])) h1
    rw [← k2] at k5
    obtain ⟨j1, j2, j3, z₂, j4, j5, j6⟩ := run_tracks ops k1 k4 k5 (fun q hm => by rw [k2]; exact hq q (by simp [hm])) h
    rw [k2] at j5 j6
    refine ⟨j1, j2.trans k2, j3.trans k3, z₂, j4, j5, ?_⟩
    simp only [askRun, k6, j6]

/-- **C73** (the table): a spool of patches behaves, over any history of slices, array selections and `select`s, as the list of
its patches: a `select` keeps, in order, exactly the patches which meet the conditions and whose intervals have a point in all
the ranges asked for so far, and what it shows of each is its interval cut to those ranges, all other cells being
unchanged. The row loads that patch, with these limits. Missing: keywords that are neither columns nor coordinates
(`C73_unknown_violated`), `{column}_min` (`C73_min_violated`), and rows made of several sources. -/
theorem C73_history_partial {P : Type} (glob : String → String → Bool) (cols : List Key) (row : P → TRow) (ps : List P)
    (hord : ∀ p ∈ ps, Ordered (row p)) (ops : List MemSpool.Op) (hq : ∀ q, .select q ∈ ops → SpoolQuery cols q)
    (s : MemSpool P) (h : (MemSpool.ofPatches cols row ps).run glob ops = .ok s) :
    s.cols = cols ∧ s.kwargs = [] ∧ ∃ es, askRun glob cols row ops (ps.map fun p => (p, [])) = .ok es ∧
      List.Forall₂ (fun c e => c.1.2 = e.1 ∧ Shown cols (row e.1) e.2 c.1.1 ∧ c.2 = [(c.1.1, some (c.1.1, e.1))])
        s.tab.contents es := by
  obtain ⟨i1, i2, i3⟩ := SpoolT.C55_new (id : (TRow × Bool) × P → _) Prod.fst (ps.map fun p => ((row p, false), p))
  obtain ⟨_, k2, k3, z, k4, k5, k6⟩ := run_tracks (row := row) ops (s := MemSpool.ofPatches cols row ps)
    (z := ps.map fun p => (((row p, false), p), (p, []))) i1 (by
      rw [List.map_map]
      exact i3.trans (by rw [List.map_map]; rfl)) (by
      intro w hw
      obtain ⟨p, hp, rfl⟩ := List.mem_map.1 hw
      exact tracks_new (hord p hp)) hq h
  refine ⟨k2, k3, z.map Prod.snd, ?_, ?_⟩
  · rw [← k6, List.map_map]; rfl
  · rw [k4, List.forall₂_map_left_iff, List.forall₂_map_right_iff, List.forall₂_same]
    intro w hw
    have := k5 w hw
    refine ⟨this.same, this.shown, ?_⟩
    simp only [selfRow, List.cons.injEq, and_true, Prod.mk.injEq, true_and, Option.some.injEq]
    exact Prod.ext rfl this.same

/-! ### What is loaded -/

theorem spanOf_spec {l : List ℚ} {lo hi : ℚ} (h : spanOf l = some (lo, hi)) : lo ≤ hi ∧ ∀ v ∈ l, lo ≤ v ∧ v ≤ hi := by
  match l with
  | [] => simp [spanOf] at h
  | x :: l =>
    simp only [spanOf, Option.some.injEq, Prod.mk.injEq] at h
    obtain ⟨rfl, rfl⟩ := h
    obtain ⟨_, a1, a2⟩ := foldl_min_spec l x
    obtain ⟨_, b1, b2⟩ := foldl_max_spec l x
    refine ⟨a1.trans b1, ?_⟩
    intro v hv
    rcases List.mem_cons.1 hv with rfl | hv
    · exact ⟨a1, b1⟩
    · exact ⟨a2 v hv, b2 v hv⟩

theorem span_le {c : MCoord} {lo hi : ℚ} (h : c.span = some (lo, hi)) : lo ≤ hi := by
  unfold MCoord.span at h
  split at h
  · simp only [Option.some.injEq, Prod.mk.injEq] at h
    obtain ⟨rfl, rfl⟩ := h
    unfold RangeCoord.cmin RangeCoord.cmax
    exact le_trans (min_le_left _ _) (by first | exact le_max_left _ _ | exact le_max_right _ _)
  · exact (spanOf_spec h).1
  · exact (spanOf_spec h).1

/-- The labels of a coordinate lie between its limits. -/
theorem label_in_span {k : Kind} {c : Coord} (hw : c.Wf) {i : ℕ} {v : ℚ} (h : c.labels[i]? = some (some v)) :
    ∃ lo hi, (MCoord.one k c).span = some (lo, hi) ∧ lo ≤ v ∧ v ≤ hi := by
  have hmem : some v ∈ c.labels := List.mem_of_getElem? h
  have gen : ∀ vs : List ℚ, v ∈ vs → ∃ lo hi, spanOf vs = some (lo, hi) ∧ lo ≤ v ∧ v ≤ hi := by
    intro vs hv
    match vs with
    | [] => simp at hv
    | x :: l => exact ⟨_, _, rfl, (spanOf_spec rfl).2 v hv⟩
  cases c with
  | part n => simp [Coord.labels] at hmem
  | mono vs => exact gen vs (by simpa [Coord.labels] using hmem)
  | arr vs => exact gen vs (by simpa [Coord.labels] using hmem)
  | range r =>
    refine ⟨_, _, rfl, ?_⟩
    have hr : r.Valid := hw
    have hv : v ∈ r.values := by simpa [Coord.labels] using hmem
    rw [hr.values_eq, RangeCoord.mem_progression] at hv
    obtain ⟨j, hj, rfl⟩ := hv
    rw [hr.cmin_eq, hr.cmax_eq]
    have h1 : (j : ℚ) ≤ r.len - 1 := by
      have : (j : ℚ) + 1 ≤ r.len := by exact_mod_cast hj
      linarith
    have h0 : (0 : ℚ) ≤ j := Nat.cast_nonneg j
    rcases le_total 0 r.step with hs | hs
    · exact ⟨(min_le_left _ _).trans (by nlinarith), le_trans (by nlinarith) (le_max_right _ _)⟩
    · exact ⟨(min_le_right _ _).trans (by nlinarith), le_trans (by nlinarith) (le_max_left _ _)⟩

theorem patchRow_ordered {α} (attrs : PatchM α → TRow) (p : PatchM α) : Ordered (patchRow attrs p) := by
  intro b lo hi h1 h2
  simp only [patchRow] at h1 h2
  cases hg : p.cm.ents.get? b with
  | none => rw [hg] at h1; simp [cellOfNum] at h1
  | some e =>
    rw [hg] at h1 h2
    simp only [Option.bind_some] at h1 h2
    cases hs : e.2.span with
    | none => rw [hs] at h1; simp [cellOfNum] at h1
    | some s =>
      rw [hs] at h1 h2
      simp only [Option.map_some, cellOfNum, Cell.num.injEq] at h1 h2
      subst h1; subst h2
      exact span_le hs

theorem patchRow_span {α} (attrs : PatchM α → TRow) {p : PatchM α} {b : String} {ds : List String} {c : MCoord}
    (hc : p.cm.ents.get? b = some (ds, c)) {lo hi : ℚ} (hs : c.span = some (lo, hi)) :
    patchRow attrs p ⟨b, .min⟩ = .num lo ∧ patchRow attrs p ⟨b, .max⟩ = .num hi := by
  simp [patchRow, hc, hs, cellOfNum]

theorem tolOf_nonneg (c : Coord) : 0 ≤ tolOf c := by
  unfold tolOf
  split
  · positivity
  · exact le_rfl

/-- Widening every range by `tol` is widening their intersection, for labels inside the patch. -/
theorem between_all_iff {tol lo hi lo' hi' v : ℚ} {b : String} {Q : Query} (htol : 0 ≤ tol) (hle : lo' ≤ hi')
    (hv : lo ≤ v ∧ v ≤ hi)
    (hiff : ∀ t, (lo' ≤ t ∧ t ≤ hi') ↔ ((lo ≤ t ∧ t ≤ hi) ∧ ∀ w, ((⟨b, .plain⟩ : Key), w) ∈ Q → InPair w t)) :
    Between tol (some lo') (some hi') v ↔ InAll tol b Q v := by
  have hw : ∀ {x y : Option ℚ} {t : ℚ}, Within x y t ↔ Between 0 x y t := by
    intro x y t
    cases x <;> cases y <;> simp only [Within, Between, sub_zero, add_zero]
    rename_i x y
    constructor
    · rintro (⟨h1, h2⟩ | ⟨h1, h2⟩)
      · exact ⟨(min_le_left _ _).trans h1, h2.trans (le_max_right _ _)⟩
      · exact ⟨(min_le_right _ _).trans h1, h2.trans (le_max_left _ _)⟩
    · rintro ⟨h1, h2⟩
      rcases le_total x y with h | h
      · rw [min_eq_left h, max_eq_right h] at *; exact Or.inl ⟨h1, h2⟩
      · rw [min_eq_right h, max_eq_left h] at *; exact Or.inr ⟨h1, h2⟩
  simp only [Between, min_eq_left hle, max_eq_right hle]
  constructor
  · rintro ⟨h1, h2⟩ x y hxy
    have a1 := hw.1 (((hiff lo').1 ⟨le_rfl, hle⟩).2 _ hxy)
    have a2 := hw.1 (((hiff hi').1 ⟨hle, le_rfl⟩).2 _ hxy)
    cases hx : limit x <;> cases hy : limit y <;> rw [hx, hy] at a1 a2 <;>
      simp only [Between, sub_zero, add_zero] at a1 a2 ⊢
    · linarith
    · linarith
    · exact ⟨by linarith [a1.1], by linarith [a2.2]⟩
  · intro hall
    by_contra hn
    have hcases : v + tol < lo' ∨ hi' < v - tol := by
      by_contra hc
      push Not at hc
      exact hn ⟨by linarith [hc.1], by linarith [hc.2]⟩
    rcases hcases with hlt | hlt
    · have hin : lo' ≤ v + tol ∧ v + tol ≤ hi' := by
        rw [hiff]
        refine ⟨⟨by linarith [hv.1], ?_⟩, ?_⟩
        · have := ((hiff hi').1 ⟨hle, le_rfl⟩).1.2
          linarith
        · intro w hm
          match w, hm with
          | .coll [x, y], hm =>
            have h1 := hall x y hm
            have h2 := hw.1 (((hiff lo').1 ⟨le_rfl, hle⟩).2 _ hm)
            apply hw.2
            cases hx : limit x <;> cases hy : limit y <;> rw [hx, hy] at h1 h2 <;>
              simp only [Between, sub_zero, add_zero] at h1 h2 ⊢
            · linarith
            · linarith
            · exact ⟨by linarith [h1.1], by linarith [h2.2]⟩
          | .none, _ => trivial
          | .dots, _ => trivial
          | .num _, _ => trivial
          | .str _, _ => trivial
          | .coll [], _ => trivial
          | .coll [_], _ => trivial
          | .coll (_ :: _ :: _ :: _), _ => trivial
      linarith [hin.1]
    · have hin : lo' ≤ v - tol ∧ v - tol ≤ hi' := by
        rw [hiff]
        refine ⟨⟨?_, by linarith [hv.2]⟩, ?_⟩
        · have := ((hiff lo').1 ⟨le_rfl, hle⟩).1.1
          linarith
        · intro w hm
          match w, hm with
          | .coll [x, y], hm =>
            have h1 := hall x y hm
            have h2 := hw.1 (((hiff hi').1 ⟨hle, le_rfl⟩).2 _ hm)
            apply hw.2
            cases hx : limit x <;> cases hy : limit y <;> rw [hx, hy] at h1 h2 <;>
              simp only [Between, sub_zero, add_zero] at h1 h2 ⊢
            · linarith
            · linarith
            · exact ⟨by linarith [h2.1], by linarith [h1.2]⟩
          | .none, _ => trivial
          | .dots, _ => trivial
          | .num _, _ => trivial
          | .str _, _ => trivial
          | .coll [], _ => trivial
          | .coll [_], _ => trivial
          | .coll (_ :: _ :: _ :: _), _ => trivial
      linarith [hin.2]

/-- A patch consists of all its samples. -/
theorem rearranged_all {α} {p : PatchM α} (hd : p.cm.dims ≠ []) (hsh : p.cm.shape = p.data.shape)
    {red : String → List ℕ} (hred : ∀ d ∈ p.cm.dims, red d = List.range (p.cm.ents.lenOf d)) : Rearranged p p red := by
  have hshape : p.data.shape = p.cm.dims.map p.cm.ents.lenOf := by
    rw [← hsh]; unfold CM.shape; rw [if_neg hd]
  have ho : ∀ i, InRange p.data.shape i → origin p.cm.dims red i = i := fun i hi => by
    rw [hshape] at hi; exact origin_all hred hi
  refine ⟨rfl, fun _ => rfl, ?_, ?_, ?_⟩
  · rw [hshape]
    apply List.map_congr_left
    intro d hd
    rw [hred d hd]; simp
  · intro i hi
    rw [ho i hi]; exact ⟨hi, rfl⟩
  · intro name _ i hi
    rw [ho i hi]

/-- `Patch.select` with one keyword for every dimension at most. -/
theorem select_solo' {α} {argsort : List ℚ → List ℕ} (ha : IsArgsort argsort) {p q : PatchM α} (hm : Regular p.cm) (hd : p.cm.dims ≠ [])
    (hsh : p.cm.shape = p.data.shape) {kw : Dict CQuery} (hkw : (kw.map Prod.fst).Nodup)
    (hdims : ∀ r ∈ kw, ((p.cm.ents.get? r.1).map Prod.fst).getD [] = [r.1])
    (hn : ∀ r ∈ kw, NonNegSamples r.2) (h : p.select argsort kw = .ok q) : ∃ red, Selected p q kw red := by
  unfold PatchM.select at h
  split_ifs at h with hk
  have hall : ∀ r ∈ kw, p.cm.ents.keys.contains r.1 = true := by
    intro r hr
    rw [Bool.not_eq_true, List.any_eq_false] at hk
    simpa using hk r hr
  have hf : (kw.filter fun p' => p.cm.ents.keys.contains p'.1) = kw := List.filter_eq_self.2 hall
  have hg : p.cm.groups kw = [kw] := by
    unfold CM.groups
    simp only [hf]
    rw [if_pos]
    have : (kw.map fun r => ((p.cm.ents.get? r.1).map Prod.fst).getD []) = (kw.map Prod.fst).map fun n => [n] := by
      rw [List.map_map]
      exact List.map_congr_left hdims
    rw [this]
    exact hkw.map fun a b hab => by simpa using hab
  simp only [bind, Except.bind] at h
  split at h
  · cases h
  · rename_i r hr
    unfold CM.select at hr
    have ho := groups_onePerDim p.cm kw
    rw [hg] at hr ho
    simp only [List.foldlM_cons, List.foldlM_nil, bind, Except.bind, pure, Except.pure] at hr
    cases hs : CM.selectGroup argsort (p.cm, p.data) kw with
    | error e => rw [hs] at hr; cases hr
    | ok s =>
      rw [hs] at hr
      cases hr
      obtain ⟨red, h1, _, h3⟩ := group_spec ha hm hd hsh hn (ho kw (by simp)) hs
      unfold PatchM.new at h
      rw [if_pos h3] at h
      cases h
      exact ⟨red, h1⟩

theorem select_solo {α} {argsort : List ℚ → List ℕ} (ha : IsArgsort argsort) {p q : PatchM α} (hm : Regular p.cm) (hd : p.cm.dims ≠ [])
    (hsh : p.cm.shape = p.data.shape) (hsolo : DimsOnly p.cm) {kw : Dict CQuery} (hkw : (kw.map Prod.fst).Nodup)
    (hn : ∀ r ∈ kw, NonNegSamples r.2) (h : p.select argsort kw = .ok q) : ∃ red, Selected p q kw red := by
  refine select_solo' ha hm hd hsh hkw ?_ hn h
  intro r hr
  unfold PatchM.select at h
  split_ifs at h with hk
  have hkey : r.1 ∈ p.cm.ents.keys := by
    rw [Bool.not_eq_true, List.any_eq_false] at hk
    simpa using hk r hr
  obtain ⟨e, he⟩ := Dict.mem_keys.1 hkey
  rw [he]
  exact hsolo r.1 e.1 e.2 he

/-- The patches of a spool of which the property speaks: every coordinate is that of a dimension, and its limits (not its name)
are columns. -/
structure Loadable {α} (cols : List Key) (p : PatchM α) : Prop where
  regular : Regular p.cm
  dims : p.cm.dims ≠ []
  shape : p.cm.shape = p.data.shape
  solo : DimsOnly p.cm
  one : ∀ name ds a, p.cm.ents.get? name ≠ some (ds, .nd a)
  cols : ∀ name ∈ p.cm.ents.keys, (⟨name, .min⟩ : Key) ∈ cols ∧ (⟨name, .max⟩ : Key) ∈ cols ∧ (⟨name, .step⟩ : Key) ∈ cols ∧
    (⟨name, .plain⟩ : Key) ∉ cols

/-- A row of which nothing is cut is shown as it is. -/
theorem shown_inside {cols : List Key} {r : TRow} {Q : Query} {x : TRow × Bool} (hx : Shown cols r Q x) (h : Inside r Q) : x.2 = false := by
  rw [← Bool.not_eq_true, hx.flag]
  rintro ⟨k, hk⟩
  apply hk
  by_cases hu : (⟨k.base, .plain⟩ : Key) ∉ cols → ∀ v, (⟨k.base, .plain⟩, v) ∉ Q
  · exact hx.unasked k hu
  · push Not at hu
    obtain ⟨_, v, hv⟩ := hu
    obtain ⟨lo, hi, r1, r2, _, _⟩ := h _ _ hv
    obtain ⟨lo', hi', c1, c2, c3, c4⟩ := hx.cut k.base lo hi r1 r2
    have hin : ∀ w, ((⟨k.base, .plain⟩ : Key), w) ∈ Q → InPair w lo ∧ InPair w hi := by
      intro w hw
      obtain ⟨lo₂, hi₂, s1, s2, s3, s4⟩ := h _ _ hw
      rw [r1] at s1
      rw [r2] at s2
      injection s1 with s1
      injection s2 with s2
      subst s1; subst s2
      exact ⟨s3, s4⟩
    have hle : lo ≤ hi := by
      have := ((c4 lo').1 ⟨le_rfl, c3⟩).1
      linarith
    have e1 := (c4 lo).2 ⟨⟨le_rfl, hle⟩, fun _ w hw => (hin w hw).1⟩
    have e2 := (c4 hi).2 ⟨⟨hle, le_rfl⟩, fun _ w hw => (hin w hw).2⟩
    have e3 := ((c4 lo').1 ⟨le_rfl, c3⟩).1
    have e4 := ((c4 hi').1 ⟨c3, le_rfl⟩).1
    have g1 : lo' = lo := le_antisymm e1.1 e3.1
    have g2 : hi' = hi := le_antisymm e4.2 e2.2
    subst g1; subst g2
    obtain ⟨b, sf⟩ := k
    cases sf with
    | min => rw [c1, r1]
    | max => rw [c2, r2]
    | step => exact hx.kept _ (by simp) (by simp)
    | plain => exact hx.kept _ (by simp) (by simp)

open Classical in
/-- What one row of a spool loads. -/
theorem loadRow_spec {α} {argsort : List ℚ → List ℕ} (ha : IsArgsort argsort) {attrs : PatchM α → TRow} {cols : List Key}
    {p q : PatchM α} (hp : Loadable cols p) {Q : Query} {x : TRow × Bool} (hx : Shown cols (patchRow attrs p) Q x)
    (h : loadRow argsort cols [] [(x, some (x, p))] = .ok q) :
    ∃ red, Rearranged p q red ∧ ∀ d k c, p.cm.ents.get? d = some ([d], .one k c) →
      red d = (List.range c.length).filter fun i => LabelAt c (InAll (tolOf c) d Q) i := by
  have hkey : ∀ {d ds c}, p.cm.ents.get? d = some (ds, c) → d ∈ p.cm.ents.keys := fun hc => Dict.mem_keys.2 ⟨_, hc⟩
  -- the shown limits, label by label
  have hlab : ∀ d k c, p.cm.ents.get? d = some ([d], .one k c) → ∀ (i : ℕ) v, c.labels[i]? = some (some v) →
      ∃ lo' hi', x.1 ⟨d, .min⟩ = .num lo' ∧ x.1 ⟨d, .max⟩ = .num hi' ∧
        ∃ lo hi, (MCoord.one k c).span = some (lo, hi) ∧ lo ≤ v ∧ v ≤ hi ∧
        (Between (tolOf c) (some lo') (some hi') v ↔ InAll (tolOf c) d Q v) := by
    intro d k c hc i v hv
    obtain ⟨lo, hi, s1, s2, s3⟩ := label_in_span (k := k) (hp.regular.classes _ _ _ _ (Dict.mem_of_get? hc)) hv
    obtain ⟨r1, r2⟩ := patchRow_span attrs hc s1
    obtain ⟨lo', hi', c1, c2, c3, c4⟩ := hx.cut d lo hi r1 r2
    refine ⟨lo', hi', c1, c2, lo, hi, s1, s2, s3, between_all_iff (tolOf_nonneg c) c3 ⟨s2, s3⟩ ?_⟩
    intro t
    rw [c4 t]
    have := (hp.cols d (hkey hc)).2.2.2
    simp [this]
  obtain ⟨c, m⟩ := x
  cases m with
  | false =>
    simp only [loadRow, Bool.false_eq_true, if_false, List.isEmpty_nil, if_true, Except.ok.injEq] at h
    subst h
    have hsame : ∀ k, c k = patchRow attrs p k := by
      intro k
      by_contra hne
      have := hx.flag.2 ⟨k, hne⟩
      simp at this
    refine ⟨fun d => List.range (p.cm.ents.lenOf d), rearranged_all hp.dims hp.shape fun _ _ => rfl, ?_⟩
    intro d k cc hc
    obtain ⟨d', hd', _, hlen⟩ := hp.regular.one_dim hc (by simp)
    have hdd : d' = d := by simpa using hd'.symm
    subst hdd
    change List.range (p.cm.ents.lenOf d') = _
    rw [← hlen, eq_comm, List.filter_eq_self]
    intro i _
    simp only [decide_eq_true_eq]
    intro v hv
    obtain ⟨lo', hi', l1, l2, lo, hi, s1, s2, s3, s4⟩ := hlab _ k cc hc i v hv
    obtain ⟨r1, r2⟩ := patchRow_span attrs hc s1
    simp only [hsame] at l1 l2
    rw [r1] at l1
    rw [r2] at l2
    injection l1 with l1
    injection l2 with l2
    subst l1; subst l2
    apply s4.1
    have := tolOf_nonneg cc
    have hle := s2.trans s3
    simp only [Between, min_eq_left hle, max_eq_right hle]
    exact ⟨by linarith, by linarith⟩
  | true =>
    simp only [loadRow, if_true] at h
    have hkw : ((rowKwargs cols c p).map Prod.fst).Nodup := by
      unfold rowKwargs
      rw [List.map_map]
      have : (Prod.fst ∘ fun n => (n, CQuery.between (c ⟨n, .min⟩).limit (c ⟨n, .max⟩).limit)) = (id : String → String) := rfl
      rw [this, List.map_id]
      exact List.Nodup.sublist List.filter_sublist hp.regular.wf.names
    obtain ⟨red, hsel⟩ := select_solo ha hp.regular hp.dims hp.shape hp.solo hkw (by
      intro r hr
      unfold rowKwargs at hr
      obtain ⟨n, _, rfl⟩ := List.mem_map.1 hr
      trivial) h
    refine ⟨red, hsel.toRearranged, ?_⟩
    intro d k cc hc
    have hmem : (d, CQuery.between (c ⟨d, .min⟩).limit (c ⟨d, .max⟩).limit) ∈ rowKwargs cols c p := by
      unfold rowKwargs
      obtain ⟨a1, a2, a3, _⟩ := hp.cols d (hkey hc)
      obtain ⟨i1, i2, _⟩ := limits_instCols a1 a2 a3
      exact List.mem_map.2 ⟨d, List.mem_filter.2 ⟨hkey hc, by simp [i1, i2]⟩, rfl⟩
    have hs := hsel.asked _ hmem d k cc hc
    unfold Survivors at hs
    rw [hs]
    apply List.filter_congr
    intro i _
    rw [decide_eq_decide]
    apply forall_congr'
    intro v
    apply imp_congr_right
    intro hv
    obtain ⟨lo', hi', l1, l2, lo, hi, s1, s2, s3, s4⟩ := hlab _ k cc hc i v hv
    simp only at l1 l2
    rw [l1, l2]
    exact s4

open Classical in
/-- **C73** (the patches): iterating a spool after any history of slices, array selections and `select`s of ranges and
conditions gives, in order, for each patch of the list that the history leaves, the samples of that patch whose labels lie,
along every dimension, in all the ranges asked for (the limits being widened by half of 1e-10 steps), with all their labels;
when the ranges contain all of the patch it is the patch itself.
Missing: patches with coordinates that are not those of a dimension (`C73_two_dims_violated`). -/
theorem C73_patches_partial {α} (argsort : List ℚ → List ℕ) (ha : IsArgsort argsort) (glob : String → String → Bool)
    (cols : List Key) (attrs : PatchM α → TRow) (ps : List (PatchM α)) (hps : ∀ p ∈ ps, Loadable cols p)
    (ops : List MemSpool.Op) (hq : ∀ q, .select q ∈ ops → SpoolQuery cols q) (s : MemSpool (PatchM α))
    (h : (MemSpool.ofPatches cols (patchRow attrs) ps).run glob ops = .ok s) (out : List (PatchM α))
    (hout : s.patches argsort = .ok out) :
    ∃ es, askRun glob cols (patchRow attrs) ops (ps.map fun p => (p, [])) = .ok es ∧
      List.Forall₂ (fun q e => (∃ red, Rearranged e.1 q red ∧ ∀ d k c, e.1.cm.ents.get? d = some ([d], .one k c) →
        red d = (List.range c.length).filter fun i => LabelAt c (InAll (tolOf c) d e.2) i) ∧
        (Inside (patchRow attrs e.1) e.2 → q = e.1)) out es := by
  obtain ⟨k1, k2, es, k3, k4⟩ := C73_history_partial glob cols (patchRow attrs) ps (fun p _ => patchRow_ordered attrs p) ops hq s h
  refine ⟨es, k3, ?_⟩
  have hes : ∀ e ∈ es, e.1 ∈ ps := by
    have : ∀ (ops : List MemSpool.Op) (l es : List (PatchM α × Query)), askRun glob cols (patchRow attrs) ops l = .ok es →
        ∀ e ∈ es, ∃ e' ∈ l, e'.1 = e.1 := by
      intro ops
      induction ops with
      | nil => intro l es h e he; cases h; exact ⟨e, he, rfl⟩
      | cons o ops ih =>
        intro l es h e he
        simp only [askRun] at h
        split at h
        · cases h
        rename_i l' hl'
        obtain ⟨e', he', h'⟩ := ih l' es h e he
        rw [← h']
        cases o with
        | slice sl => exact ⟨e', mem_pySlice hl' e' he', rfl⟩
        | ints ix => exact ⟨e', mem_takeInts hl' e' he', rfl⟩
        | mask m =>
          simp only [askStep] at hl'
          split_ifs at hl'
          cases hl'
          exact ⟨e', mem_maskIdx e' he', rfl⟩
        | select q =>
          simp only [askStep, Except.ok.injEq] at hl'
          rw [← hl'] at he'
          obtain ⟨e'', he'', rfl⟩ := List.mem_map.1 (List.mem_filter.1 he').1
          exact ⟨e'', he'', rfl⟩
    intro e he
    obtain ⟨e', he', h'⟩ := this ops _ es k3 e he
    obtain ⟨p, hp, rfl⟩ := List.mem_map.1 he'
    rw [← h']; exact hp
  unfold MemSpool.patches at hout
  rw [k1, k2] at hout
  have hf := mapM_forall₂ hout
  unfold SpoolT.contents at k4
  rw [List.forall₂_map_left_iff] at k4
  clear hout h k3
  generalize s.tab.df = df at hf k4
  induction hf generalizing es with
  | nil => cases k4; exact .nil
  | cons h1 _ ih =>
    cases k4 with
    | cons g1 g2 =>
      refine .cons ?_ (ih _ (fun e he => hes e (by simp [he])) g2)
      obtain ⟨e1, e2, e3⟩ := g1
      simp only at e1 e2 e3
      rw [e3] at h1
      refine ⟨loadRow_spec ha (hps _ (hes _ (by simp))) e2 h1, ?_⟩
      intro hin
      have hf := shown_inside e2 hin
      simp only [loadRow, hf, Bool.false_eq_true, if_false, List.isEmpty_nil, if_true, Except.ok.injEq] at h1
      exact h1.symm

/-- `adjust_segments` accepts ranges. -/
theorem adjustRows_accepted {β} (glob : String → String → Bool) {cols : List Key} {q : Query} (hq : RangeQuery cols q)
    (hstep : ∀ kv ∈ q, (⟨kv.1.base, .step⟩ : Key) ∈ cols) (get : β → TRow × Bool) (put : β → TRow × Bool → β) (l : List β) :
    ∃ out, adjustRows glob cols q get put l = .ok out := by
  obtain ⟨⟨mask, hm⟩, out, ho⟩ := C27_range_accepted glob true ⟨cols, l.map fun x => (get x).1⟩ [] q hq hstep
  unfold adjustSegments at ho
  rw [hm] at ho
  simp only [bind, Except.bind] at ho
  refine ⟨List.zipWith put (maskIdx l mask) (((maskIdx l mask).map get).map (trimAll cols q)), ?_⟩
  unfold adjustRows
  rw [hm]
  simp only [bind, Except.bind]
  rw [trimRows_all ho]
  rfl

/-- A query of ranges of coordinates with a minimum, maximum and step. -/
theorem select_accepted {P : Type} (glob : String → String → Bool) {s : MemSpool P} (hi : s.tab.Inv) {q : Query}
    (hq : SpoolQuery s.cols q) (hr : ∀ kv ∈ q, kv.1 ∉ s.cols) : ∃ s', s.select glob q = .ok s' := by
  have h1 : RangeQuery s.cols q := fun kv hkv => by
    obtain ⟨e1, e2, e3, _, e5⟩ := hq.ranges kv hkv (hr kv hkv)
    exact ⟨⟨e1, e2, e3, hr kv hkv⟩, e5⟩
  have h1s : ∀ kv ∈ q, (⟨kv.1.base, .step⟩ : Key) ∈ s.cols := fun kv hkv => (hq.ranges kv hkv (hr kv hkv)).2.2.2.1
  have hl : ∀ kv ∈ q, _ := fun kv hkv => limits_instCols (h1 kv hkv).1.2.1 (h1 kv hkv).1.2.2.1 (h1s kv hkv)
  have h2 : RangeQuery (instCols s.cols) q := fun kv hkv =>
    ⟨⟨(h1 kv hkv).1.1, (hl kv hkv).1, (hl kv hkv).2.1, fun h => hr kv hkv (mem_instCols h).1⟩, (h1 kv hkv).2⟩
  have hu : ∃ e, unsupported s.cols q = .ok e := by
    obtain ⟨cls, hc⟩ := mapM_exists (f := fun kv : Key × QArg => (classify s.cols kv.1 kv.2).map fun c => (kv, c))
      (l := q.filter fun kv => !s.cols.contains kv.1) (by
        intro kv hkv
        obtain ⟨hrk, x, y, hv, hx, hy⟩ := h1 kv (List.mem_filter.1 hkv).1
        refine ⟨(kv, .range (limit x) (limit y)), ?_⟩
        unfold classify
        rw [if_pos ⟨hrk.1, hrk.2.1, hrk.2.2.1⟩, hv]
        simp only [bound_ok hx, bound_ok hy]
        rfl)
    unfold unsupported
    rw [hc]
    exact ⟨_, rfl⟩
  obtain ⟨extra, he⟩ := hu
  obtain ⟨df, hdf⟩ := adjustRows_accepted glob h1 h1s (fun x : ℕ × (TRow × Bool) × P => x.2.1) (fun x r => (x.1, r, x.2.2)) s.tab.df
  obtain ⟨adj, hadj⟩ := adjustRows_accepted glob h2 (fun kv hkv => (hl kv hkv).2.2)
    (fun x : ℕ × ℕ × TRow × Bool => x.2.2) (fun x r => (x.1, x.2.1, r)) s.tab.inst
  unfold MemSpool.select
  rw [he, hdf, hadj]
  simp only [bind, Except.bind]
  rw [if_pos]
  · obtain ⟨src, hsrc⟩ := adjustRows_accepted glob h1 h1s (fun x : ℕ × (TRow × Bool) × P => x.2.1) (fun x r => (x.1, r, x.2.2))
      ((adj.filter fun r => (df.map Prod.fst).contains r.2.1).flatMap fun r => s.tab.source.filter fun x => x.1 == r.1)
    rw [hsrc]
    exact ⟨_, rfl⟩
  · rw [List.all_eq_true]
    intro r hr'
    obtain ⟨keep, _, _, ho⟩ := adjustRows_ok hadj hq.keys fun kv hkv hk => absurd (mem_instCols hk).1 (hr kv hkv)
    have hm := (List.mem_filter.1 hr').1
    rw [ho] at hm
    obtain ⟨r0, hr0, rfl⟩ := List.mem_map.1 hm
    obtain ⟨x, hx, hxe⟩ := hi.known r0 (List.mem_filter.1 hr0).1
    rw [List.any_eq_true]
    exact ⟨x, hx, by simp [hxe]⟩

/-- **C73** (acceptance): after any accepted history, a `select` of ranges is accepted, whatever the ranges (they may be
disjoint from everything, given in either order, or open). -/
theorem C73_accepted {P : Type} (glob : String → String → Bool) (cols : List Key) (row : P → TRow) (ps : List P)
    (hord : ∀ p ∈ ps, Ordered (row p)) (ops : List MemSpool.Op) (hq : ∀ q, .select q ∈ ops → SpoolQuery cols q)
    (s : MemSpool P) (h : (MemSpool.ofPatches cols row ps).run glob ops = .ok s) (q : Query) (hq' : SpoolQuery cols q)
    (hr : ∀ kv ∈ q, kv.1 ∉ cols) : ∃ s', (MemSpool.ofPatches cols row ps).run glob (ops ++ [.select q]) = .ok s' := by
  obtain ⟨i1, i2, i3⟩ := SpoolT.C55_new (id : (TRow × Bool) × P → _) Prod.fst (ps.map fun p => ((row p, false), p))
  obtain ⟨k1, k2, _⟩ := run_tracks (row := row) ops (s := MemSpool.ofPatches cols row ps)
    (z := ps.map fun p => (((row p, false), p), (p, []))) i1 (by
      rw [List.map_map]
      exact i3.trans (by rw [List.map_map]; rfl)) (by
      intro w hw
      obtain ⟨p, hp, rfl⟩ := List.mem_map.1 hw
      exact tracks_new (hord p hp)) hq h
  have k2' : s.cols = cols := k2
  rw [← k2'] at hq' hr
  obtain ⟨s', hs'⟩ := select_accepted glob k1 hq' hr
  refine ⟨s', ?_⟩
  have : ∀ (ops : List MemSpool.Op) (s₀ : MemSpool P), s₀.run glob ops = .ok s → s₀.run glob (ops ++ [.select q]) = .ok s' := by
    intro ops
    induction ops with
    | nil =>
      intro s₀ h
      simp only [MemSpool.run, Except.ok.injEq] at h
      subst h
      simp only [List.nil_append, MemSpool.run, bind, Except.bind, MemSpool.step, hs']
    | cons o ops ih =>
      intro s₀ h
      simp only [List.cons_append, MemSpool.run, bind, Except.bind] at h ⊢
      split at h
      · cases h
      · exact ih _ h
  exact this ops _ h

/-! ### Examples and disagreements -/

/-- The columns of a spool of patches with time and distance. -/
def exCols : List Key :=
  ["time", "distance"].flatMap (fun b => [⟨b, .min⟩, ⟨b, .max⟩, ⟨b, .step⟩]) ++ [⟨"tag", .plain⟩, ⟨"gauge", .plain⟩]

/-- The other cells. -/
def exCells {α} (tag : String) (_ : PatchM α) : TRow
  | ⟨"tag", .plain⟩ => .str tag
  | ⟨"gauge", .plain⟩ => .num 10
  | _ => .null

/-- Three rows of five samples. -/
def exPart (t0 : ℚ) : PatchM ℚ where
  cm := ⟨["distance", "time"], [("distance", (["distance"], .one .float (.mono [0, 3, 10]))),
    ("time", (["time"], .one .time (.range ⟨t0, t0 + 5, 1, 5⟩)))]⟩
  data := ⟨[3, 5], fun i => (i.getD 0 0 : ℚ) * 100 + i.getD 1 0⟩

theorem exPart_regular : Regular (exPart 0).cm where
  wf := CM.mk?_wf (m := (exPart 0).cm) (if_pos (by decide +kernel)) (by decide +kernel)
  distinct := by unfold DistinctDims; decide +kernel
  coordDims := by
    intro name ds c h
    simp only [exPart, List.mem_cons, Prod.mk.injEq, List.not_mem_nil, or_false] at h
    rcases h with ⟨_, rfl, _⟩ | ⟨_, rfl, _⟩ <;> decide
  classes := by
    intro name ds k c h
    simp only [exPart, List.mem_cons, Prod.mk.injEq, MCoord.one.injEq, List.not_mem_nil, or_false] at h
    rcases h with ⟨_, _, _, rfl⟩ | ⟨_, _, _, rfl⟩
    · exact ⟨Or.inl (by norm_num [List.pairwise_cons]), by simp⟩
    · exact ⟨by norm_num, by norm_num, by norm_num⟩
  plain := by decide +kernel

example : Loadable exCols (exPart 0) where
  regular := exPart_regular
  dims := by simp [exPart]
  shape := rfl
  solo := by
    intro name ds c h
    simp only [exPart, Dict.get?_cons, Dict.get?_nil] at h
    split_ifs at h with h1 h2
    · simp only [Option.some.injEq, Prod.mk.injEq] at h; rw [← h.1, h1]
    · simp only [Option.some.injEq, Prod.mk.injEq] at h; rw [← h.1, h2]
  one := by
    intro name ds a h
    simp only [exPart, Dict.get?_cons, Dict.get?_nil] at h
    split_ifs at h <;> simp at h
  cols := by
    intro name h
    simp only [exPart, Dict.keys, List.map_cons, List.map_nil, List.mem_cons, List.not_mem_nil, or_false] at h
    rcases h with rfl | rfl <;> decide

example : SpoolQuery exCols [(⟨"time", .plain⟩, .coll [.num 3, .num 6]), (⟨"tag", .plain⟩, .str "a")] where
  keys := by decide
  ranges := by
    intro kv h hc
    simp only [List.mem_cons, List.not_mem_nil, or_false] at h
    rcases h with rfl | rfl
    · exact ⟨rfl, by decide, by decide, by decide, _, _, rfl, by simp, by simp⟩
    · exact absurd (by decide) hc
  conds := by
    intro kv h hc
    simp only [List.mem_cons, List.not_mem_nil, or_false] at h
    rcases h with rfl | rfl
    · exact absurd hc (by decide)
    · exact ⟨rfl, Or.inl (by decide), by simp, by simp⟩

/-- What a patch holds: its samples and the labels of its coordinates. -/
def exSee (p : PatchM ℚ) : List ℚ × List (String × List (Option ℚ)) :=
  ((Nd.indices p.data.shape).map p.data.get, p.cm.ents.map fun e => (e.1, match e.2.2 with | .one _ c => c.labels | .nd _ => []))

/-- A spool of three patches. -/
def exThree : MemSpool (PatchM ℚ) := MemSpool.ofPatches exCols (patchRow (exCells "a")) [exPart 0, exPart 5, exPart 10]

example : ((exThree.run (fun _ _ => true) [.select [(⟨"time", .plain⟩, .coll [.num 3, .num 6])], .slice ⟨none, none, some (-1)⟩,
    .select [(⟨"distance", .plain⟩, .coll [.num 2, .dots])]]).bind fun s => (s.patches stableArgsort).map (List.map exSee)) =
    .ok [([100, 101, 200, 201], [("distance", [some 3, some 10]), ("time", [some 5, some 6])]),
      ([103, 104, 203, 204], [("distance", [some 3, some 10]), ("time", [some 3, some 4])])] := by decide +kernel

/-- **C73**, violated: a keyword that names nothing is accepted by `spool.select`. Loading then fails for the patches which
were not cut, and ignores it for those which were. -/
theorem C73_unknown_violated :
    ((exThree.run (fun _ _ => true) [.select [(⟨"nothing", .plain⟩, .num 1)]]).bind fun s => (s.patches stableArgsort).map List.length) =
      .error .patchCoordinateError ∧
    ((exThree.run (fun _ _ => true) [.select [(⟨"nothing", .plain⟩, .num 1), (⟨"time", .plain⟩, .coll [.num 3, .num 6])]]).bind
      fun s => (s.patches stableArgsort).map List.length) = .ok 2 := by decide +kernel

/-- **C73**, violated: `spool.select(gauge_min=3)` for a column `gauge` fails with a KeyError, because the table of instructions
lacks the column, although the contents can be filtered by it. -/
theorem C73_min_violated :
    ((exThree.run (fun _ _ => true) [.select [(⟨"gauge", .min⟩, .num 3)]]).map fun s => s.tab.df.length) = .error .keyError ∧
    ((filterDf (fun _ _ => true) true ⟨exCols, [patchRow (exCells "a") (exPart 0)]⟩ [(⟨"gauge", .min⟩, .num 3)]) = .ok [true]) := by
  decide +kernel

/-- A patch with a coordinate over both dimensions. -/
def exTwoDims : PatchM ℚ where
  cm := ⟨["distance", "time"], (exPart 0).cm.ents ++ [("quality", (["distance", "time"], .nd ⟨[3, 5], fun i => some (i.getD 0 0 : ℚ)⟩))]⟩
  data := (exPart 0).data

/-- **C73**, violated: when a patch has a coordinate of two dimensions, a `select` that cuts the time makes the spool unreadable,
because the limits of that coordinate are passed, too; the same `select` on the patch works. -/
theorem C73_two_dims_violated :
    (((MemSpool.ofPatches (exCols ++ [⟨"quality", .min⟩, ⟨"quality", .max⟩, ⟨"quality", .step⟩]) (patchRow (exCells "a")) [exTwoDims]).run
      (fun _ _ => true) [.select [(⟨"time", .plain⟩, .coll [.num 1, .num 2])]]).bind fun s =>
      (s.patches stableArgsort).map fun l => l.map fun p => p.data.shape) = .error .coordError ∧
    (exTwoDims.select stableArgsort [("time", .between (some 1) (some 2))]).map (fun p => p.data.shape) = .ok [3, 2] := by
  decide +kernel

end Verif
