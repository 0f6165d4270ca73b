import Verif.Model.FileSpool
import Verif.Spec.FileSpool
import Verif.Proof.CalculusPatch
import Verif.Proof.Units
import Verif.Props.SpoolSelect
/-!
# Property C74: a spool over a file gives the patches of the file
-/
namespace Verif
open Spec

/-- The patches of which the property speaks: a coordinate attached to one dimension only is that of the dimension. -/
structure Filed {α} (p : PatchM α) : Prop where
  regular : Regular p.cm
  dims : p.cm.dims ≠ []
  shape : p.cm.shape = p.data.shape
  lines : ∀ d ∈ p.cm.dims, ∃ k c, p.cm.ents.get? d = some ([d], .one k c)
  solo : ∀ name d c, p.cm.ents.get? name = some ([d], c) → d = name

theorem between_sorted {tol lo hi v : ℚ} (hle : lo ≤ hi) : Between tol (some lo) (some hi) v ↔ lo - tol ≤ v ∧ v ≤ hi + tol := by
  simp only [Between, min_eq_left hle, max_eq_right hle]

theorem readKwargs_spec {α} {cols : List Key} {c : TRow} {p : PatchM α} (hp : Filed p) :
    ((readKwargs cols c p).map Prod.fst).Nodup ∧ (∀ r ∈ readKwargs cols c p, NonNegSamples r.2 ∧
      r.1 ∈ p.cm.ents.keys ∧ ((p.cm.ents.get? r.1).map Prod.fst) = some [r.1] ∧ r.2 = .between (c ⟨r.1, .min⟩).limit (c ⟨r.1, .max⟩).limit) := by
  constructor
  · unfold readKwargs
    refine List.Nodup.sublist (List.Sublist.map _ List.filter_sublist) ?_
    unfold rowKwargs
    rw [List.map_map]
    have : (Prod.fst ∘ fun n => (n, CQuery.between (c ⟨n, .min⟩).limit (c ⟨n, .max⟩).limit)) = (id : String → String) := rfl
    rw [this, List.map_id]
    exact List.Nodup.sublist List.filter_sublist hp.regular.wf.names
  · intro r hr
    unfold readKwargs rowKwargs at hr
    obtain ⟨h1, h2⟩ := List.mem_filter.1 hr
    obtain ⟨n, hn, rfl⟩ := List.mem_map.1 h1
    refine ⟨trivial, (List.mem_filter.1 hn).1, ?_, rfl⟩
    simp only at h2 ⊢
    split at h2
    · rename_i d c' hg
      rw [hg, hp.solo _ _ _ hg]; rfl
    · cases h2

/-- Selecting by the limits of a row. -/
theorem read_selected {α} {argsort : List ℚ → List ℕ} (ha : IsArgsort argsort) {cols : List Key} {c : TRow} {p q : PatchM α} (hp : Filed p)
    (h : p.select argsort (readKwargs cols c p) = .ok q) : ∃ red, Selected p q (readKwargs cols c p) red := by
  obtain ⟨h1, h2⟩ := readKwargs_spec (c := c) hp
  exact select_solo' ha hp.regular hp.dims hp.shape h1 (fun r hr => by rw [(h2 r hr).2.2.1]; rfl) (fun r hr => (h2 r hr).1) h

theorem mem_readKwargs {α} {cols : List Key} {c : TRow} {p : PatchM α} {d : String} {m : MCoord} (hc : p.cm.ents.get? d = some ([d], m))
    (hcol : ∀ s : Suffix, s ≠ .plain → (⟨d, s⟩ : Key) ∈ cols) :
    (d, CQuery.between (c ⟨d, .min⟩).limit (c ⟨d, .max⟩).limit) ∈ readKwargs cols c p := by
  unfold readKwargs rowKwargs
  obtain ⟨i1, i2, _⟩ := limits_instCols (hcol .min (by simp)) (hcol .max (by simp)) (hcol .step (by simp))
  refine List.mem_filter.2 ⟨List.mem_map.2 ⟨d, List.mem_filter.2 ⟨Dict.mem_keys.2 ⟨_, hc⟩, by simp [i1, i2]⟩, rfl⟩, ?_⟩
  simp [hc]

open Classical in
/-- A patch with labels elsewhere is read as nothing. -/
theorem read_elsewhere {α} {argsort : List ℚ → List ℕ} (ha : IsArgsort argsort) {cols : List Key} {c : TRow} {p q : PatchM α} (hp : Filed p)
    (ho : Ordered c) (he : Elsewhere cols c p) (h : p.select argsort (readKwargs cols c p) = .ok q) : q.data.shape.contains 0 = true := by
  obtain ⟨red, hs⟩ := read_selected ha hp h
  obtain ⟨d, k, cd, lo, hi, e1, e2, e3, e4, e5⟩ := he
  have hsv := hs.asked _ (mem_readKwargs (c := c) e1 e2) d k cd e1
  rw [e3, e4] at hsv
  have hnil : red d = [] := by
    unfold Survivors at hsv
    rw [hsv, List.filter_eq_nil_iff]
    intro i hi' hl
    obtain ⟨v, hv, hout⟩ := e5 i (List.mem_range.1 hi')
    have := (of_decide_eq_true hl) v hv
    simp only [Cell.limit] at this
    rw [between_sorted (ho _ _ _ e3 e4)] at this
    rcases hout with h' | h'
    · linarith [this.1]
    · linarith [this.2]
  have hd : d ∈ p.cm.dims := hp.regular.wf.attached _ _ _ (Dict.mem_of_get? e1) d (by simp)
  rw [hs.shape]
  simp only [List.contains_eq_mem, decide_eq_true_eq, List.mem_map]
  exact ⟨d, hd, by simp [hnil]⟩

open Classical in
/-- The patch of the row is read as a whole. -/
theorem read_own {α} {argsort : List ℚ → List ℕ} (ha : IsArgsort argsort) {attrs : PatchM α → TRow} {cols : List Key} {p q : PatchM α} (hp : Filed p)
    (h : p.select argsort (readKwargs cols (patchRow attrs p) p) = .ok q) : WholeOf p q := by
  obtain ⟨red, hs⟩ := read_selected ha hp h
  refine ⟨red, hs.toRearranged, ?_⟩
  intro d k c hc
  have hd : d ∈ p.cm.dims := hp.regular.wf.attached _ _ _ (Dict.mem_of_get? hc) d (by simp)
  by_cases hk : ∃ r ∈ readKwargs cols (patchRow attrs p) p, r.1 = d
  · obtain ⟨r, hr, hrd⟩ := hk
    obtain ⟨_, _, _, h4⟩ := (readKwargs_spec (c := patchRow attrs p) hp).2 r hr
    have hsv := hs.asked r hr d k c (by rw [hrd]; exact hc)
    rw [h4, hrd] at hsv
    unfold Survivors at hsv
    rw [hsv, List.filter_eq_self]
    intro i _
    rw [decide_eq_true_eq]
    intro v hv
    obtain ⟨lo, hi, s1, s2, s3⟩ := label_in_span (k := k) (hp.regular.classes _ _ _ _ (Dict.mem_of_get? hc)) hv
    obtain ⟨r1, r2⟩ := patchRow_span attrs hc s1
    rw [r1, r2]
    simp only [Cell.limit]
    rw [between_sorted (s2.trans s3)]
    have := tolOf_nonneg c
    exact ⟨by linarith, by linarith⟩
  · refine hs.others d hd ?_ _ _ hc ?_
    · intro r hr c' hg
      exact hk ⟨r, hr, (hp.solo _ _ _ hg).symm⟩
    · rfl

/-- What the filter of attributes lets pass. -/
theorem matchesAttrs_iff {α} {glob : String → String → Bool} {cols : List Key} {blank : Bool} {attrs : PatchM α → TRow} {c : TRow} {p : PatchM α} {b : Bool}
    (h : matchesAttrs glob cols (attrQuery blank cols c) (patchRow attrs p) = .ok b) :
    b = true ↔ ∀ kv ∈ attrQuery blank cols c, Satisfies glob (attrCols cols) kv.1 kv.2 (patchRow attrs p) := by
  unfold matchesAttrs at h
  simp only [bind, Except.bind] at h
  split at h
  · cases h
  rename_i mask hm
  obtain ⟨keep, h1, h2⟩ := filterDf_fun hm (by
    intro kv hkv _
    unfold attrQuery at hkv
    obtain ⟨k, _, hk⟩ := List.mem_filterMap.1 hkv
    split at hk
    · cases hk
    · cases hk; simp
    · split_ifs at hk
      cases hk; simp)
  simp only [h1, List.map_cons, List.map_nil, List.getD_cons_zero, pure, Except.pure, Except.ok.injEq] at h
  rw [← h]
  exact h2 _ (patchRow_ordered attrs p)

theorem matches_unlike {α} {glob : String → String → Bool} {cols : List Key} {blank : Bool} {attrs : PatchM α → TRow} {c : TRow} {p : PatchM α} {b : Bool}
    (h : matchesAttrs glob cols (attrQuery blank cols c) (patchRow attrs p) = .ok b) (hu : Unlike glob cols c (patchRow attrs p)) : b = false := by
  rw [← Bool.not_eq_true, matchesAttrs_iff h]
  intro hall
  obtain ⟨k, hk, hp, hc⟩ := hu
  have hka : k ∈ attrCols cols := List.mem_filter.2 ⟨hk, by simp [hp]⟩
  rcases hc with ⟨s, t, h1, h2, h3, h4⟩ | ⟨x, y, h1, h2, h3⟩
  · have := hall (k, .str s) (List.mem_filterMap.2 ⟨k, hka, by simp [h1, h2]⟩)
    simp only [Satisfies, if_pos hka] at this
    obtain ⟨t', e1, e2⟩ := this
    rw [h3] at e1
    cases e1
    rw [h4] at e2; cases e2
  · have := hall (k, .num x) (List.mem_filterMap.2 ⟨k, hka, by simp [h1]⟩)
    simp only [Satisfies, if_pos hka] at this
    rw [h2] at this
    injection this with this
    exact h3 this.symm

theorem matches_own {α} {glob : String → String → Bool} {cols : List Key} {blank : Bool} {attrs : PatchM α → TRow} {p : PatchM α} {b : Bool}
    (hg : ∀ k ∈ cols, ∀ s, attrs p k = .str s → glob s s = true)
    (h : matchesAttrs glob cols (attrQuery blank cols (patchRow attrs p)) (patchRow attrs p) = .ok b) : b = true := by
  rw [matchesAttrs_iff h]
  intro kv hkv
  unfold attrQuery at hkv
  obtain ⟨k, hk, he⟩ := List.mem_filterMap.1 hkv
  have hsuf : k.suf = .plain := by simpa using (List.mem_filter.1 hk).2
  have hrow : patchRow attrs p k = attrs p k := by unfold patchRow; rw [hsuf]
  split at he
  · cases he
  · rename_i q hq
    cases he
    simp only [Satisfies, if_pos hk, hq]
  · rename_i s hq
    split_ifs at he
    cases he
    simp only [Satisfies, if_pos hk, hq]
    exact ⟨s, rfl, hg k (List.mem_filter.1 hk).1 s (by rw [← hrow]; exact hq)⟩

/-- The row of a patch of the file gives that patch as a whole, if no earlier patch of the file fits the row. -/
theorem fileLoad_spec {α} {argsort : List ℚ → List ℕ} (ha : IsArgsort argsort) {glob : String → String → Bool} {attrs : PatchM α → TRow}
    {blank : Bool} {cols : List Key} {pre post : List (PatchM α)} {p : PatchM α} {r : Option (PatchM α)} (hpre : ∀ p' ∈ pre, Filed p') (hp : Filed p)
    (hfull : ∀ n ∈ p.data.shape, n ≠ 0) (hg : ∀ k ∈ cols, ∀ s, attrs p k = .str s → glob s s = true)
    (hap : ∀ p' ∈ pre, Unlike glob cols (patchRow attrs p) (patchRow attrs p') ∨ Elsewhere cols (patchRow attrs p) p')
    (h : fileLoad argsort glob attrs blank cols (pre ++ p :: post) (patchRow attrs p) = .ok r) : ∃ q, r = some q ∧ WholeOf p q := by
  unfold fileLoad at h
  obtain ⟨l, hl, rfl⟩ := except_map_ok h
  rw [List.mapM_append] at hl
  obtain ⟨l1, e1, hl⟩ := bind_split hl
  obtain ⟨l2', e2, hl⟩ := bind_split hl
  cases hl
  have h2 := mapM_forall₂ e2
  cases h2 with
  | cons hown _ =>
  rename_i o l2
  have hnone : l1.filterMap id = [] := by
    rw [List.filterMap_eq_nil_iff]
    intro o' ho'
    obtain ⟨p', hp', hr⟩ := mapM_mem_out e1 ho'
    unfold readOne at hr
    split at hr
    · cases hr
    · cases hr; rfl
    · rename_i hm
      rcases hap p' hp' with hu | he
      · exact absurd (matches_unlike hm hu) (by simp)
      · obtain ⟨q, hq, rfl⟩ := except_map_ok hr
        simp only [read_elsewhere ha (hpre p' hp') (patchRow_ordered attrs p) he hq, if_true, id]
  unfold readOne at hown
  split at hown
  · cases hown
  · rename_i hm
    exact absurd (matches_own hg hm) (by simp)
  · obtain ⟨q, hq, rfl⟩ := except_map_ok hown
    have hw := read_own ha hp hq
    have hne : q.data.shape.contains 0 = false := by
      obtain ⟨red, hr, hall⟩ := hw
      rw [← Bool.not_eq_true, List.contains_eq_mem, decide_eq_true_eq, hr.shape, List.mem_map]
      rintro ⟨d, hd, h0⟩
      obtain ⟨k, c, he⟩ := hp.lines d hd
      rw [hall d k c he, List.length_range] at h0
      refine hfull 0 ?_ rfl
      rw [shape_dims hp.shape hd, List.mem_map]
      exact ⟨d, hd, by rw [← h0]; exact (dim_one hp.regular hd he).2.symm⟩
    refine ⟨q, ?_, hw⟩
    rw [List.filterMap_append, hnone, List.nil_append, List.filterMap_cons, if_neg (by rw [hne]; simp)]
    rfl

theorem whole_self {α} {p : PatchM α} (hp : Filed p) : WholeOf p p := by
  refine ⟨fun d => List.range (p.cm.ents.lenOf d), rearranged_all hp.dims hp.shape (fun _ _ => rfl), ?_⟩
  intro d k c hc
  rw [(dim_one hp.regular (hp.regular.wf.attached _ _ _ (Dict.mem_of_get? hc) d (by simp)) hc).2]

theorem iter_whole {α} {f : PatchM α → Except Err (Option (PatchM α))} {ps : List (PatchM α)} {out : List (PatchM α)}
    (hf : ∀ pre p post, ps = pre ++ p :: post → ∀ r, f p = .ok r → ∃ q, r = some q ∧ WholeOf p q)
    (h : (ps.mapM f).map (fun l => l.filterMap id) = .ok out) : List.Forall₂ WholeOf ps out := by
  obtain ⟨l, hl, rfl⟩ := except_map_ok h
  have h2 := mapM_forall₂ hl
  have h3 : List.Forall₂ (fun p r => ∃ q, r = some q ∧ WholeOf p q) ps l := by
    refine List.forall₂_iff_get.2 ⟨h2.length_eq, ?_⟩
    intro i h1 h1'
    refine hf (ps.take i) _ (ps.drop (i + 1)) ?_ _ ((List.forall₂_iff_get.1 h2).2 i h1 h1')
    rw [List.get_eq_getElem, List.getElem_cons_drop, List.take_append_drop]
  clear h2 hl h hf
  induction h3 with
  | nil => exact .nil
  | cons hh _ ih =>
    obtain ⟨q, rfl, hq⟩ := hh
    rw [List.filterMap_cons]
    exact .cons hq ih

/-- **C74**: iterating over the spool of a file gives the patches of the file, each with all its samples, in the order of the
contents, if they can be told apart: each text of the attributes matches itself, and of two patches either the attributes differ or the later
one starts where the earlier one has no samples. -/
theorem C74_file_partial {α} (argsort : List ℚ → List ℕ) (ha : IsArgsort argsort) (glob : String → String → Bool) (attrs : PatchM α → TRow)
    (cols : List Key) (ps out : List (PatchM α)) (hp : ∀ p ∈ ps, Filed p) (hfull : ∀ p ∈ ps, ∀ n ∈ p.data.shape, n ≠ 0)
    (hself : ∀ p ∈ ps, ∀ k ∈ cols, ∀ s, attrs p k = .str s → glob s s = true) (hap : ps.Pairwise (ToldApart glob cols (patchRow attrs)))
    (h : fileIter argsort glob attrs cols ps = .ok out) : List.Forall₂ WholeOf ps out := by
  refine iter_whole ?_ h
  rintro pre p post rfl r hr
  have hpw := (List.pairwise_append.1 hap).2.2
  exact fileLoad_spec ha (fun p' h' => hp p' (by simp [h'])) (hp p (by simp)) (hfull p (by simp)) (hself p (by simp))
    (fun p' h' => hpw p' h' p (by simp)) hr

/-- **C74** for the rows of a file in the spool of a directory. -/
theorem C74_directory_partial {α} (argsort : List ℚ → List ℕ) (ha : IsArgsort argsort) (glob : String → String → Bool) (attrs : PatchM α → TRow)
    (cols : List Key) (ps out : List (PatchM α)) (hp : ∀ p ∈ ps, Filed p) (hfull : ∀ p ∈ ps, ∀ n ∈ p.data.shape, n ≠ 0)
    (hself : ∀ p ∈ ps, ∀ k ∈ cols, ∀ s, attrs p k = .str s → glob s s = true) (hap : ps.Pairwise (ToldApart glob cols (patchRow attrs)))
    (h : dirIter argsort glob attrs cols ps = .ok out) : List.Forall₂ WholeOf ps out := by
  refine iter_whole ?_ h
  rintro pre p post rfl r hr
  have hpw := (List.pairwise_append.1 hap).2.2
  unfold dirLoad at hr
  split at hr
  · rename_i p' e
    cases hr
    have : pre = [] := by
      have := congrArg List.length e
      simp only [List.length_append, List.length_cons, List.length_nil] at this
      exact List.eq_nil_of_length_eq_zero (by omega)
    subst this
    simp only [List.nil_append, List.cons.injEq] at e
    rw [← e.1]
    exact ⟨p, rfl, whole_self (hp p (by simp))⟩
  exact fileLoad_spec ha (fun p' h' => hp p' (by simp [h'])) (hp p (by simp)) (hfull p (by simp)) (hself p (by simp))
    (fun p' h' => hpw p' h' p (by simp)) hr

/-- **C74**: a file with one patch in a directory always gives exactly this patch. -/
theorem C74_single {α} (argsort : List ℚ → List ℕ) (glob : String → String → Bool) (attrs : PatchM α → TRow) (cols : List Key) (p : PatchM α) :
    dirIter argsort glob attrs cols [p] = .ok [p] := rfl

/-! ## The hypotheses are met -/

theorem exPart_filed (t0 : ℚ) : Filed (exPart t0) where
  regular :=
    { wf := by
        refine CM.mk?_wf (m := (exPart t0).cm) (if_pos ?_) ?_
        · rfl
        · exact (by decide +kernel : ((exPart 0).cm.ents.map Prod.fst).Nodup)
      distinct := (by unfold DistinctDims; decide +kernel : DistinctDims (exPart 0).cm)
      coordDims := by
        intro name ds c h
        simp only [exPart, List.mem_cons, Prod.mk.injEq, List.not_mem_nil, or_false] at h
        rcases h with ⟨_, rfl, _⟩ | ⟨_, rfl, _⟩ <;> decide
      classes := by
        intro name ds k c h
        simp only [exPart, List.mem_cons, Prod.mk.injEq, MCoord.one.injEq, List.not_mem_nil, or_false] at h
        rcases h with ⟨_, _, _, rfl⟩ | ⟨_, _, _, rfl⟩
        · exact ⟨Or.inl (by norm_num [List.pairwise_cons]), by simp⟩
        · exact ⟨by norm_num, by norm_num, by norm_num⟩
      plain := (by decide +kernel : ∀ name ∈ (exPart 0).cm.ents.keys, matchesPrefixSuffix (exPart 0).cm.dims name = false) }
  dims := by simp [exPart]
  shape := rfl
  lines := by
    intro d hd
    simp only [exPart, List.mem_cons, List.not_mem_nil, or_false] at hd
    rcases hd with rfl | rfl <;> exact ⟨_, _, rfl⟩
  solo := by
    intro name d c h
    simp only [exPart, Dict.get?_cons, Dict.get?_nil] at h
    split_ifs at h with h1 h2
    · simp only [Option.some.injEq, Prod.mk.injEq, List.cons.injEq] at h; rw [← h.1.1, h1]
    · simp only [Option.some.injEq, Prod.mk.injEq, List.cons.injEq] at h; rw [← h.1.1, h2]

example : [exPart 0, exPart 5].Pairwise (ToldApart (fun s t => s == t) exCols (patchRow (exCells "a"))) := by
  refine List.pairwise_pair.2 (Or.inr ⟨"time", .time, .range ⟨0, 0 + 5, 1, 5⟩, 5, 9, rfl, ?_, by decide +kernel, by decide +kernel, ?_⟩)
  · intro s hs
    cases s <;> first | exact absurd rfl hs | decide
  · intro i hi
    have hi : i < 5 := hi
    refine ⟨i, ?_, Or.inl ?_⟩
    · exact (by decide +kernel : ∀ i : ℕ, i < 5 → (Coord.range ⟨0, 0 + 5, 1, 5⟩).labels[i]? = some (some (i : ℚ))) i hi
    · have : tolOf (.range ⟨0, 0 + 5, 1, 5⟩) < 1 := by decide +kernel
      have : (i : ℚ) ≤ 4 := by exact_mod_cast Nat.le_of_lt_succ hi
      linarith

example : ((fileIter stableArgsort (fun s t => s == t) (exCells "a") exCols [exPart 0, exPart 5, exPart 10]).map (List.map exSee)) =
    .ok ([exPart 0, exPart 5, exPart 10].map exSee) := by decide +kernel

/-- **C74**, violated: two patches of a file share their sample at time 4 (as files written one after the other often do). The row
of the second one then gives the last sample of the first. -/
theorem C74_touching_violated :
    ((fileIter stableArgsort (fun s t => s == t) (exCells "a") exCols [exPart 0, exPart 4]).map (List.map fun p => p.data.shape)) =
      .ok [[3, 5], [3, 1]] := by decide +kernel

/-- **C74**, violated: two patches of the same extent and attributes, such as the data before and after some processing. The first one is given twice. -/
theorem C74_same_extent_violated :
    ((fileIter stableArgsort (fun s t => s == t) (exCells "a") exCols
      [exPart 0, ⟨(exPart 0).cm, ⟨[3, 5], fun _ => 7⟩⟩]).map (List.map exSee)) = .ok [exSee (exPart 0), exSee (exPart 0)] ∧
    (exSee ⟨(exPart 0).cm, ⟨[3, 5], fun _ => 7⟩⟩).1 ≠ (exSee (exPart 0)).1 := by
  constructor <;> decide +kernel

/-- **C74**, violated: a tag with a character of patterns. As `[a]` matches `a` only, a file with one patch with the tag `[a]` gives nothing at all. -/
theorem C74_pattern_violated (glob : String → String → Bool) (hg : glob "[a]" "[a]" = false) :
    ((fileIter stableArgsort glob (exCells "[a]") exCols [exPart 0]).map List.length) = .ok 0 := by
  have hq : attrQuery false exCols (patchRow (exCells "[a]") (exPart 0)) = [(⟨"tag", .plain⟩, .str "[a]"), (⟨"gauge", .plain⟩, .num 10)] := by
    decide +kernel
  have hm : matchesAttrs glob exCols (attrQuery false exCols (patchRow (exCells "[a]") (exPart 0))) (patchRow (exCells "[a]") (exPart 0)) = .ok false := by
    rw [hq]
    simp [matchesAttrs, filterDf, attrCols, exCols, isMinMaxKey, columnCond, patchRow, exCells, Cell.isNum, hg, bind, Except.bind, pure, Except.pure]
  unfold fileIter fileLoad
  simp only [List.mapM_cons, List.mapM_nil, readOne, hm]
  rfl

end Verif
