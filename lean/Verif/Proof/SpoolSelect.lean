import Verif.Spec.SpoolSelect
import Verif.Props.Filter
import Verif.Props.Spool
import Verif.Proof.UpdateDim
/-! # Lemmas on `spool.select` -/
namespace Verif
open Spec

/-- A mask computed row by row is a filter. -/
theorem maskIdx_keep {α} (k : α → Bool) : ∀ l : List α, maskIdx l (l.map k) = l.filter k
  | [] => rfl
  | x :: l => by
    have ih := maskIdx_keep k l
    unfold maskIdx at ih ⊢
    simp only [List.map_cons, List.zip_cons_cons, List.filterMap_cons, List.filter_cons]
    cases k x <;> simp [ih]

/-- Trimming one row by a query. -/
def trimAll (cols : List Key) : Query → TRow × Bool → TRow × Bool
  | [], r => r
  | (k, v) :: q, r =>
    if k.suf = .plain ∧ (⟨k.base, .min⟩ : Key) ∈ cols ∧ (⟨k.base, .max⟩ : Key) ∈ cols ∧ k ∉ cols then
      trimAll cols q ((trimRow k.base (orderRangeTuple (rangeLimits v)) r.1).1,
        r.2 || (trimRow k.base (orderRangeTuple (rangeLimits v)) r.1).2)
    else trimAll cols q r

theorem trimRows_all {cols : List Key} : ∀ {q : Query} {rows out : List (TRow × Bool)}, trimRows cols q rows = .ok out →
    ∀ rows', trimRows cols q rows' = .ok (rows'.map (trimAll cols q))
  | [], _, _, _, rows' => by
    have : trimAll cols [] = id := by funext r; rfl
    simp [trimRows, this]
  | (k, v) :: q, rows, out, h, rows' => by
    rw [trimRows] at h ⊢
    by_cases hk : k.suf = .plain ∧ (⟨k.base, .min⟩ : Key) ∈ cols ∧ (⟨k.base, .max⟩ : Key) ∈ cols ∧ k ∉ cols
    · rw [if_pos hk] at h ⊢
      cases hp : sanitizeRange v with
      | error e => rw [hp] at h; simp [bind, Except.bind] at h
      | ok p =>
        rw [hp] at h
        simp only [bind, Except.bind] at h ⊢
        split_ifs at h ⊢ with hs
        rw [trimRows_all h, sanitize_limits hp, List.map_map]
        congr 2
        funext r
        rw [trimAll, if_pos hk]
        rfl
    · rw [if_neg hk] at h ⊢
      rw [trimRows_all h]
      congr 2
      funext r
      rw [trimAll, if_neg hk]

theorem mem_instCols {cols : List Key} {k : Key} (h : k ∈ instCols cols) : k ∈ cols ∧ k.suf ≠ .plain := by
  unfold instCols at h
  obtain ⟨h1, h2⟩ := List.mem_filter.1 h
  simp only [Bool.and_eq_true, bne_iff_ne, ne_eq] at h2
  exact ⟨h1, h2.1.1.1⟩

theorem limits_instCols {cols : List Key} {b : String} (h1 : (⟨b, .min⟩ : Key) ∈ cols) (h2 : (⟨b, .max⟩ : Key) ∈ cols)
    (h3 : (⟨b, .step⟩ : Key) ∈ cols) :
    (⟨b, .min⟩ : Key) ∈ instCols cols ∧ (⟨b, .max⟩ : Key) ∈ instCols cols ∧ (⟨b, .step⟩ : Key) ∈ instCols cols := by
  unfold instCols
  simp [List.mem_filter, h1, h2, h3]

theorem trimAll_inst {cols : List Key} : ∀ {q : Query}, (∀ kv ∈ q, kv.1 ∉ cols → kv.1.suf = .plain ∧ (⟨kv.1.base, .min⟩ : Key) ∈ cols ∧
    (⟨kv.1.base, .max⟩ : Key) ∈ cols ∧ (⟨kv.1.base, .step⟩ : Key) ∈ cols) → (∀ kv ∈ q, kv.1 ∈ cols →
    ((⟨kv.1.base, .min⟩ : Key) ∉ cols ∨ (⟨kv.1.base, .max⟩ : Key) ∉ cols)) → trimAll (instCols cols) q = trimAll cols q
  | [], _, _ => by funext r; rfl
  | (k, v) :: q, h1, h2 => by
    have ih := trimAll_inst (q := q) (fun kv hk => h1 kv (by simp [hk])) fun kv hk => h2 kv (by simp [hk])
    funext r
    unfold trimAll
    rw [ih]
    by_cases hk : k ∈ cols
    · have := h2 (k, v) (by simp) hk
      rw [if_neg, if_neg]
      · rintro ⟨_, _, _, h⟩; exact h hk
      · rintro ⟨_, h3, h4, _⟩
        rcases this with h | h
        · exact h (mem_instCols h3).1
        · exact h (mem_instCols h4).1
    · obtain ⟨e1, e2, e3, e4⟩ := h1 (k, v) (by simp) hk
      obtain ⟨i1, i2, i3⟩ := limits_instCols e2 e3 e4
      rw [if_pos ⟨e1, i1, i2, fun h => hk (mem_instCols h).1⟩, if_pos ⟨e1, e2, e3, hk⟩]

/-- `adjust_segments` on a table, row by row. -/
theorem adjustRows_ok {β} {glob : String → String → Bool} {cols : List Key} {q : Query} {get : β → TRow × Bool}
    {put : β → TRow × Bool → β} {l out : List β} (h : adjustRows glob cols q get put l = .ok out)
    (hkeys : (q.map Prod.fst).Nodup) (hnone : ∀ kv ∈ q, kv.1 ∈ cols → kv.2 ≠ .none ∧ kv.2 ≠ .dots) :
    ∃ keep : TRow → Bool,
      (∀ r, Ordered r → (keep r = true ↔ ∀ kv ∈ q, Satisfies glob cols kv.1 kv.2 r)) ∧
      (∀ x, Trimmed cols q x (trimAll cols q x)) ∧
      out = (l.filter fun x => keep (get x).1).map fun x => put x (trimAll cols q (get x)) := by
  unfold adjustRows at h
  simp only [bind, Except.bind] at h
  split at h
  · cases h
  rename_i mask hm
  split at h
  · cases h
  rename_i rows hr
  simp only [pure, Except.pure, Except.ok.injEq] at h
  obtain ⟨keep, h1, h2⟩ := filterDf_fun hm hnone
  refine ⟨keep, h2, ?_, ?_⟩
  · intro x
    have := trimRows_spec cols q [x] _ hkeys (trimRows_all hr [x])
    simpa using this
  · simp only at h1
    have hmask : maskIdx l mask = l.filter fun x => keep (get x).1 := by
      rw [h1, List.map_map]
      exact maskIdx_keep _ l
    rw [trimRows_all hr _] at hr
    simp only [Except.ok.injEq] at hr
    rw [← h, ← hr, hmask]
    generalize l.filter (fun x => keep (get x).1) = l'
    induction l' with
    | nil => rfl
    | cons x l' ih => simp only [List.map_cons, List.zipWith_cons_cons, ih]

/-- A condition on the cells of a spool is a condition on its instructions, too. -/
theorem satisfies_inst {glob : String → String → Bool} {cols : List Key} {q : Query} (hq : SpoolQuery cols q) {r : TRow}
    (h : ∀ kv ∈ q, Satisfies glob cols kv.1 kv.2 r) : ∀ kv ∈ q, Satisfies glob (instCols cols) kv.1 kv.2 r := by
  intro kv hkv
  have hs := h kv hkv
  by_cases hk : kv.1 ∈ cols
  · obtain ⟨e1, e2, e3, e4⟩ := hq.conds kv hkv hk
    have hni : kv.1 ∉ instCols cols := fun hc => (mem_instCols hc).2 e1
    unfold Satisfies
    rw [if_neg hni]
    simp only [e1]
    split
    · rename_i h1 _; simp at h1
    · rename_i h1 _; simp at h1
    · intro h1 h2
      rcases e2 with e2 | e2
      · exact absurd (mem_instCols h1).1 e2
      · exact absurd (mem_instCols h2).1 e2
    · trivial
  · obtain ⟨e1, e2, e3, e4, x, y, e5, _⟩ := hq.ranges kv hkv hk
    have hni : kv.1 ∉ instCols cols := fun hc => hk (mem_instCols hc).1
    unfold Satisfies at hs ⊢
    rw [if_neg hk] at hs
    rw [if_neg hni]
    rw [e5] at hs ⊢
    simp only [e1] at hs ⊢
    exact fun _ _ => hs e2 e3

theorem unsupported_nil {cols : List Key} {q e : Query} (hq : SpoolQuery cols q) (h : unsupported cols q = .ok e) : e = [] := by
  unfold unsupported at h
  simp only [bind, Except.bind] at h
  split at h
  · cases h
  rename_i cls hc
  simp only [pure, Except.pure, Except.ok.injEq] at h
  subst h
  rw [List.map_eq_nil_iff, List.filter_eq_nil_iff]
  intro c hcm
  obtain ⟨kv, hkv, he⟩ := mapM_mem_out hc hcm
  obtain ⟨h1, h2⟩ := List.mem_filter.1 hkv
  have hni : kv.1 ∉ cols := by simpa using h2
  obtain ⟨e1, e2, e3, _, x, y, e5, hx, hy⟩ := hq.ranges kv h1 hni
  unfold classify at he
  rw [if_pos ⟨e1, e2, e3⟩, e5] at he
  simp only [bound_ok hx, bound_ok hy, bind, Except.bind, pure, Except.pure, Except.map, Except.ok.injEq] at he
  subst he
  simp [Unknown.bad]

/-- What a row of a spool of patches shows, when it is made of itself. -/
def selfRow {P : Type} (x : (TRow × Bool) × P) :
    ((TRow × Bool) × P) × List ((TRow × Bool) × Option ((TRow × Bool) × P)) := (x, [(x.1, some x)])

theorem joined_single {R S I : Type} {s : SpoolT R S I} {lbl : ℕ} {i : I} {y : S} (h : s.joined lbl = [(i, some y)]) :
    ∃ r : ℕ × ℕ × I, (s.inst.filter fun r => r.2.1 == lbl) = [r] ∧ r.2.2 = i ∧ (s.source.filter fun x => x.1 == r.1) = [(r.1, y)] := by
  have hne : ∀ r, s.joinRow r ≠ [] := by
    intro r
    unfold SpoolT.joinRow
    split
    · simp
    · rename_i h1; simp only [ne_eq, List.map_eq_nil_iff]; exact h1
  unfold SpoolT.joined at h
  match hf : s.inst.filter fun r => r.2.1 == lbl with
  | [] => rw [hf] at h; simp at h
  | [r] =>
    rw [hf] at h
    simp only [List.flatMap_cons, List.flatMap_nil, List.append_nil] at h
    refine ⟨r, hf, ?_⟩
    unfold SpoolT.joinRow at h
    split at h
    · simp at h
    · rename_i l h1
      match hs : s.source.filter fun x => x.1 == r.1 with
      | [] => exact absurd hs h1
      | [z] =>
        rw [hs] at h
        simp only [List.map_cons, List.map_nil, List.cons.injEq, Prod.mk.injEq, Option.some.injEq, and_true] at h
        have hz : z ∈ s.source.filter fun x => x.1 == r.1 := by rw [hs]; simp
        have hz1 : z.1 = r.1 := by simpa using (List.mem_filter.1 hz).2
        refine ⟨h.1, ?_⟩
        rw [hs, ← hz1, ← h.2]
      | z :: z' :: l' => rw [hs] at h; simp at h
  | r :: r' :: l =>
    rw [hf] at h
    simp only [List.flatMap_cons] at h
    have h1 := List.length_pos_of_ne_nil (hne r)
    have h2 := List.length_pos_of_ne_nil (hne r')
    have := congrArg List.length h
    simp only [List.length_append, List.length_cons, List.length_nil] at this
    omega

theorem filter_put {β : Type} (p k : β → Bool) (put : β → β) (h : ∀ x, p (put x) = p x) (l : List β) :
    ((l.filter k).map put).filter p = ((l.filter p).filter k).map put := by
  rw [List.filter_map, List.filter_filter, List.filter_filter]
  congr 1
  apply List.filter_congr
  intro x _
  simp only [Function.comp, h, Bool.and_comm]

theorem nodup_put {α : Type} {l : List (ℕ × α)} (h : (l.map Prod.fst).Nodup) (k : ℕ × α → Bool) (put : ℕ × α → ℕ × α)
    (hp : ∀ x, (put x).1 = x.1) : (((l.filter k).map put).map Prod.fst).Nodup := by
  rw [List.map_map, show Prod.fst ∘ put = (Prod.fst : ℕ × α → ℕ) from funext hp]
  exact SpoolT.nodup_filter_fst k h

open Classical in
/-- `spool.select` on the rows a spool shows: those that meet the query stay, in order, cut to the ranges. -/
theorem select_contents {P : Type} {glob : String → String → Bool} {s s' : MemSpool P} {q : Query} {l : List ((TRow × Bool) × P)}
    (hi : s.tab.Inv) (hc : s.tab.contents = l.map selfRow) (hord : ∀ x ∈ l, Ordered x.1.1) (hq : SpoolQuery s.cols q)
    (h : s.select glob q = .ok s') :
    s'.tab.Inv ∧ s'.cols = s.cols ∧ s'.kwargs = s.kwargs ∧ (s.tab.Distinct → s'.tab.Distinct) ∧
    ∃ T : TRow × Bool → TRow × Bool, (∀ x, Trimmed s.cols q x (T x)) ∧
      s'.tab.contents = ((l.filter fun x => ∀ kv ∈ q, Satisfies glob s.cols kv.1 kv.2 x.1.1).map fun x => (T x.1, x.2)).map selfRow := by
  have hnone : ∀ kv ∈ q, kv.1 ∈ s.cols → kv.2 ≠ .none ∧ kv.2 ≠ .dots := fun kv hkv hk => (hq.conds kv hkv hk).2.2
  have hnone' : ∀ kv ∈ q, kv.1 ∈ instCols s.cols → kv.2 ≠ .none ∧ kv.2 ≠ .dots :=
    fun kv hkv hk => hnone kv hkv (mem_instCols hk).1
  unfold MemSpool.select at h
  simp only [bind, Except.bind] at h
  split at h
  · cases h
  rename_i extra hex
  have := unsupported_nil hq hex
  subst this
  split at h
  · cases h
  rename_i df hdf
  split at h
  · cases h
  rename_i adj hadj
  split_ifs at h with hall
  split at h
  · cases h
  rename_i source hsrc
  simp only [pure, Except.pure, Except.ok.injEq] at h
  obtain ⟨k1, k1s, k1t, k1e⟩ := adjustRows_ok hdf hq.keys hnone
  obtain ⟨k2, k2s, k2t, k2e⟩ := adjustRows_ok hadj hq.keys hnone'
  obtain ⟨k3, k3s, k3t, k3e⟩ := adjustRows_ok hsrc hq.keys hnone
  clear hdf hadj hsrc hex
  rw [trimAll_inst (fun kv hkv hk => ⟨(hq.ranges kv hkv hk).1, (hq.ranges kv hkv hk).2.1, (hq.ranges kv hkv hk).2.2.1,
    (hq.ranges kv hkv hk).2.2.2.1⟩) fun kv hkv hk => (hq.conds kv hkv hk).2.1] at k2e
  clear k2t k3t
  set T := trimAll s.cols q with hT
  -- the current rows
  have hl : l = s.tab.df.map Prod.snd := by
    have := congrArg (List.map Prod.fst) hc
    simp only [SpoolT.contents, List.map_map] at this
    have e : (Prod.fst ∘ selfRow : (TRow × Bool) × P → _) = id := rfl
    rw [e, List.map_id] at this
    rw [← this]; rfl
  have hrow : ∀ d ∈ s.tab.df, Ordered d.2.1.1 ∧ ∃ r : ℕ × ℕ × (TRow × Bool),
      (s.tab.inst.filter fun r => r.2.1 == d.1) = [r] ∧ r.2.2 = d.2.1 ∧
      (s.tab.source.filter fun x => x.1 == r.1) = [(r.1, d.2)] := by
    intro d hd
    have h1 : (d.2, s.tab.joined d.1) ∈ s.tab.contents := List.mem_map_of_mem (f := fun p => (p.2, s.tab.joined p.1)) hd
    rw [hc] at h1
    obtain ⟨x, hx, he⟩ := List.mem_map.1 h1
    simp only [selfRow, Prod.mk.injEq] at he
    obtain ⟨he1, he2⟩ := he
    subst he1
    obtain ⟨r, r1, r2, r3⟩ := joined_single he2.symm
    exact ⟨hord _ hx, r, r1, r2, r3⟩
  set inst' := adj.filter fun r => (df.map Prod.fst).contains r.2.1 with hinst'
  have hinstnd : (inst'.map Prod.fst).Nodup := by
    apply SpoolT.nodup_filter_fst
    rw [k2e]
    exact nodup_put hi.inst _ _ fun _ => rfl
  have hflat := SpoolT.nodup_source' s.tab.source hi.source inst' hinstnd
  have hsource : ∀ r ∈ inst', ((source.filter fun x => x.1 == r.1)) =
      (((s.tab.source.filter fun x => x.1 == r.1).filter fun x => k3 x.2.1.1).map fun x => (x.1, T x.2.1, x.2.2)) := by
    intro r hr
    rw [k3e, filter_put (fun x : ℕ × (TRow × Bool) × P => x.1 == r.1) _ (fun x => (x.1, T x.2.1, x.2.2)) (fun _ => rfl), SpoolT.filter_flatMap_source s.tab.source inst' hinstnd r hr]
  -- the instruction of a row that stays
  have hstay : ∀ d ∈ s.tab.df, k1 d.2.1.1 = true → ∃ r : ℕ × ℕ × (TRow × Bool), r ∈ inst' ∧ (inst'.filter fun r => r.2.1 == d.1) = [r] ∧
      r.2.2 = T d.2.1 ∧ (source.filter fun x => x.1 == r.1) = [(r.1, T d.2.1, d.2.2)] := by
    intro d hd hk
    obtain ⟨ho, r, r1, r2, r3⟩ := hrow d hd
    have hsat := (k1s _ ho).1 hk
    have hmem : d.1 ∈ df.map Prod.fst := by
      rw [k1e, List.map_map]
      exact List.mem_map.2 ⟨d, List.mem_filter.2 ⟨hd, hk⟩, rfl⟩
    have e1 : (inst'.filter fun r => r.2.1 == d.1) = [(r.1, r.2.1, T r.2.2)] := by
      rw [hinst', List.filter_filter]
      have : (adj.filter fun x => x.2.1 == d.1 && (df.map Prod.fst).contains x.2.1) = adj.filter fun x => x.2.1 == d.1 := by
        apply List.filter_congr
        intro x _
        by_cases hx : x.2.1 = d.1
        · rw [hx]; simpa using hmem
        · simp [hx]
      rw [this, k2e, filter_put (fun x : ℕ × ℕ × (TRow × Bool) => x.2.1 == d.1) _ (fun x => (x.1, x.2.1, T x.2.2)) (fun _ => rfl), r1]
      have hk2 : k2 r.2.2.1 = true := by
        rw [r2]
        exact (k2s _ ho).2 (satisfies_inst hq hsat)
      simp [hk2]
    have hr : (r.1, r.2.1, T r.2.2) ∈ inst' := by
      have : (r.1, r.2.1, T r.2.2) ∈ inst'.filter fun r => r.2.1 == d.1 := by rw [e1]; simp
      exact (List.mem_filter.1 this).1
    refine ⟨_, hr, e1, by rw [r2], ?_⟩
    rw [hsource _ hr]
    simp only
    rw [r3]
    have hk3 : k3 d.2.1.1 = true := (k3s _ ho).2 hsat
    simp [hk3]
  rw [← h]
  refine ⟨⟨?_, hinstnd, ?_⟩, rfl, ?_, ?_, T, k1t, ?_⟩
  · simp only
    rw [k3e]
    exact nodup_put hflat _ _ fun _ => rfl
  · intro r hr
    simp only at hr ⊢
    have hlab := (List.mem_filter.1 hr).2
    simp only [List.contains_eq_mem, decide_eq_true_eq] at hlab
    rw [k1e, List.map_map] at hlab
    obtain ⟨d, hd, he⟩ := List.mem_map.1 hlab
    obtain ⟨hd1, hd2⟩ := List.mem_filter.1 hd
    obtain ⟨r', _, h2, _, h4⟩ := hstay d hd1 hd2
    have : r ∈ inst'.filter fun r => r.2.1 == d.1 := List.mem_filter.2 ⟨hr, by simpa using he.symm⟩
    rw [h2, List.mem_singleton] at this
    subst this
    have : (r.1, T d.2.1, d.2.2) ∈ source.filter fun x => x.1 == r.1 := by rw [h4]; simp
    exact ⟨_, (List.mem_filter.1 this).1, rfl⟩
  · simp
  · intro hdist
    unfold SpoolT.Distinct at hdist ⊢
    simp only
    rw [k1e]
    exact nodup_put hdist _ _ fun _ => rfl
  · unfold SpoolT.contents
    simp only
    rw [hl, List.filter_map, List.map_map, List.map_map]
    conv_lhs => rw [k1e, List.map_map]
    have hfil : (s.tab.df.filter fun x => k1 x.2.1.1) = s.tab.df.filter
        ((fun x : (TRow × Bool) × P => decide (∀ kv ∈ q, Satisfies glob s.cols kv.1 kv.2 x.1.1)) ∘ Prod.snd) := by
      apply List.filter_congr
      intro d hd
      rw [Bool.eq_iff_iff, k1s _ (hrow d hd).1]
      simp
    rw [← hfil]
    apply List.map_congr_left
    intro d hd
    obtain ⟨hd1, hd2⟩ := List.mem_filter.1 hd
    obtain ⟨r, hr, h2, h3, h4⟩ := hstay d hd1 hd2
    simp only [Function.comp, selfRow, Prod.mk.injEq, true_and]
    unfold SpoolT.joined
    simp only
    rw [h2]
    simp only [List.flatMap_cons, List.flatMap_nil, List.append_nil]
    unfold SpoolT.joinRow
    simp only
    rw [h4]
    simp [h3]

/-! ### What a row shows after a history of queries -/

/-- The row `x` of a spool shows a patch, `e.1`, asked the queries `e.2`. -/
structure Tracks {P : Type} (glob : String → String → Bool) (cols : List Key) (row : P → TRow) (x : (TRow × Bool) × P)
    (e : P × Query) : Prop where
  same : x.2 = e.1
  shown : Shown cols (row e.1) e.2 x.1
  answers : Answers glob cols (row e.1) e.2
  ordered : Ordered x.1.1
  keys : ∀ kv ∈ e.2, kv.1.suf = .plain

theorem plain_key {k : Key} (h : k.suf = .plain) : k = ⟨k.base, .plain⟩ := by
  cases k; simp only at h; subst h; rfl

theorem key_unique {q : Query} (h : (q.map Prod.fst).Nodup) {k : Key} {v v' : QArg} (h1 : (k, v) ∈ q) (h2 : (k, v') ∈ q) :
    v = v' := by
  induction q with
  | nil => simp at h1
  | cons a q ih =>
    simp only [List.map_cons, List.nodup_cons] at h
    rcases List.mem_cons.1 h1 with g1 | g1 <;> rcases List.mem_cons.1 h2 with g2 | g2
    · rw [← g1] at g2; injection g2 with _ g2; exact g2.symm
    · rw [← g1] at h; exact absurd (List.mem_map_of_mem (f := Prod.fst) g2) h.1
    · rw [← g2] at h; exact absurd (List.mem_map_of_mem (f := Prod.fst) g1) h.1
    · exact ih h.2 g1 g2

/-- Where the cells of a row are limits, those of the patch are. -/
theorem Tracks.limits {P : Type} {glob : String → String → Bool} {cols : List Key} {row : P → TRow} {x : (TRow × Bool) × P}
    {e : P × Query} (h : Tracks glob cols row x e) {b : String} {lo hi : ℚ} (h1 : x.1.1 ⟨b, .min⟩ = .num lo)
    (h2 : x.1.1 ⟨b, .max⟩ = .num hi) : ∃ lo₀ hi₀, row e.1 ⟨b, .min⟩ = .num lo₀ ∧ row e.1 ⟨b, .max⟩ = .num hi₀ := by
  by_cases hask : (⟨b, .plain⟩ : Key) ∉ cols ∧ ∃ v, (⟨b, .plain⟩, v) ∈ e.2
  · obtain ⟨hc, v, hv⟩ := hask
    obtain ⟨lo', hi', t, e1, e2, _⟩ := (h.answers _ hv).2 hc
    exact ⟨lo', hi', e1, e2⟩
  · have hask' : (⟨b, .plain⟩ : Key) ∉ cols → ∀ v, (⟨b, .plain⟩, v) ∉ e.2 := fun h1 v h2 => hask ⟨h1, v, h2⟩
    exact ⟨lo, hi, by rw [← h.shown.unasked ⟨b, .min⟩ hask', h1], by rw [← h.shown.unasked ⟨b, .max⟩ hask', h2]⟩

theorem Tracks.sat_iff {P : Type} {glob : String → String → Bool} {cols : List Key} {row : P → TRow} {x : (TRow × Bool) × P}
    {e : P × Query} (h : Tracks glob cols row x e) {q : Query} (hq : SpoolQuery cols q) :
    (∀ kv ∈ q, Satisfies glob cols kv.1 kv.2 x.1.1) ↔ Answers glob cols (row e.1) (e.2 ++ q) := by
  have hcond : ∀ kv ∈ q, kv.1 ∈ cols → (Satisfies glob cols kv.1 kv.2 x.1.1 ↔ Satisfies glob cols kv.1 kv.2 (row e.1)) := by
    intro kv hkv hk
    have e1 := (hq.conds kv hkv hk).1
    have : x.1.1 kv.1 = row e.1 kv.1 := h.shown.kept kv.1 (by simp [e1]) (by simp [e1])
    unfold Satisfies
    rw [if_pos hk, if_pos hk, this]
  constructor
  · intro hs kv hkv
    constructor
    · intro hk
      rcases List.mem_append.1 hkv with h1 | h1
      · exact (h.answers kv h1).1 hk
      · exact (hcond kv h1 hk).1 (hs kv h1)
    · intro hk
      have hplain : kv.1 = ⟨kv.1.base, .plain⟩ := by
        rcases List.mem_append.1 hkv with h1 | h1
        · exact plain_key (h.keys kv h1)
        · exact plain_key (hq.ranges kv h1 hk).1
      by_cases hask : ∃ v, (kv.1, v) ∈ q
      · obtain ⟨v, hv⟩ := hask
        obtain ⟨e1, e2, e3, e4, a, b, e5, _⟩ := hq.ranges _ hv hk
        simp only at e1 e2 e3 e5
        have := hs _ hv
        unfold Satisfies at this
        rw [if_neg hk] at this
        simp only [e1, e5] at this
        obtain ⟨lo, hi, t, t1, t2, t3, t4, t5⟩ := this e2 e3
        obtain ⟨lo₀, hi₀, l1, l2⟩ := h.limits t1 t2
        obtain ⟨lo', hi', c1, c2, _, c4⟩ := h.shown.cut _ _ _ l1 l2
        rw [t1] at c1
        rw [t2] at c2
        injection c1 with c1
        injection c2 with c2
        subst c1; subst c2
        obtain ⟨d1, d2⟩ := (c4 t).1 ⟨t3, t4⟩
        refine ⟨lo₀, hi₀, t, l1, l2, d1.1, d1.2, ?_⟩
        intro v' hv'
        rcases List.mem_append.1 hv' with h1 | h1
        · rw [hplain] at h1 hk
          exact d2 hk v' h1
        · rw [key_unique hq.keys h1 hv, e5]
          exact t5
      · have h1 : kv ∈ e.2 := by
          rcases List.mem_append.1 hkv with h1 | h1
          · exact h1
          · exact absurd ⟨kv.2, h1⟩ hask
        obtain ⟨lo, hi, t, t1, t2, t3, t4, t5⟩ := (h.answers kv h1).2 hk
        refine ⟨lo, hi, t, t1, t2, t3, t4, ?_⟩
        intro v hv
        rcases List.mem_append.1 hv with h1 | h1
        · exact t5 v h1
        · exact absurd ⟨v, h1⟩ hask
  · intro ha kv hkv
    have hkv' : kv ∈ e.2 ++ q := List.mem_append_right _ hkv
    by_cases hk : kv.1 ∈ cols
    · exact (hcond kv hkv hk).2 ((ha kv hkv').1 hk)
    · obtain ⟨e1, e2, e3, e4, a, b, e5, _⟩ := hq.ranges _ hkv hk
      obtain ⟨lo, hi, t, t1, t2, t3, t4, t5⟩ := (ha kv hkv').2 hk
      obtain ⟨lo', hi', c1, c2, _, c4⟩ := h.shown.cut _ _ _ t1 t2
      have ht := (c4 t).2 ⟨⟨t3, t4⟩, fun _ v hv => t5 v (by
        rw [plain_key e1]; exact List.mem_append_left _ hv)⟩
      have hin := t5 kv.2 hkv'
      rw [e5] at hin
      unfold Satisfies
      rw [if_neg hk]
      simp only [e1, e5]
      exact fun _ _ => ⟨lo', hi', t, c1, c2, ht.1, ht.2, hin⟩

theorem Tracks.step {P : Type} {glob : String → String → Bool} {cols : List Key} {row : P → TRow} {x : (TRow × Bool) × P}
    {e : P × Query} (h : Tracks glob cols row x e) {q : Query} (hq : SpoolQuery cols q) {y : TRow × Bool}
    (hs : ∀ kv ∈ q, Satisfies glob cols kv.1 kv.2 x.1.1) (ht : Trimmed cols q x.1 y) :
    Tracks glob cols row (y, x.2) (e.1, e.2 ++ q) := by
  have hans := (h.sat_iff hq).1 hs
  obtain ⟨m1, m2, m3⟩ := ht
  have hsame : ∀ k : Key, ((⟨k.base, .plain⟩ : Key) ∉ cols → ∀ v, (⟨k.base, .plain⟩, v) ∉ q) → y.1 k = x.1.1 k := by
    intro k hk
    apply m2
    intro k' v hm hr
    have : ¬ k.base = k'.base := by
      intro he
      have hk' := plain_key hr.1
      rw [← he] at hk'
      exact hk (by rw [← hk']; exact hr.2.2.2) v (by rw [← hk']; exact hm)
    constructor <;> (intro hc; exact this (by rw [hc]))
  have hcut : ∀ b lo hi, row e.1 ⟨b, .min⟩ = .num lo → row e.1 ⟨b, .max⟩ = .num hi →
      ∃ lo' hi', y.1 ⟨b, .min⟩ = .num lo' ∧ y.1 ⟨b, .max⟩ = .num hi' ∧ lo' ≤ hi' ∧
        ∀ t, (lo' ≤ t ∧ t ≤ hi') ↔ ((lo ≤ t ∧ t ≤ hi) ∧
          ((⟨b, .plain⟩ : Key) ∉ cols → ∀ v, (⟨b, .plain⟩, v) ∈ e.2 ++ q → InPair v t)) := by
    intro b lo hi h1 h2
    obtain ⟨lo₁, hi₁, c1, c2, c3, c4⟩ := h.shown.cut b lo hi h1 h2
    by_cases hask : (⟨b, .plain⟩ : Key) ∉ cols ∧ ∃ v, (⟨b, .plain⟩, v) ∈ q
    · obtain ⟨hc, v, hv⟩ := hask
      obtain ⟨e1, e2, e3, e4, a, a', e5, _⟩ := hq.ranges _ hv hc
      simp only at e2 e3 e4 e5
      obtain ⟨lo', hi', d1, d2, d3⟩ := m1 _ v hv ⟨rfl, e2, e3, hc⟩ lo₁ hi₁ c1 c2
      have hiff : ∀ t, (lo' ≤ t ∧ t ≤ hi') ↔ ((lo ≤ t ∧ t ≤ hi) ∧
          ((⟨b, .plain⟩ : Key) ∉ cols → ∀ v, (⟨b, .plain⟩, v) ∈ e.2 ++ q → InPair v t)) := by
        intro t
        rw [d3 t, c4 t]
        have hin : Within (rangeLimits v).1 (rangeLimits v).2 t ↔ InPair v t := by rw [e5]; rfl
        rw [hin]
        constructor
        · rintro ⟨⟨g1, g2⟩, g3⟩
          refine ⟨g1, fun hc v' hv' => ?_⟩
          rcases List.mem_append.1 hv' with hv' | hv'
          · exact g2 hc v' hv'
          · rw [key_unique hq.keys hv' hv]; exact g3
        · rintro ⟨g1, g2⟩
          exact ⟨⟨g1, fun hc v' hv' => g2 hc v' (List.mem_append_left _ hv')⟩, g2 hc v (List.mem_append_right _ hv)⟩
      obtain ⟨lo₂, hi₂, t, u1, u2, u3, u4, u5⟩ := (hans _ (List.mem_append_right _ hv)).2 hc
      simp only at u1 u2 u5
      rw [h1] at u1
      rw [h2] at u2
      injection u1 with u1
      injection u2 with u2
      subst u1; subst u2
      have := (hiff t).2 ⟨⟨u3, u4⟩, fun _ v hv => u5 v hv⟩
      exact ⟨lo', hi', d1, d2, this.1.trans this.2, hiff⟩
    · have hask' : (⟨b, .plain⟩ : Key) ∉ cols → ∀ v, (⟨b, .plain⟩, v) ∉ q := fun h1 v h2 => hask ⟨h1, v, h2⟩
      refine ⟨lo₁, hi₁, by rw [hsame ⟨b, .min⟩ hask', c1], by rw [hsame ⟨b, .max⟩ hask', c2], c3, ?_⟩
      intro t
      rw [c4 t]
      apply and_congr_right
      intro _
      constructor
      · intro g hc v hv
        rcases List.mem_append.1 hv with hv | hv
        · exact g hc v hv
        · exact absurd hv (hask' hc v)
      · exact fun g hc v hv => g hc v (List.mem_append_left _ hv)
  have hkept : ∀ k : Key, k.suf ≠ .min → k.suf ≠ .max → y.1 k = row e.1 k := by
    intro k h1 h2
    rw [← h.shown.kept k h1 h2]
    apply m2
    intro k' v hm hr
    constructor <;> (intro hc; rw [hc] at h1 h2; simp at h1 h2)
  have hun : ∀ k : Key, ((⟨k.base, .plain⟩ : Key) ∉ cols → ∀ v, (⟨k.base, .plain⟩, v) ∉ e.2 ++ q) → y.1 k = row e.1 k := by
    intro k hk
    rw [hsame k fun hc v hv => hk hc v (List.mem_append_right _ hv)]
    exact h.shown.unasked k fun hc v hv => hk hc v (List.mem_append_left _ hv)
  have hback : (∀ k, y.1 k = row e.1 k) → ∀ k, x.1.1 k = row e.1 k := by
    intro hy k
    by_cases hask : (⟨k.base, .plain⟩ : Key) ∉ cols ∧ ∃ v, (⟨k.base, .plain⟩, v) ∈ e.2
    · obtain ⟨hc, v, hv⟩ := hask
      by_cases hmin : k.suf = .min ∨ k.suf = .max
      · obtain ⟨lo, hi, _, l1, l2, _⟩ := (h.answers _ hv).2 hc
        simp only at l1 l2
        obtain ⟨lo₁, hi₁, c1, c2, c3, c4⟩ := h.shown.cut _ _ _ l1 l2
        obtain ⟨lo', hi', d1, d2, d3, d4⟩ := hcut _ _ _ l1 l2
        rw [hy, l1] at d1
        rw [hy, l2] at d2
        injection d1 with d1
        injection d2 with d2
        subst d1; subst d2
        have sub : ∀ t, lo ≤ t ∧ t ≤ hi → lo₁ ≤ t ∧ t ≤ hi₁ := fun t ht =>
          (c4 t).2 ⟨ht, fun hc v hv => ((d4 t).1 ht).2 hc v (List.mem_append_left _ hv)⟩
        have e1 : lo₁ = lo := le_antisymm (sub lo ⟨le_rfl, d3⟩).1 ((c4 lo₁).1 ⟨le_rfl, c3⟩).1.1
        have e2 : hi₁ = hi := le_antisymm ((c4 hi₁).1 ⟨c3, le_rfl⟩).1.2 (sub hi ⟨d3, le_rfl⟩).2
        subst e1; subst e2
        rcases hmin with hm | hm
        · have : k = ⟨k.base, .min⟩ := by cases k; simp only at hm; subst hm; rfl
          rw [this]; exact c1.trans l1.symm
        · have : k = ⟨k.base, .max⟩ := by cases k; simp only at hm; subst hm; rfl
          rw [this]; exact c2.trans l2.symm
      · exact h.shown.kept k (fun hc => hmin (Or.inl hc)) fun hc => hmin (Or.inr hc)
    · exact h.shown.unasked k fun h1 v h2 => hask ⟨h1, v, h2⟩
  refine ⟨h.same, ⟨hcut, hkept, hun, ?_⟩, hans, ?_, ?_⟩
  · rw [m3, h.shown.flag]
    constructor
    · intro hh
      by_contra hn
      push Not at hn
      have hx := hback hn
      rcases hh with ⟨k, hk⟩ | ⟨k, hk⟩
      · exact hk (hx k)
      · exact hk ((hn k).trans (hx k).symm)
    · rintro ⟨k, hk⟩
      by_cases hx : x.1.1 k = row e.1 k
      · exact Or.inr ⟨k, by rw [hx]; exact hk⟩
      · exact Or.inl ⟨k, hx⟩
  · intro b lo hi h1 h2
    by_cases hask : (⟨b, .plain⟩ : Key) ∉ cols ∧ ∃ v, (⟨b, .plain⟩, v) ∈ e.2 ++ q
    · obtain ⟨hc, v, hv⟩ := hask
      obtain ⟨lo₀, hi₀, _, l1, l2, _⟩ := (hans _ hv).2 hc
      obtain ⟨lo', hi', d1, d2, d3, _⟩ := hcut b _ _ l1 l2
      simp only at h1 h2
      rw [h1] at d1
      rw [h2] at d2
      injection d1 with d1
      injection d2 with d2
      rw [d1, d2]; exact d3
    · have hask' : (⟨b, .plain⟩ : Key) ∉ cols → ∀ v, (⟨b, .plain⟩, v) ∉ q :=
        fun h1 v h2 => hask ⟨h1, v, List.mem_append_right _ h2⟩
      simp only at h1 h2
      rw [hsame ⟨b, .min⟩ hask'] at h1
      rw [hsame ⟨b, .max⟩ hask'] at h2
      exact h.ordered b lo hi h1 h2
  · intro kv hkv
    rcases List.mem_append.1 hkv with h1 | h1
    · exact h.keys kv h1
    · by_cases hk : kv.1 ∈ cols
      · exact (hq.conds kv h1 hk).1
      · exact (hq.ranges kv h1 hk).1

theorem tracks_new {P : Type} {glob : String → String → Bool} {cols : List Key} {row : P → TRow} {p : P}
    (h : Ordered (row p)) : Tracks glob cols row ((row p, false), p) (p, []) := by
  refine ⟨rfl, ⟨?_, fun _ _ _ => rfl, fun _ _ => rfl, by simp⟩, ?_, h, by simp⟩
  · intro b lo hi h1 h2
    exact ⟨lo, hi, h1, h2, h b lo hi h1 h2, by simp⟩
  · intro kv hkv; simp at hkv

end Verif
