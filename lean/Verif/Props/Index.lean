import Verif.Spec.Index
import Verif.Proof.Dict
/-! # Property theorems: directory walks, index queries and the query cache (C54, C30, C31) -/
namespace Verif
open Spec

/-! ## C54 -/

theorem hidden_iff (n : String) : hidden n = true ↔ DotName n := by
  unfold hidden DotName
  rw [beq_iff_eq]
  cases n.toList with
  | nil => simp
  | cons a l => simp

theorem wants_iff (o : FsOpts) (n : String) (t : ℚ) : o.wants n t = true ↔ Wanted o n t := by
  unfold FsOpts.wants
  rw [Bool.and_eq_true, Bool.and_eq_true]
  constructor
  · rintro ⟨⟨h1, h2⟩, h3⟩
    refine ⟨?_, ?_, ?_⟩
    · intro e he
      rw [he] at h1
      obtain ⟨l, hl⟩ := List.isSuffixOf_iff_suffix.1 h1
      exact ⟨l, hl.symm⟩
    · intro t' ht
      rw [ht] at h2
      simpa using h2
    · intro hs hd
      rw [(hidden_iff n).2 hd, hs] at h3
      simp at h3
  · rintro ⟨h1, h2, h3⟩
    refine ⟨⟨?_, ?_⟩, ?_⟩
    · cases he : o.ext with
      | none => rfl
      | some e =>
        obtain ⟨l, hl⟩ := h1 e he
        exact List.isSuffixOf_iff_suffix.2 ⟨l, hl.symm⟩
    · cases ht : o.timestamp with
      | none => rfl
      | some t' => simpa using h2 t' ht
    · cases hs : o.skipHidden with
      | false => simp
      | true =>
        have := h3 hs
        rw [← hidden_iff] at this
        simp [this]

theorem mem_iterEntries (o : FsOpts) (path : List String) (es : List FsEntry) (p : List String) :
    p ∈ iterEntries o path es ↔ ∃ e ∈ es, p ∈ iterEntry o path e := by
  induction es with
  | nil => simp [iterEntries]
  | cons e es ih => simp [iterEntries, ih]

theorem handsOut_iff (o : FsOpts) : (o.dirs && !(o.skipHidden && o.dotBase)) = true ↔ HandsOut o := by
  unfold HandsOut
  cases o.dirs <;> cases o.skipHidden <;> cases o.dotBase <;> simp

/-- Is the directory's contents iterated? -/
theorem mem_iterDir (o : FsOpts) (path : List String) (es : List FsEntry) (p : List String) :
    p ∈ iterDir o path es ↔ (HandsOut o ∧ p = path) ∨ ((HandsOut o → o.skip path = false) ∧ p ∈ iterEntries o path es) := by
  unfold iterDir dirOut
  by_cases h : (o.dirs && !(o.skipHidden && o.dotBase)) = true
  · rw [if_pos h]
    have h' := (handsOut_iff o).1 h
    by_cases hs : o.skip path = true
    · rw [if_pos hs]; simp [h', hs]
    · rw [if_neg hs]; simp [h', hs]
  · rw [if_neg h]
    have h' : ¬ HandsOut o := fun x => h ((handsOut_iff o).2 x)
    simp [h']

/-- What is handed out: a file below `base`, or a directory. -/
def Yielded (o : FsOpts) (base : List String) (es : List FsEntry) (p : List String) : Prop :=
  (∃ ds sub name mtime, DirAt es ds sub ∧ FsEntry.file name mtime ∈ sub ∧ p = base ++ ds ++ [name] ∧ Wanted o name mtime ∧
    VisibleWay o ds ∧ OpenWay o base ds (ds.length + 1)) ∨
  (HandsOut o ∧ ∃ ds sub, DirAt es ds sub ∧ p = base ++ ds ∧ VisibleWay o ds ∧ OpenWay o base ds ds.length)

theorem openWay_cons {o : FsOpts} {base ds : List String} {d : String} {n : ℕ} :
    OpenWay o base (d :: ds) (n + 1) ↔ (HandsOut o → o.skip base = false) ∧ OpenWay o (base ++ [d]) ds n := by
  unfold OpenWay
  constructor
  · intro h
    refine ⟨fun hh => by simpa using h hh 0 (by omega), fun hh k hk => ?_⟩
    have := h hh (k + 1) (by omega)
    rw [List.take_succ_cons] at this
    rwa [List.append_assoc, List.singleton_append]
  · rintro ⟨h1, h2⟩ hh k hk
    cases k with
    | zero => simpa using h1 hh
    | succ k =>
      rw [List.take_succ_cons]
      have := h2 hh k (by omega)
      rwa [List.append_assoc, List.singleton_append] at this

theorem visibleWay_cons {o : FsOpts} {ds : List String} {d : String} :
    VisibleWay o (d :: ds) ↔ (o.skipHidden && hidden d) = false ∧ VisibleWay o ds := by
  unfold VisibleWay
  rw [← Bool.not_eq_true, Bool.and_eq_true, hidden_iff]
  constructor
  · intro h
    exact ⟨fun hh => h hh.1 d List.mem_cons_self hh.2, fun hh e he => h hh e (List.mem_cons_of_mem _ he)⟩
  · rintro ⟨h1, h2⟩ hh e he
    rcases List.mem_cons.1 he with rfl | he
    · exact fun x => h1 ⟨hh, x⟩
    · exact h2 hh e he

theorem openWay_one {o : FsOpts} {base ds : List String} : OpenWay o base ds 1 ↔ (HandsOut o → o.skip base = false) := by
  unfold OpenWay
  constructor
  · intro h hh; simpa using h hh 0 (by omega)
  · intro h hh k hk
    have : k = 0 := by omega
    subst this
    simpa using h hh

theorem iterDir_of_yielded {o : FsOpts} {es : List FsEntry} {ds : List String} {sub : List FsEntry} (h : DirAt es ds sub) :
    ∀ base p, VisibleWay o ds →
      ((∃ name mtime, FsEntry.file name mtime ∈ sub ∧ p = base ++ ds ++ [name] ∧ Wanted o name mtime ∧ OpenWay o base ds (ds.length + 1)) ∨
      (HandsOut o ∧ p = base ++ ds ∧ OpenWay o base ds ds.length)) → p ∈ iterDir o base es := by
  induction h with
  | here es =>
    rintro base p _ (⟨name, mtime, h1, rfl, h2, h3⟩ | ⟨h1, rfl, _⟩)
    · rw [mem_iterDir]
      right
      refine ⟨openWay_one.1 h3, (mem_iterEntries _ _ _ _).2 ⟨_, h1, ?_⟩⟩
      rw [iterEntry, if_pos ((wants_iff o name mtime).2 h2)]
      simp
    · rw [mem_iterDir]; left; exact ⟨h1, by simp⟩
  | @there es d inner ds sub hd _ ih =>
    intro base p hv hp
    obtain ⟨v1, v2⟩ := visibleWay_cons.1 hv
    have key : (HandsOut o → o.skip base = false) ∧ p ∈ iterDir o (base ++ [d]) inner := by
      rcases hp with ⟨name, mtime, h1, rfl, h2, h3⟩ | ⟨h1, rfl, h3⟩
      · obtain ⟨w1, w2⟩ := openWay_cons.1 h3
        refine ⟨w1, ih (base ++ [d]) _ v2 (Or.inl ⟨name, mtime, h1, by simp, h2, w2⟩)⟩
      · obtain ⟨w1, w2⟩ := openWay_cons.1 h3
        exact ⟨w1, ih (base ++ [d]) _ v2 (Or.inr ⟨h1, by simp, w2⟩)⟩
    rw [mem_iterDir]
    right
    refine ⟨key.1, (mem_iterEntries _ _ _ _).2 ⟨_, hd, ?_⟩⟩
    rw [iterEntry, if_neg (by rw [v1]; simp)]
    exact key.2

theorem yielded_of_iterDir (o : FsOpts) (es : List FsEntry) (base p : List String) (h : p ∈ iterDir o base es) : Yielded o base es p := by
  rw [mem_iterDir] at h
  rcases h with ⟨h1, rfl⟩ | ⟨h1, h2⟩
  · right
    refine ⟨h1, [], es, .here es, by simp, fun _ _ h => by simp at h, fun _ _ h => by simp at h⟩
  · obtain ⟨e, he, hp⟩ := (mem_iterEntries _ _ _ _).1 h2
    cases e with
    | file name mtime =>
      rw [iterEntry] at hp
      split_ifs at hp with hw
      · left
        simp only [List.mem_singleton] at hp
        refine ⟨[], es, name, mtime, .here es, he, by simp [hp], (wants_iff _ _ _).1 hw, fun _ _ h => by simp at h, openWay_one.2 h1⟩
      · simp at hp
    | dir name inner =>
      rw [iterEntry] at hp
      split_ifs at hp with hh
      · simp at hp
      · have : sizeOf inner < sizeOf es := by
          have := List.sizeOf_lt_of_mem he
          simp at this; omega
        have hv : (o.skipHidden && hidden name) = false := by simpa using hh
        rcases yielded_of_iterDir o inner (base ++ [name]) p hp with ⟨ds, sub, n, m, a1, a2, a3, a4, a5, a6⟩ | ⟨a0, ds, sub, a1, a3, a5, a6⟩
        · left
          refine ⟨name :: ds, sub, n, m, .there he a1, a2, by simp [a3], a4, visibleWay_cons.2 ⟨hv, a5⟩, openWay_cons.2 ⟨h1, a6⟩⟩
        · right
          exact ⟨a0, name :: ds, sub, .there he a1, by simp [a3], visibleWay_cons.2 ⟨hv, a5⟩, openWay_cons.2 ⟨h1, a6⟩⟩
termination_by sizeOf es

/-- **C54.** Walking a directory hands out exactly: the files, at any depth, that have the right ending, are new enough
and are not hidden, and, if directories are wanted, the directories; in both cases none of the directories on the
way is hidden, and none has been skipped by signal (a skipped directory is handed out itself, but nothing below
it). -/
theorem C54_exact (o : FsOpts) (base : List String) (es : List FsEntry) (p : List String) :
    p ∈ iterDir o base es ↔
      (∃ ds sub name mtime, DirAt es ds sub ∧ FsEntry.file name mtime ∈ sub ∧ p = base ++ ds ++ [name] ∧ Wanted o name mtime ∧
        VisibleWay o ds ∧ OpenWay o base ds (ds.length + 1)) ∨
      (HandsOut o ∧ ∃ ds sub, DirAt es ds sub ∧ p = base ++ ds ∧ VisibleWay o ds ∧ OpenWay o base ds ds.length) := by
  constructor
  · exact yielded_of_iterDir o es base p
  · rintro (⟨ds, sub, n, m, a1, a2, a3, a4, a5, a6⟩ | ⟨a0, ds, sub, a1, a3, a5, a6⟩)
    · exact iterDir_of_yielded a1 base p a5 (Or.inl ⟨n, m, a2, a3, a4, a6⟩)
    · exact iterDir_of_yielded a1 base p a5 (Or.inr ⟨a0, a3, a6⟩)

theorem iterEntry_shape {o : FsOpts} {base : List String} {e : FsEntry} {p : List String} (h : p ∈ iterEntry o base e) :
    ∃ r, p = base ++ entryName e :: r := by
  cases e with
  | file name mtime =>
    rw [iterEntry] at h
    split_ifs at h
    · exact ⟨[], by simpa [entryName] using h⟩
    · simp at h
  | dir name inner =>
    rw [iterEntry] at h
    split_ifs at h
    · simp at h
    · rcases yielded_of_iterDir o inner _ p h with ⟨ds, _, n, _, _, _, rfl, _⟩ | ⟨_, ds, _, _, rfl, _⟩
      · exact ⟨ds ++ [n], by simp [entryName]⟩
      · exact ⟨ds, by simp [entryName]⟩

/-- **C54.** Nothing is handed out twice. -/
theorem C54_once (o : FsOpts) (es : List FsEntry) (hg : GoodTree es) (base : List String) : (iterDir o base es).Nodup := by
  induction hg generalizing base with
  | @mk es hn _ ih =>
    have key : ∀ l : List FsEntry, (∀ e ∈ l, e ∈ es) → (l.map entryName).Nodup → (iterEntries o base l).Nodup := by
      intro l
      induction l with
      | nil => intro _ _; simp [iterEntries]
      | cons e l ihl =>
        intro hl hnl
        rw [List.map_cons, List.nodup_cons] at hnl
        rw [iterEntries, List.nodup_append]
        refine ⟨?_, ihl (fun x hx => hl x (List.mem_cons_of_mem _ hx)) hnl.2, ?_⟩
        · cases e with
          | file name mtime => rw [iterEntry]; split_ifs <;> simp
          | dir name inner =>
            rw [iterEntry]
            split_ifs
            · simp
            · exact ih name inner (hl _ List.mem_cons_self) _
        · intro p hp q hq hpq
          subst hpq
          obtain ⟨r, hr⟩ := iterEntry_shape hp
          obtain ⟨e', he', hq'⟩ := (mem_iterEntries _ _ _ _).1 hq
          obtain ⟨r', hr'⟩ := iterEntry_shape hq'
          rw [hr] at hr'
          have := List.append_cancel_left hr'
          rw [List.cons.injEq] at this
          exact hnl.1 (this.1 ▸ List.mem_map.2 ⟨e', he', rfl⟩)
    have hk := key es (fun _ h => h) hn
    unfold iterDir dirOut
    split_ifs
    · simp
    · rw [List.nodup_cons]
      refine ⟨?_, hk⟩
      intro hp
      obtain ⟨e, _, he⟩ := (mem_iterEntries _ _ _ _).1 hp
      obtain ⟨r, hr⟩ := iterEntry_shape he
      have := congrArg List.length hr
      simp at this
    · exact hk

/-- A small directory. -/
def exTree : List FsEntry := [.file "a.h5" 5, .file ".dascore_index.h5" 9, .file "b.txt" 5,
  .dir "sub" [.file "c.h5" 7, .file "old.h5" 1], .dir ".git" [.file "d.h5" 7]]

example : iterDir ⟨some ".h5", some 2, true, false, false, fun _ => false⟩ [] exTree = [["a.h5"], ["sub", "c.h5"]] ∧
    iterDir ⟨none, none, true, true, false, fun p => p == ["sub"]⟩ [] exTree = [[], ["a.h5"], ["b.txt"], ["sub"]] := by
  constructor <;> decide +kernel

example : GoodTree exTree := by
  refine .mk (by decide) ?_
  intro n sub h
  simp only [exTree, List.mem_cons, reduceCtorEq, FsEntry.dir.injEq, false_or, List.not_mem_nil, or_false] at h
  rcases h with ⟨rfl, rfl⟩ | ⟨rfl, rfl⟩ <;>
  · refine .mk (by decide) ?_
    intro n sub h
    simp at h

/-- **C54 violated** (directories of a relative base path): with base path "." no directory is handed out at all, not
even those that are not hidden, because the test for a leading dot looks at the whole path. -/
theorem C54_dot_violated :
    iterDir ⟨none, none, true, true, true, fun _ => false⟩ [] [.dir "sub" [.file "c.h5" 7]] = [["sub", "c.h5"]] ∧
    iterDir ⟨none, none, true, true, false, fun _ => false⟩ [] [.dir "sub" [.file "c.h5" 7]] = [[], ["sub"], ["sub", "c.h5"]] := by
  constructor <;> decide +kernel

/-! ## C30 -/

theorem meets_kernel {β} {lo hi : ℤ} {r : IRow β} (h : Meets lo hi r) (he : NotOnEdge lo hi r) : kernelQuery lo hi r = true := by
  unfold Meets at h
  unfold NotOnEdge at he
  unfold kernelQuery BUFFER
  rw [Bool.or_eq_true, Bool.or_eq_true, Bool.and_eq_true, Bool.and_eq_true, Bool.and_eq_true]
  repeat rw [decide_eq_true_iff]
  by_contra hc
  push Not at hc
  obtain ⟨h1, h2, h3⟩ := hc
  by_cases a : lo - 1000000000 < r.tmin
  · have := h1 a; omega
  · by_cases b : r.tmax < hi + 1000000000
    · have : lo - 1000000000 < r.tmax := by omega
      have := h2 this; omega
    · obtain ⟨x, y⟩ := he (by omega) (by omega)
      have := h3 x; omega

theorem trim_filter {β} (cond : IRow β → Bool) (lo hi : ℤ) (rows : List (IRow β)) :
    trimIndex cond lo hi rows = rows.filter fun r => cond r && decide (Meets lo hi r) := by
  unfold trimIndex
  rw [List.filter_filter]
  apply List.filter_congr
  intro r _
  rw [Bool.eq_iff_iff]
  rw [Bool.and_eq_true, Bool.and_eq_true, Bool.and_eq_true, decide_eq_true_iff]
  simp only [preFilter, timeCond, BUFFER, Bool.and_eq_true, Bool.not_eq_true', Bool.or_eq_false_iff, decide_eq_false_iff_not, Meets]
  constructor
  · rintro ⟨⟨h1, h2⟩, h3, h4⟩
    exact ⟨h1, by omega, by omega⟩
  · rintro ⟨h1, h2, h3⟩
    exact ⟨⟨h1, by omega, by omega⟩, decide_eq_false (by omega), decide_eq_false (by omega)⟩

/-- **C30.** Only rows that meet the window (and the other conditions) are answered, each as often as it is in the
index and in the order of the index. -/
theorem C30_sound {β} (cond : IRow β → Bool) (lo hi : ℤ) (table : List (IRow β)) :
    (contentsFromFile cond lo hi table).Sublist (table.filter fun r => cond r && decide (Meets lo hi r)) := by
  unfold contentsFromFile
  rw [trim_filter, List.filter_filter]
  rw [show (table.filter fun r => (cond r && decide (Meets lo hi r)) && kernelQuery lo hi r) =
    (table.filter fun r => cond r && decide (Meets lo hi r)).filter (kernelQuery lo hi) by
      rw [List.filter_filter]; congr 1; funext r; rw [Bool.and_comm]]
  exact List.filter_sublist

/-- **C30.** And all of them, as long as no row's interval covers the window with a margin of exactly one second at one
end and at least one second at the other. Missing: those rows, see `C30_edge_violated`. -/
theorem C30_complete_partial {β} (cond : IRow β → Bool) (lo hi : ℤ) (table : List (IRow β))
    (he : ∀ r ∈ table, NotOnEdge lo hi r) :
    contentsFromFile cond lo hi table = table.filter fun r => cond r && decide (Meets lo hi r) := by
  unfold contentsFromFile
  rw [trim_filter, List.filter_filter]
  apply List.filter_congr
  intro r hr
  by_cases hm : Meets lo hi r
  · rw [meets_kernel hm (he r hr), Bool.and_true]
  · simp [hm]

example : (∀ r ∈ [(⟨0, 10, "a"⟩ : IRow String), ⟨11, 20, "b"⟩, ⟨21, 30, "c"⟩], NotOnEdge 10 15 r) ∧
    (contentsFromFile (fun _ => true) 10 15 [(⟨0, 10, "a"⟩ : IRow String), ⟨11, 20, "b"⟩, ⟨21, 30, "c"⟩]).map (fun r => r.rest) = ["a", "b"] := by
  constructor
  · intro r hr
    simp only [List.mem_cons, List.not_mem_nil, or_false] at hr
    rcases hr with rfl | rfl | rfl <;> intro h <;> simp at h
  · decide +kernel

/-- **C30 violated.** A row that covers the window with one second to spare on both sides is missed. -/
theorem C30_edge_violated : ∃ r : IRow String, Meets 5000000000 6000000000 r ∧ contentsFromFile (fun _ => true) 5000000000 6000000000 [r] = [] :=
  ⟨⟨4000000000, 7000000000, ""⟩, by decide +kernel, by
    have h : kernelQuery 5000000000 6000000000 (⟨4000000000, 7000000000, ""⟩ : IRow String) = false := by decide +kernel
    unfold contentsFromFile
    rw [List.filter_cons_of_neg (by rw [h]; simp)]
    rfl⟩

/-- **C30 violated.** The limit 0 (1970-01-01) counts as no limit. -/
theorem C30_zero_violated : getMaxMinTimes (.num 0) (.num 5) = .ok (SMALLDT, 5000000000) ∧
    getMaxMinTimes (.num 1) (.num 5) = .ok (1000000000, 5000000000) := by
  constructor <;> decide +kernel

/-- **C30.** Limits that are given and are not zero are taken as they are; a missing limit is beyond every time stored. -/
theorem C30_limits (a b : TimeArg) (ha : a ≠ .num 0) (hb : b ≠ .num 0) (lo hi : ℤ) (h : getMaxMinTimes a b = .ok (lo, hi)) :
    lo ≤ hi ∧ (∀ s, a = .num s → lo = s * 1000000000) ∧ (∀ n, a = .dt n → lo = n) ∧ (a = .none → lo = SMALLDT) ∧
      (∀ s, b = .num s → hi = s * 1000000000) ∧ (∀ n, b = .dt n → hi = n) ∧ (b = .none → hi = LARGEDT) := by
  unfold getMaxMinTimes at h
  by_cases hc : b.orElse LARGEDT < a.orElse SMALLDT
  · rw [if_pos hc] at h; cases h
  rw [if_neg hc] at h
  cases h
  refine ⟨not_lt.1 hc, ?_, ?_, ?_, ?_, ?_, ?_⟩
  · rintro s rfl
    have : s ≠ 0 := by rintro rfl; exact ha rfl
    simp [TimeArg.orElse, this]
  · rintro s rfl; rfl
  · rintro rfl; rfl
  · rintro s rfl
    have : s ≠ 0 := by rintro rfl; exact hb rfl
    simp [TimeArg.orElse, this]
  · rintro s rfl; rfl
  · rintro rfl; rfl

example : getMaxMinTimes (.dt 7) .none = .ok (7, LARGEDT) := by decide +kernel

/-! ## C31 -/

/-- What the rows of the cache are: answers to earlier queries on the present table. -/
def CacheOk {β} (s : IState β) : Prop :=
  ∀ x, some x ∈ s.slots → x.key = [] ∧ x.t1 ≤ x.t2 ∧ x.cindex = s.table.filter (kernelQuery x.t1 x.t2) ∧
    ∀ r ∈ s.table, NotOnEdge x.t1 x.t2 r

theorem query_ok {β} (m : Meaning β) (hm : ∀ rows, m.read [] rows = rows) (s : IState β) (hs : CacheOk s) (q : IQuery) (hq : q.hdf = [])
    (hlh : q.lo ≤ q.hi) (he : ∀ r ∈ s.table, NotOnEdge q.lo q.hi r) :
    (s.query m q).1 = contentsFromFile (m.cond q.other) q.lo q.hi s.table ∧ CacheOk (s.query m q).2 ∧ (s.query m q).2.table = s.table := by
  have miss : ∀ t : IState β, t = { s with slots := s.slots.set s.next (some ⟨q.lo, q.hi, q.hdf, m.read q.hdf (s.table.filter (kernelQuery q.lo q.hi))⟩), cur := s.next } →
      CacheOk t ∧ t.table = s.table := by
    rintro t rfl
    refine ⟨?_, rfl⟩
    intro x hx
    rcases List.mem_or_eq_of_mem_set hx with hx | hx
    · exact hs x hx
    · cases hx
      refine ⟨hq, hlh, ?_, he⟩
      show m.read q.hdf _ = _
      rw [hq, hm]
  have miss1 : trimIndex (m.cond q.other) q.lo q.hi (m.read q.hdf (s.table.filter (kernelQuery q.lo q.hi))) =
      contentsFromFile (m.cond q.other) q.lo q.hi s.table := by
    rw [hq, hm]; rfl
  unfold IState.query
  cases hf : s.slots.find? (fun o => o.any fun x => x.answers q) with
  | none => exact ⟨miss1, (miss _ rfl).1, (miss _ rfl).2⟩
  | some o =>
    cases o with
    | none => exact ⟨miss1, (miss _ rfl).1, (miss _ rfl).2⟩
    | some x =>
      simp only
      refine ⟨?_, hs, trivial⟩
      have hx := List.mem_of_find?_eq_some hf
      have ha := List.find?_some hf
      simp only [Option.any_some, Slot.answers, Bool.and_eq_true, decide_eq_true_eq] at ha
      obtain ⟨h1, h2, h3, h4⟩ := hs x hx
      rw [C30_complete_partial _ _ _ _ he, trim_filter, h3, List.filter_filter]
      apply List.filter_congr
      intro r hr
      by_cases hm' : Meets q.lo q.hi r
      · have hmx : Meets x.t1 x.t2 r := by unfold Meets at hm' ⊢; omega
        rw [meets_kernel hmx (h4 r hr), Bool.and_true]
      · simp [hm']

/-- The rows an operation adds. -/
def opRows {β} : IOp β → List (IRow β)
  | .update rows => rows
  | .external rows => rows
  | .query _ => []

theorem run_ok {β} (m : Meaning β) (hm : ∀ rows, m.read [] rows = rows) : ∀ (ops : List (IOp β)) (s : IState β), CacheOk s →
    (∀ q, IOp.query q ∈ ops → q.hdf = [] ∧ q.lo ≤ q.hi ∧ (∀ r ∈ s.table, NotOnEdge q.lo q.hi r) ∧
      ∀ op ∈ ops, ∀ r ∈ opRows op, NotOnEdge q.lo q.hi r) →
    (∀ rows, IOp.external rows ∉ ops) → s.run m ops = uncached m s.table ops := by
  intro ops
  induction ops with
  | nil => intro s _ _ _; rfl
  | cons op ops ih =>
    intro s hs hq hx
    have hq' : ∀ t : List (IRow β), (∀ r ∈ t, r ∈ s.table ∨ r ∈ opRows op) → ∀ q, IOp.query q ∈ ops → q.hdf = [] ∧ q.lo ≤ q.hi ∧
        (∀ r ∈ t, NotOnEdge q.lo q.hi r) ∧ ∀ op ∈ ops, ∀ r ∈ opRows op, NotOnEdge q.lo q.hi r := by
      intro t ht q hmem
      obtain ⟨a, b, c, d⟩ := hq q (List.mem_cons_of_mem _ hmem)
      refine ⟨a, b, fun r hr => ?_, fun o ho => d o (List.mem_cons_of_mem _ ho)⟩
      rcases ht r hr with h | h
      · exact c r h
      · exact d op List.mem_cons_self r h
    have hx' : ∀ rows, IOp.external rows ∉ ops := fun rows h => hx rows (List.mem_cons_of_mem _ h)
    cases op with
    | query q =>
      obtain ⟨a, b, c, _⟩ := hq q List.mem_cons_self
      obtain ⟨h1, h2, h3⟩ := query_ok m hm s hs q a b c
      show _ :: _ = _ :: _
      rw [h1, ih _ h2 (by rw [h3]; exact hq' _ fun r hr => Or.inl hr) hx', h3]
    | update rows =>
      show IState.run m (s.update rows) ops = uncached m (s.table ++ rows) ops
      have htab : (s.update rows).table = s.table ++ rows := by
        unfold IState.update
        cases rows <;> simp
      have hok : CacheOk (s.update rows) := by
        unfold IState.update
        cases rows with
        | nil => exact hs
        | cons r rows =>
          intro x hx
          simp at hx
      rw [ih _ hok (by rw [htab]; exact hq' _ fun r hr => List.mem_append.1 hr) hx', htab]
    | external rows => exact absurd List.mem_cons_self (hx rows)

/-- **C31.** In every history of queries and updates by one indexer, every query gets the answer that the file gives, as
long as no query passes keywords to the file reader and no row lies on the edge of a queried window (see
`C30_edge_violated`). Missing: those two cases, and other indexers on the same file, see the violations below. -/
theorem C31_transparent_partial {β} (m : Meaning β) (hm : ∀ rows, m.read [] rows = rows) (size : ℕ) (table : List (IRow β))
    (ops : List (IOp β)) (hx : ∀ rows, IOp.external rows ∉ ops)
    (hq : ∀ q, IOp.query q ∈ ops → q.hdf = [] ∧ q.lo ≤ q.hi ∧ (∀ r ∈ table, NotOnEdge q.lo q.hi r) ∧
      ∀ op ∈ ops, ∀ r ∈ opRows op, NotOnEdge q.lo q.hi r) :
    (IState.start size table).run m ops = uncached m table ops := by
  apply run_ok m hm ops (IState.start size table) _ hq hx
  intro x hx
  simp [IState.start] at hx

/-- Keywords that mean nothing, except that `columns` hides every row. -/
def exMeaning : Meaning String := ⟨fun k rows => if k.isEmpty then rows else [], fun _ _ => true⟩

/-- The names of the rows of each answer. -/
def answerNames (l : List (List (IRow String))) : List (List String) := l.map fun a => a.map fun r => r.rest

example : (∀ rows, exMeaning.read [] rows = rows) ∧
    answerNames ((IState.start 2 [(⟨0, 10, "a"⟩ : IRow String)]).run exMeaning
      [.query ⟨0, 50, [], []⟩, .query ⟨5, 6, [], []⟩, .update [⟨20, 30, "b"⟩], .query ⟨0, 50, [], []⟩]) = [["a"], ["a"], ["a", "b"]] :=
  ⟨fun _ => rfl, by decide +kernel⟩

/-- **C31 violated** (keywords of the file reader): after an unrestricted query the same query with such a keyword gets
the cached answer, whatever the keyword asks for. -/
theorem C31_keyword_violated :
    answerNames ((IState.start 2 [(⟨0, 10, "a"⟩ : IRow String)]).run exMeaning
      [.query ⟨0, 50, [], []⟩, .query ⟨0, 50, [("where", "")], []⟩]) = [["a"], ["a"]] ∧
    answerNames ((IState.start 2 [(⟨0, 10, "a"⟩ : IRow String)]).run exMeaning [.query ⟨0, 50, [("where", "")], []⟩]) = [[]] := by
  constructor <;> decide +kernel

/-- **C31 violated** (rows on the edge): whether a row on the edge of the window is found depends on the queries made
before. -/
theorem C31_edge_violated :
    answerNames ((IState.start 2 [(⟨4000000000, 7000000000, "a"⟩ : IRow String)]).run exMeaning
      [.query ⟨0, 9000000000, [], []⟩, .query ⟨5000000000, 6000000000, [], []⟩]) = [["a"], ["a"]] ∧
    answerNames ((IState.start 2 [(⟨4000000000, 7000000000, "a"⟩ : IRow String)]).run exMeaning
      [.query ⟨5000000000, 6000000000, [], []⟩]) = [[]] := by
  constructor <;> decide +kernel

/-- **C31 violated** (another indexer on the same index file): its additions are not seen. -/
theorem C31_external_violated :
    answerNames ((IState.start 2 [(⟨0, 10, "a"⟩ : IRow String)]).run exMeaning
      [.query ⟨0, 50, [], []⟩, .external [⟨20, 30, "b"⟩], .query ⟨0, 50, [], []⟩]) = [["a"], ["a"]] := by
  decide +kernel

end Verif
