import Verif.Spec.Index
import Verif.Proof.Dict
import Mathlib.Tactic.Linarith
import Mathlib.Tactic.NormNum
/-! # Lemmas about index updates -/
namespace Verif
open Spec

variable {β : Type}

/-- A file that the running update has to take care of: it is due, and if it has been visited its rows are either in
the index or among the rows found. -/
def Good (w : World β) (u : Upd β) (f : String) : Prop :=
  ∀ s, w.files.get? f = some s → f ∈ u.due ∧ (f ∈ u.seen → ∀ r ∈ s.rows, (f, r) ∈ w.index ∨ (f, r) ∈ u.rows)

/-- What holds at all times while files are only written. -/
structure UInv (w : World β) : Prop where
  old : ∀ f s t, w.files.get? f = some s → w.ts = some t → s.mtime < t - 1 / 1000 → ∀ r ∈ s.rows, (f, r) ∈ w.index
  past : ∀ f s, w.files.get? f = some s → s.mtime ≤ w.now
  ts : ∀ t, w.ts = some t → t ≤ w.now
  thr : ∀ u, w.upd = some u → u.thr = w.ts.map (fun t => t - 1 / 1000) ∧ u.start ≤ w.now ∧ (∀ t, w.ts = some t → t ≤ u.start)
  app : ∀ u, w.upd = some u → u.appended = true → (∀ x ∈ u.rows, x ∈ w.index) ∧ u.allSeen = true
  good : ∀ u, w.upd = some u → ∀ f s, w.files.get? f = some s → s.mtime < u.start → Good w u f

theorem uinv_empty : UInv (World.empty : World β) :=
  ⟨by intro f s t h; simp [World.empty, Dict.get?_nil] at h, by intro f s h; simp [World.empty, Dict.get?_nil] at h,
   by intro t h; simp [World.empty] at h, by intro u h; simp [World.empty] at h, by intro u h; simp [World.empty] at h,
   by intro u h; simp [World.empty] at h⟩

theorem allSeen_iff {u : Upd β} : u.allSeen = true ↔ ∀ f ∈ u.due, f ∈ u.seen := by
  unfold Upd.allSeen
  simp [List.all_eq_true]

theorem mem_scanFile {files : Dict (FileS β)} {thr : Option ℚ} {f : String} {s : FileS β} (h : files.get? f = some s)
    (hn : newEnough thr s = true) {r : β} (hr : r ∈ s.rows) : (f, r) ∈ scanFile files thr f := by
  unfold scanFile
  rw [h]
  simp only [if_pos hn]
  exact List.mem_map.2 ⟨r, hr, rfl⟩

/-- A visit keeps a file good. -/
theorem good_visit {w : World β} (hi : UInv w) {u : Upd β} (hu : w.upd = some u) {f g : String} (hg : Good w u f) :
    Good { w with upd := some { u with seen := g :: u.seen, rows := u.rows ++ scanFile w.files u.thr g } }
      { u with seen := g :: u.seen, rows := u.rows ++ scanFile w.files u.thr g } f := by
  intro s hs
  obtain ⟨h1, h2⟩ := hg s hs
  refine ⟨h1, ?_⟩
  intro hseen r hr
  by_cases hfs : f ∈ u.seen
  · rcases h2 hfs r hr with h | h
    · exact Or.inl h
    · exact Or.inr (List.mem_append_left _ h)
  · have hfg : f = g := by
      rcases List.mem_cons.1 hseen with h | h
      · exact h
      · exact absurd h hfs
    subst hfg
    by_cases hne : newEnough u.thr s = true
    · exact Or.inr (List.mem_append_right _ (mem_scanFile hs hne hr))
    · left
      obtain ⟨ht, _, _⟩ := hi.thr u hu
      cases hts : w.ts with
      | none => rw [ht, hts] at hne; simp [newEnough] at hne
      | some t =>
        rw [ht, hts] at hne
        simp only [newEnough, Option.map_some, decide_eq_true_eq, not_le] at hne
        exact hi.old f s t hs hts hne r hr

theorem uinv_step {w : World β} (hi : UInv w) {e : Ev β} (he : OnlyWrites e) : UInv (w.step e) := by
  have dflt : ∀ e : Ev β, (∀ u, w.upd = some u → UInv (w.updStep u e)) →
      UInv (match w.upd with | some u => w.updStep u e | none => w) := by
    intro e h
    cases hu : w.upd with
    | none => simpa using hi
    | some u => simpa [hu] using h u hu
  cases e with
  | place f m rows => exact absurd he id
  | delete f => exact absurd he id
  | tick d =>
    show UInv (if 0 ≤ d then { w with now := w.now + d } else w)
    split_ifs with hd
    · refine ⟨hi.old, fun f s h => le_trans (hi.past f s h) ?_, fun t h => le_trans (hi.ts t h) ?_, fun u h => ?_, hi.app, hi.good⟩
      · show w.now ≤ w.now + d; linarith
      · show w.now ≤ w.now + d; linarith
      · obtain ⟨a, b, c⟩ := hi.thr u h
        refine ⟨a, ?_, c⟩
        show u.start ≤ w.now + d; linarith
    · exact hi
  | write f rows =>
    show UInv { w with files := w.files.set f ⟨w.now, rows⟩ }
    refine ⟨?_, ?_, hi.ts, hi.thr, hi.app, ?_⟩
    · intro g s t hg ht hlt
      replace hg : (w.files.set f ⟨w.now, rows⟩).get? g = some s := hg
      rw [Dict.get?_set] at hg
      split_ifs at hg with hgf
      · cases hg
        have := hi.ts t ht
        simp only at hlt
        exfalso; linarith
      · exact hi.old g s t hg ht hlt
    · intro g s hg
      replace hg : (w.files.set f ⟨w.now, rows⟩).get? g = some s := hg
      rw [Dict.get?_set] at hg
      split_ifs at hg with hgf
      · cases hg; exact le_refl _
      · exact hi.past g s hg
    · intro u hu g s hg hlt
      replace hg : (w.files.set f ⟨w.now, rows⟩).get? g = some s := hg
      have hg' := hg
      rw [Dict.get?_set] at hg
      split_ifs at hg with hgf
      · cases hg
        have := (hi.thr u hu).2.1
        simp only at hlt
        exfalso; linarith
      · intro s' hs'
        replace hs' : (w.files.set f ⟨w.now, rows⟩).get? g = some s' := hs'
        rw [Dict.get?_set, if_neg hgf] at hs'
        exact hi.good u hu g s hg hlt s' hs'
  | remove =>
    show UInv (if w.upd.isNone then { w with index := [], ts := none } else w)
    split_ifs with hn
    · have hu : w.upd = none := by simpa using hn
      refine ⟨by intro f s t _ h; simp at h, hi.past, by intro t h; simp at h, ?_, ?_, ?_⟩ <;>
      · intro u h
        replace h : w.upd = some u := h
        rw [hu] at h; cases h
    · exact hi
  | start =>
    show UInv (if w.upd.isNone then { w with upd := some ⟨w.now, w.ts.map fun t => t - 1 / 1000, w.files.keys, [], [], false⟩ } else w)
    split_ifs with hn
    · refine ⟨hi.old, hi.past, hi.ts, ?_, ?_, ?_⟩
      · intro u hu; cases hu
        exact ⟨rfl, le_refl _, hi.ts⟩
      · intro u hu; cases hu
        intro h; simp at h
      · intro u hu f s hs _; cases hu
        intro s' hs'
        refine ⟨Dict.mem_keys.2 ⟨s', hs'⟩, ?_⟩
        intro h; simp at h
    · exact hi
  | visit g =>
    refine dflt (.visit g) ?_
    intro u hu
    show UInv (if u.appended || u.seen.contains g then w
      else { w with upd := some { u with seen := g :: u.seen, rows := u.rows ++ scanFile w.files u.thr g } })
    split_ifs with hc
    · exact hi
    · have happ : u.appended = false := by
        cases h : u.appended
        · rfl
        · rw [h] at hc; simp at hc
      refine ⟨hi.old, hi.past, hi.ts, ?_, ?_, ?_⟩
      · intro v hv; cases hv; exact hi.thr u hu
      · intro v hv; cases hv
        intro h
        rw [show u.appended = true from h] at happ
        cases happ
      · intro v hv f s hs hlt; cases hv
        exact good_visit hi hu (hi.good u hu f s hs hlt)
  | append =>
    refine dflt .append ?_
    intro u hu
    show UInv (if u.allSeen && !u.rows.isEmpty && !u.appended then
      { w with index := w.index ++ u.rows, upd := some { u with appended := true } } else w)
    split_ifs with hc
    · have hall : u.allSeen = true := by
        rw [Bool.and_eq_true, Bool.and_eq_true] at hc
        exact hc.1.1
      refine ⟨fun f s t h1 h2 h3 r hr => List.mem_append_left _ (hi.old f s t h1 h2 h3 r hr), hi.past, hi.ts, ?_, ?_, ?_⟩
      · intro v hv; cases hv; exact hi.thr u hu
      · intro v hv; cases hv
        intro _
        exact ⟨fun x hx => List.mem_append_right _ hx, hall⟩
      · intro v hv f s hs hlt; cases hv
        intro s' hs'
        obtain ⟨h1, h2⟩ := hi.good u hu f s hs hlt s' hs'
        refine ⟨h1, fun hf r hr => ?_⟩
        rcases h2 hf r hr with h | h
        · exact Or.inl (List.mem_append_left _ h)
        · exact Or.inr h
    · exact hi
  | stamp =>
    refine dflt .stamp ?_
    intro u hu
    show UInv (if u.appended then { w with ts := some u.start, upd := none } else w)
    split_ifs with hc
    · obtain ⟨a1, a2⟩ := hi.app u hu hc
      refine ⟨?_, hi.past, ?_, by intro v hv; simp at hv, by intro v hv; simp at hv, by intro v hv; simp at hv⟩
      · intro f s t hs ht hlt r hr
        cases ht
        obtain ⟨h1, h2⟩ := hi.good u hu f s hs (by linarith) s hs
        rcases h2 (allSeen_iff.1 a2 f h1) r hr with h | h
        · exact h
        · exact a1 _ h
      · intro t ht; cases ht; exact (hi.thr u hu).2.1
    · exact hi
  | finish =>
    refine dflt .finish ?_
    intro u hu
    show UInv (if u.allSeen && u.rows.isEmpty then { w with upd := none } else w)
    split_ifs with hc
    · exact ⟨hi.old, hi.past, hi.ts, by intro v hv; simp at hv, by intro v hv; simp at hv, by intro v hv; simp at hv⟩
    · exact hi
  | crash =>
    refine dflt .crash ?_
    intro u hu
    exact ⟨hi.old, hi.past, hi.ts, by intro v hv; simp [World.updStep] at hv, by intro v hv; simp [World.updStep] at hv,
      by intro v hv; simp [World.updStep] at hv⟩

theorem uinv_run {w : World β} (hi : UInv w) {evs : List (Ev β)} (he : ∀ e ∈ evs, OnlyWrites e) : UInv (w.run evs) := by
  unfold World.run
  induction evs generalizing w with
  | nil => exact hi
  | cons e evs ih =>
    exact ih (uinv_step hi (he e List.mem_cons_self)) fun x hx => he x (List.mem_cons_of_mem _ hx)

/-- A fixed file that is not written stays good. -/
theorem good_step {w : World β} (hi : UInv w) {e : Ev β} (he : OnlyWrites e) (hst : ¬ IsStart e) {f : String} (hw : ¬ Writes f e)
    (hg : ∀ u, w.upd = some u → Good w u f) : ∀ u, (w.step e).upd = some u → Good (w.step e) u f := by
  have dflt : ∀ e : Ev β, (∀ u, w.upd = some u → ∀ v, (w.updStep u e).upd = some v → Good (w.updStep u e) v f) →
      ∀ v, (match w.upd with | some u => w.updStep u e | none => w).upd = some v →
        Good (match w.upd with | some u => w.updStep u e | none => w) v f := by
    intro e h
    cases hu : w.upd with
    | none => intro v hv; simp [hu] at hv
    | some u => simpa [hu] using h u hu
  cases e with
  | place f m rows => exact absurd he id
  | delete f => exact absurd he id
  | start => exact absurd trivial hst
  | tick d =>
    intro u hu
    have h : w.step (.tick d) = if 0 ≤ d then { w with now := w.now + d } else w := rfl
    rw [h] at hu ⊢
    split_ifs at hu ⊢ <;> exact hg u hu
  | write g rows =>
    intro u hu s hs
    replace hs : (w.files.set g ⟨w.now, rows⟩).get? f = some s := hs
    have : ¬ f = g := fun h => hw h.symm
    rw [Dict.get?_set, if_neg this] at hs
    exact hg u hu s hs
  | remove =>
    intro u hu
    have h : w.step .remove = if w.upd.isNone then { w with index := [], ts := none } else w := rfl
    rw [h] at hu ⊢
    split_ifs at hu ⊢ with hn
    · replace hu : w.upd = some u := hu
      rw [hu] at hn; simp at hn
    · exact hg u hu
  | visit g =>
    refine dflt (.visit g) ?_
    intro u hu
    have h : w.updStep u (.visit g) = if u.appended || u.seen.contains g then w
      else { w with upd := some { u with seen := g :: u.seen, rows := u.rows ++ scanFile w.files u.thr g } } := rfl
    rw [h]
    split_ifs with hc
    · exact hg
    · intro v hv; cases hv
      exact good_visit hi hu (hg u hu)
  | append =>
    refine dflt .append ?_
    intro u hu
    have h : w.updStep u .append = if u.allSeen && !u.rows.isEmpty && !u.appended then
      { w with index := w.index ++ u.rows, upd := some { u with appended := true } } else w := rfl
    rw [h]
    split_ifs with hc
    · intro v hv; cases hv
      intro s' hs'
      obtain ⟨h1, h2⟩ := hg u hu s' hs'
      refine ⟨h1, fun hf r hr => ?_⟩
      rcases h2 hf r hr with h | h
      · exact Or.inl (List.mem_append_left _ h)
      · exact Or.inr h
    · exact hg
  | stamp =>
    refine dflt .stamp ?_
    intro u hu
    have h : w.updStep u .stamp = if u.appended then { w with ts := some u.start, upd := none } else w := rfl
    rw [h]
    split_ifs with hc
    · intro v hv; simp at hv
    · exact hg
  | finish =>
    refine dflt .finish ?_
    intro u hu
    have h : w.updStep u .finish = if u.allSeen && u.rows.isEmpty then { w with upd := none } else w := rfl
    rw [h]
    split_ifs with hc
    · intro v hv; simp at hv
    · exact hg
  | crash =>
    refine dflt .crash ?_
    intro u hu v hv
    simp [World.updStep] at hv

theorem good_run {w : World β} (hi : UInv w) {evs : List (Ev β)} (he : ∀ e ∈ evs, OnlyWrites e) (hst : ∀ e ∈ evs, ¬ IsStart e)
    {f : String} (hw : ∀ e ∈ evs, ¬ Writes f e) (hg : ∀ u, w.upd = some u → Good w u f) :
    ∀ u, (w.run evs).upd = some u → Good (w.run evs) u f := by
  unfold World.run
  induction evs generalizing w with
  | nil => exact hg
  | cons e evs ih =>
    have hm := @List.mem_cons_self _ e evs
    exact ih (uinv_step hi (he e hm)) (fun x hx => he x (List.mem_cons_of_mem _ hx)) (fun x hx => hst x (List.mem_cons_of_mem _ hx))
      (fun x hx => hw x (List.mem_cons_of_mem _ hx)) (good_step hi (he e hm) (hst e hm) (hw e hm) hg)

theorem run_append (w : World β) (a b : List (Ev β)) : w.run (a ++ b) = (w.run a).run b := List.foldl_append

/-- The completion of an update: good files are indexed. -/
theorem complete_indexed {w : World β} (hi : UInv w) {e : Ev β} (hc : Completes w e) {f : String}
    (hg : ∀ u, w.upd = some u → Good w u f) : IndexedFile (w.step e) f := by
  obtain ⟨u, hu, h⟩ := hc
  rcases h with ⟨he, ha⟩ | ⟨he, hr, hs⟩
  · cases e <;> simp at he
    have hstep : w.step .stamp = { w with ts := some u.start, upd := none } := by
      show (match w.upd with | some u => w.updStep u .stamp | none => w) = _
      rw [hu]
      show (if u.appended then _ else _) = _
      rw [if_pos ha]
    rw [hstep]
    obtain ⟨a1, a2⟩ := hi.app u hu ha
    intro s hs r hr
    obtain ⟨h1, h2⟩ := hg u hu s hs
    rcases h2 (allSeen_iff.1 a2 f h1) r hr with h | h
    · exact h
    · exact a1 _ h
  · cases e <;> simp at he
    have hstep : w.step .finish = { w with upd := none } := by
      show (match w.upd with | some u => w.updStep u .finish | none => w) = _
      rw [hu]
      show (if u.allSeen && u.rows.isEmpty then _ else _) = _
      rw [if_pos (by rw [allSeen_iff.2 hs, hr]; rfl)]
    rw [hstep]
    intro s hfs r hr'
    obtain ⟨h1, h2⟩ := hg u hu s hfs
    rcases h2 (hs f h1) r hr' with h | h
    · exact h
    · rw [hr] at h; simp at h

/-! ### Quiet rounds -/

/-- Visiting files one after the other. -/
theorem run_visits (w : World β) : ∀ (fs : List String) (u : Upd β), w.upd = some u → u.appended = false → fs.Nodup →
    (∀ f ∈ fs, f ∉ u.seen) → w.run (fs.map .visit) =
      { w with upd := some { u with seen := fs.reverse ++ u.seen, rows := u.rows ++ fs.flatMap (scanFile w.files u.thr) } } := by
  intro fs
  induction fs generalizing w with
  | nil =>
    intro u hu _ _ _
    cases w; cases u
    simp_all [World.run]
  | cons f fs ih =>
    intro u hu ha hn hs
    rw [List.nodup_cons] at hn
    have hstep : w.step (.visit f) = { w with upd := some { u with seen := f :: u.seen, rows := u.rows ++ scanFile w.files u.thr f } } := by
      show (match w.upd with | some u => w.updStep u (.visit f) | none => w) = _
      rw [hu]
      show (if u.appended || u.seen.contains f then w else _) = _
      rw [if_neg (by simp [ha, hs f List.mem_cons_self])]
    show (w.step (.visit f)).run (fs.map .visit) = _
    rw [hstep, ih _ { u with seen := f :: u.seen, rows := u.rows ++ scanFile w.files u.thr f } rfl ha hn.2]
    · simp
    · intro g hg hmem
      rcases List.mem_cons.1 hmem with h | h
      · subst h; exact hn.1 hg
      · exact hs g (List.mem_cons_of_mem _ hg) h

/-- An undisturbed update. -/
theorem run_quiet (w : World β) (hu : w.upd = none) (hn : w.files.keys.Nodup) (rows : List (String × β))
    (hr : rows = w.files.keys.flatMap (scanFile w.files (w.ts.map fun t => t - 1 / 1000))) :
    w.run (quietUpdate w) = if rows = [] then w else { w with index := w.index ++ rows, ts := some w.now } := by
  unfold quietUpdate
  have hstart : w.step .start = { w with upd := some ⟨w.now, w.ts.map fun t => t - 1 / 1000, w.files.keys, [], [], false⟩ } := by
    show (if w.upd.isNone then _ else w) = _
    rw [if_pos (by rw [hu]; rfl)]
  show (w.step .start).run (w.files.keys.map .visit ++ _) = _
  rw [hstart, run_append, run_visits _ w.files.keys _ rfl rfl hn (by simp)]
  simp only [List.nil_append, List.append_nil, ← hr]
  by_cases he : rows = []
  · rw [if_pos he]
    subst he
    cases w
    simp_all [World.run, World.step, World.updStep, Upd.allSeen]
  · rw [if_neg he]
    cases w
    have : rows.isEmpty = false := by cases rows <;> simp_all
    simp_all [World.run, World.step, World.updStep, Upd.allSeen]

theorem run_tick (w : World β) (d : ℚ) (hd : 0 ≤ d) : w.run [.tick d] = { w with now := w.now + d } := by
  show (if 0 ≤ d then _ else w) = _
  rw [if_pos hd]

theorem set_fresh {α} (d : Dict α) (k : String) (v : α) (h : k ∉ d.keys) : d.set k v = d ++ [(k, v)] := by
  unfold Dict.set
  rw [if_neg]
  intro hc
  rw [List.any_eq_true] at hc
  obtain ⟨p, hp, hk⟩ := hc
  exact h (List.mem_map.2 ⟨p, hp, by simpa using hk⟩)

theorem run_writes : ∀ (fs : List (String × List β)) (w : World β), (fs.map Prod.fst).Nodup → (∀ p ∈ fs, p.1 ∉ w.files.keys) →
    w.run (fs.map fun p => .write p.1 p.2) = { w with files := w.files ++ fs.map fun p => (p.1, ⟨w.now, p.2⟩) } := by
  intro fs
  induction fs with
  | nil => intro w _ _; cases w; simp [World.run]
  | cons p fs ih =>
    intro w hn hf
    rw [List.map_cons, List.nodup_cons] at hn
    show ({ w with files := w.files.set p.1 ⟨w.now, p.2⟩ } : World β).run (fs.map fun p => .write p.1 p.2) = _
    rw [ih _ hn.2]
    · simp only [set_fresh _ _ _ (hf p List.mem_cons_self), List.append_assoc, List.map_cons, List.singleton_append]
    · intro q hq hmem
      simp only [Dict.keys_set, if_neg (hf p List.mem_cons_self)] at hmem
      rcases List.mem_append.1 hmem with h | h
      · exact hf q (List.mem_cons_of_mem _ hq) h
      · rw [List.mem_singleton] at h
        exact hn.1 (List.mem_map.2 ⟨q, hq, h⟩)

/-- Between quiet rounds. -/
structure Quiet (w : World β) (es : List (String × β)) : Prop where
  upd : w.upd = none
  keys : w.files.keys.Nodup
  index : w.index = es
  ts : ∀ t, w.ts = some t → t ≤ w.now
  done : ∀ p ∈ w.files, p.2.rows = [] ∨ ∃ t, w.ts = some t ∧ p.2.mtime < t - 1 / 1000
  past : ∀ p ∈ w.files, p.2.mtime ≤ w.now

theorem scan_append (files : Dict (FileS β)) (thr : Option ℚ) (hn : files.keys.Nodup) :
    files.keys.flatMap (scanFile files thr) = files.flatMap fun p => if newEnough thr p.2 then p.2.rows.map fun r => (p.1, r) else [] := by
  unfold Dict.keys
  rw [List.flatMap_map]
  apply List.flatMap_congr
  intro p hp
  unfold scanFile
  rw [Dict.get?_of_mem hn (show (p.1, p.2) ∈ files from hp)]

/-- The entries of a round's files. -/
def roundEntries (r : Round β) : List (String × β) := r.files.flatMap fun p => p.2.map fun x => (p.1, x)

theorem quiet_round {w : World β} {es : List (String × β)} (h : Quiet w es) (r : Round β) (hn : (r.files.map Prod.fst).Nodup)
    (hf : ∀ p ∈ r.files, p.1 ∉ w.files.keys) (hw : 1 / 1000 < r.wait) :
    Quiet (playRound w r) (es ++ roundEntries r) ∧ (playRound w r).files.keys = w.files.keys ++ r.files.map Prod.fst := by
  have hw0 : 0 ≤ r.wait := by linarith
  unfold playRound
  simp only [run_writes r.files w hn hf]
  rw [run_tick _ _ hw0]
  have hkeys : Dict.keys (w.files ++ r.files.map fun p => (p.1, (⟨w.now, p.2⟩ : FileS β))) = w.files.keys ++ r.files.map Prod.fst := by
    simp [Dict.keys, Function.comp_def]
  have hnd : (w.files.keys ++ r.files.map Prod.fst).Nodup := by
    rw [List.nodup_append]
    refine ⟨h.keys, hn, ?_⟩
    intro a ha b hb hab
    subst hab
    obtain ⟨p, hp, rfl⟩ := List.mem_map.1 hb
    exact hf p hp ha
  have hrows : roundEntries r = (Dict.keys (w.files ++ r.files.map fun p => (p.1, (⟨w.now, p.2⟩ : FileS β)))).flatMap
      (scanFile (w.files ++ r.files.map fun p => (p.1, (⟨w.now, p.2⟩ : FileS β))) (w.ts.map fun t => t - 1 / 1000)) := by
    rw [scan_append _ _ (by rw [hkeys]; exact hnd), List.flatMap_append, List.flatMap_map]
    have h1 : (w.files.flatMap fun p => if newEnough (w.ts.map fun t => t - 1 / 1000) p.2 then p.2.rows.map fun r => (p.1, r) else []) = [] := by
      rw [List.flatMap_eq_nil_iff]
      intro p hp
      rcases h.done p hp with h0 | ⟨t, ht, hlt⟩
      · rw [h0]; simp
      · rw [ht]
        rw [if_neg]
        simp only [newEnough, Option.map_some, decide_eq_true_eq, not_le]
        exact hlt
    rw [h1, List.nil_append]
    unfold roundEntries
    apply List.flatMap_congr
    intro p hp
    rw [if_pos]
    cases ht : w.ts with
    | none => rfl
    | some t =>
      have := h.ts t ht
      simp only [newEnough, Option.map_some, decide_eq_true_eq]
      linarith
  rw [run_quiet { w with now := w.now + r.wait, files := w.files ++ r.files.map fun p => (p.1, (⟨w.now, p.2⟩ : FileS β)) } h.upd
    (by rw [hkeys]; exact hnd) _ hrows]
  split_ifs with he
  · refine ⟨⟨h.upd, by rw [hkeys]; exact hnd, by rw [he, List.append_nil]; exact h.index, ?_, ?_, ?_⟩, hkeys⟩
    · intro t ht; have := h.ts t ht; show t ≤ w.now + r.wait; linarith
    · intro p hp
      rcases List.mem_append.1 hp with hp | hp
      · exact h.done p hp
      · left
        obtain ⟨q, hq, rfl⟩ := List.mem_map.1 hp
        unfold roundEntries at he
        rw [List.flatMap_eq_nil_iff] at he
        simpa using he q hq
    · intro p hp
      show p.2.mtime ≤ w.now + r.wait
      rcases List.mem_append.1 hp with hp | hp
      · have := h.past p hp; linarith
      · obtain ⟨q, hq, rfl⟩ := List.mem_map.1 hp
        simp only; linarith
  · refine ⟨⟨h.upd, by rw [hkeys]; exact hnd, by show w.index ++ _ = _; rw [h.index], ?_, ?_, ?_⟩, hkeys⟩
    · intro t ht; cases ht; exact le_refl _
    · intro p hp
      right
      refine ⟨w.now + r.wait, rfl, ?_⟩
      rcases List.mem_append.1 hp with hp | hp
      · have := h.past p hp; linarith
      · obtain ⟨q, hq, rfl⟩ := List.mem_map.1 hp
        simp only; linarith
    · intro p hp
      show p.2.mtime ≤ w.now + r.wait
      rcases List.mem_append.1 hp with hp | hp
      · have := h.past p hp; linarith
      · obtain ⟨q, hq, rfl⟩ := List.mem_map.1 hp
        simp only; linarith

theorem quiet_rounds : ∀ (rs : List (Round β)) (w : World β) (es : List (String × β)), Quiet w es →
    (w.files.keys ++ rs.flatMap fun r => r.files.map Prod.fst).Nodup → (∀ r ∈ rs, 1 / 1000 < r.wait) →
    (rs.foldl playRound w).index = es ++ rs.flatMap roundEntries := by
  intro rs
  induction rs with
  | nil => intro w es h _ _; simpa using h.index
  | cons r rs ih =>
    intro w es h hn hw
    rw [List.flatMap_cons] at hn
    rw [← List.append_assoc] at hn
    have h1 := (List.nodup_append.1 hn).1
    have h2 := List.nodup_append.1 h1
    obtain ⟨q, k⟩ := quiet_round h r h2.2.1 (by
      intro p hp hk
      exact h2.2.2 _ hk _ (List.mem_map.2 ⟨p, hp, rfl⟩) rfl) (hw r List.mem_cons_self)
    rw [List.foldl_cons, ih _ _ q (by rw [k]; exact hn) (fun x hx => hw x (List.mem_cons_of_mem _ hx)), List.flatMap_cons, List.append_assoc]

theorem quiet_empty : Quiet (World.empty : World β) [] :=
  ⟨rfl, by simp [World.empty, Dict.keys], rfl, by simp [World.empty], by simp [World.empty], by simp [World.empty]⟩

end Verif
