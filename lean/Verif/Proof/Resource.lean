import Mathlib.Data.List.Nodup
import Mathlib.Tactic.Ring
import Verif.Spec.Resource
/-! # Proofs about resource managers -/
namespace Verif
open Spec
namespace Res

/-- What holds of the managers at any time. -/
structure Inv (w : IOWorld) : Prop where
  parents : ∀ (m : ℕ) M p, w.mgrs[m]? = some M → M.source = .mgr p → p < m
  nestedEmpty : ∀ (m : ℕ) M p, w.mgrs[m]? = some M → M.source = .mgr p → M.cache = []
  owner : ∀ o ∈ w.opens, ∃ M, w.mgrs[o.1]? = some M ∧ M.source = .path
  cache : ∀ (r : ℕ) M, w.mgrs[r]? = some M → M.source = .path →
    M.cache.filter (fun e => e.2.isSome) = (w.opens.filter fun o => o.1 == r).map fun o => (o.2.1, some o.2.2)
  handles : (w.opens.map fun o => o.2.2).Nodup
  keys : (w.opens.map fun o => (o.1, o.2.1)).Nodup
  opensLt : ∀ o ∈ w.opens, o.2.2 < w.next
  closesLt : ∀ h ∈ w.closes, h < w.next
  cacheLt : ∀ M ∈ w.mgrs, ∀ e ∈ M.cache, ∀ h, e.2 = some h → h < w.next
  srcLt : ∀ M ∈ w.mgrs, ∀ h, M.source = .handle h → h < w.next

theorem inv_start : Inv {} := by constructor <;> simp

theorem get_append_new {l : List Mgr} {M N : Mgr} {m : ℕ} (h : (l ++ [N])[m]? = some M) : l[m]? = some M ∨ (m = l.length ∧ M = N) := by
  rw [List.getElem?_append] at h
  split at h
  · exact .inl h
  · rename_i hm
    rw [List.getElem?_singleton] at h
    split at h
    · exact .inr ⟨by omega, by cases h; rfl⟩
    · cases h

theorem getElem_mem {l : List Mgr} {M : Mgr} {m : ℕ} (h : l[m]? = some M) : M ∈ l := List.mem_of_getElem? h

variable (E : TypeEnv)

theorem inv_create {w : IOWorld} (hw : Inv w) (src : IOSource) (he : w.exists src = true) :
    Inv { w with mgrs := w.mgrs ++ [{ source := src }] } := by
  constructor
  · intro m M p h hs
    rcases get_append_new h with h | ⟨rfl, rfl⟩
    · exact hw.parents m M p h hs
    · simp only at hs; subst hs
      simpa [IOWorld.exists] using he
  · intro m M p h hs
    rcases get_append_new h with h | ⟨rfl, rfl⟩
    · exact hw.nestedEmpty m M p h hs
    · rfl
  · intro o ho
    obtain ⟨M, h, hs⟩ := hw.owner o ho
    exact ⟨M, by simp only; rw [List.getElem?_append_left (List.getElem?_eq_some_iff.1 h).1]; exact h, hs⟩
  · intro r M h hs
    rcases get_append_new h with h | ⟨rfl, rfl⟩
    · exact hw.cache r M h hs
    · have : (w.opens.filter fun o => o.1 == w.mgrs.length) = [] := by
        rw [List.filter_eq_nil_iff]
        intro o ho
        obtain ⟨M, h, -⟩ := hw.owner o ho
        have := (List.getElem?_eq_some_iff.1 h).1
        simp; omega
      simp [this]
  · exact hw.handles
  · exact hw.keys
  · exact hw.opensLt
  · exact hw.closesLt
  · intro M hM e he'
    rcases List.mem_append.1 hM with hM | hM
    · exact hw.cacheLt M hM e he'
    · rw [List.mem_singleton] at hM; subst hM; cases he'
  · intro M hM h hs
    rcases List.mem_append.1 hM with hM | hM
    · exact hw.srcLt M hM h hs
    · rw [List.mem_singleton] at hM; subst hM
      simp only at hs; subst hs
      simpa [IOWorld.exists] using he

theorem get_set {l : List Mgr} {M N : Mgr} {m r : ℕ} (h : (l.set r N)[m]? = some M) : (m = r ∧ M = N) ∨ (m ≠ r ∧ l[m]? = some M) := by
  by_cases hm : r = m
  · subst hm
    rw [List.getElem?_set_self'] at h
    cases hl : l[r]? with
    | none => rw [hl] at h; cases h
    | some x => rw [hl] at h; simp at h; exact .inl ⟨rfl, h.symm⟩
  · rw [List.getElem?_set_ne hm] at h
    exact .inr ⟨fun e => hm e.symm, h⟩

theorem mem_set {l : List Mgr} {M N : Mgr} {r : ℕ} (h : M ∈ l.set r N) : M = N ∨ M ∈ l := by
  rcases List.mem_or_eq_of_mem_set h with h | h
  · exact .inr h
  · exact .inl h

/-- The cases of `get_handle_from_resource`. -/
theorem getHandle_cases {next : ℕ} {src : IOSource} {t : ℕ} {v : Option ℕ} {new : Bool} (h : getHandle E next src t = .ok (v, new)) :
    (src = .path ∧ v = some next ∧ new = true) ∨ (new = false ∧ (v = none ∨ ∃ h, src = .handle h ∧ v = some h)) := by
  unfold getHandle at h
  split at h
  · split at h
    · cases h; exact .inl ⟨rfl, rfl, rfl⟩
    · cases h
  · split at h
    · cases h; exact .inr ⟨rfl, .inr ⟨_, rfl, rfl⟩⟩
    · cases h
  · cases h; exact .inr ⟨rfl, .inr ⟨_, rfl, rfl⟩⟩
  · cases h; exact .inr ⟨rfl, .inl rfl⟩

theorem inv_obtain {w : IOWorld} (hw : Inv w) {r : ℕ} (hr : ∀ M p, w.mgrs[r]? = some M → M.source ≠ .mgr p) (t : ℕ) :
    Inv (w.obtain E r t).2 := by
  unfold IOWorld.obtain
  cases hM : w.mgrs[r]? with
  | none => exact hw
  | some M =>
    simp only
    cases hf : M.cache.find? (fun e => e.1 == t) with
    | some e => exact hw
    | none =>
      simp only
      cases hg : getHandle E w.next M.source t with
      | error e => exact hw
      | ok vn =>
        obtain ⟨v, new⟩ := vn
        simp only
        have hlen := (List.getElem?_eq_some_iff.1 hM).1
        have hMm := getElem_mem hM
        have hnot : ∀ e ∈ M.cache, e.1 ≠ t := by
          intro e he hE
          rw [List.find?_eq_none] at hf
          exact hf e he (by simp [hE])
        rcases getHandle_cases E hg with ⟨hs, rfl, rfl⟩ | ⟨rfl, hv⟩
        · -- a handle is opened
          simp only [if_true]
          have hcache := hw.cache r M hM hs
          have hkey : (r, t) ∉ w.opens.map fun o => (o.1, o.2.1) := by
            intro hk
            obtain ⟨o, ho, he⟩ := List.mem_map.1 hk
            simp only [Prod.mk.injEq] at he
            have : (o.2.1, some o.2.2) ∈ M.cache.filter (fun e => e.2.isSome) := by
              rw [hcache]
              exact List.mem_map.2 ⟨o, List.mem_filter.2 ⟨ho, by simp [he.1]⟩, rfl⟩
            exact hnot _ (List.mem_filter.1 this).1 he.2
          constructor
          · intro m N p h hN
            rcases get_set h with ⟨rfl, rfl⟩ | ⟨_, h⟩
            · exact absurd hN (hr M p hM)
            · exact hw.parents m N p h hN
          · intro m N p h hN
            rcases get_set h with ⟨rfl, rfl⟩ | ⟨_, h⟩
            · exact absurd hN (hr M p hM)
            · exact hw.nestedEmpty m N p h hN
          · intro o ho
            rcases List.mem_append.1 ho with ho | ho
            · obtain ⟨N, h, hN⟩ := hw.owner o ho
              by_cases hor : o.1 = r
              · refine ⟨{ M with cache := M.cache ++ [(t, some w.next)] }, ?_, hs⟩
                simp only [hor]
                rw [List.getElem?_set_self hlen]
              · exact ⟨N, by simp only; rw [List.getElem?_set_ne (fun e => hor e.symm)]; exact h, hN⟩
            · rw [List.mem_singleton] at ho; subst ho
              refine ⟨{ M with cache := M.cache ++ [(t, some w.next)] }, ?_, hs⟩
              simp only
              rw [List.getElem?_set_self hlen]
          · intro q N h hN
            rcases get_set h with ⟨rfl, rfl⟩ | ⟨hq, h⟩
            · simp only [List.filter_append, List.map_append, hcache]
              simp
            · rw [hw.cache q N h hN, List.filter_append]
              have : ([(r, t, w.next)].filter fun o => o.1 == q) = [] := by simp [Ne.symm hq]
              simp only [this, List.append_nil]
          · rw [List.map_append, List.nodup_append]
            refine ⟨hw.handles, by simp, ?_⟩
            intro a ha b hb hab
            simp at hb; subst hb; subst hab
            obtain ⟨o, ho, e⟩ := List.mem_map.1 ha
            exact absurd (hw.opensLt o ho) (by rw [e]; exact lt_irrefl _)
          · rw [List.map_append, List.nodup_append]
            refine ⟨hw.keys, by simp, ?_⟩
            intro a ha b hb hab
            simp at hb; subst hb; subst hab
            exact hkey ha
          · intro o ho
            rcases List.mem_append.1 ho with ho | ho
            · exact Nat.lt_succ_of_lt (hw.opensLt o ho)
            · rw [List.mem_singleton] at ho; subst ho; exact Nat.lt_succ_self _
          · intro h hh; exact Nat.lt_succ_of_lt (hw.closesLt h hh)
          · intro N hN e he h heh
            rcases mem_set hN with rfl | hN
            · rcases List.mem_append.1 he with he | he
              · exact Nat.lt_succ_of_lt (hw.cacheLt M hMm e he h heh)
              · rw [List.mem_singleton] at he; subst he
                cases heh; exact Nat.lt_succ_self _
            · exact Nat.lt_succ_of_lt (hw.cacheLt N hN e he h heh)
          · intro N hN h hs'
            rcases mem_set hN with rfl | hN
            · exact Nat.lt_succ_of_lt (hw.srcLt M hMm h hs')
            · exact Nat.lt_succ_of_lt (hw.srcLt N hN h hs')
        · -- nothing is opened
          simp only [Bool.false_eq_true, if_false]
          have hvs : ∀ h, v = some h → M.source = .handle h := by
            intro h he
            rcases hv with rfl | ⟨h', hs, rfl⟩
            · cases he
            · cases he; exact hs
          constructor
          · intro m N p h hN
            rcases get_set h with ⟨rfl, rfl⟩ | ⟨_, h⟩
            · exact absurd hN (hr M p hM)
            · exact hw.parents m N p h hN
          · intro m N p h hN
            rcases get_set h with ⟨rfl, rfl⟩ | ⟨_, h⟩
            · exact absurd hN (hr M p hM)
            · exact hw.nestedEmpty m N p h hN
          · intro o ho
            obtain ⟨N, h, hN⟩ := hw.owner o ho
            by_cases hor : o.1 = r
            · rw [hor, hM] at h; cases h
              refine ⟨{ M with cache := M.cache ++ [(t, v)] }, ?_, hN⟩
              simp only [hor]
              rw [List.getElem?_set_self hlen]
            · exact ⟨N, by simp only; rw [List.getElem?_set_ne (fun e => hor e.symm)]; exact h, hN⟩
          · intro q N h hN
            rcases get_set h with ⟨rfl, rfl⟩ | ⟨hq, h⟩
            · have : v = none := by
                rcases hv with hv | ⟨h', hs, -⟩
                · exact hv
                · simp only at hN; rw [hs] at hN; cases hN
              subst this
              rw [List.filter_append, hw.cache q M hM hN]
              simp
            · exact hw.cache q N h hN
          · exact hw.handles
          · exact hw.keys
          · exact hw.opensLt
          · exact hw.closesLt
          · intro N hN e he h heh
            rcases mem_set hN with rfl | hN
            · rcases List.mem_append.1 he with he | he
              · exact hw.cacheLt M hMm e he h heh
              · rw [List.mem_singleton] at he; subst he
                exact hw.srcLt M hMm h (hvs h heh)
            · exact hw.cacheLt N hN e he h heh
          · intro N hN h hs'
            rcases mem_set hN with rfl | hN
            · exact hw.srcLt M hMm h hs'
            · exact hw.srcLt N hN h hs'

theorem parent_iff {w : IOWorld} {m p : ℕ} : w.parent m = some p ↔ ∃ M, w.mgrs[m]? = some M ∧ M.source = .mgr p := by
  unfold IOWorld.parent
  cases h : w.mgrs[m]? with
  | none => simp
  | some M =>
    obtain ⟨s, c⟩ := M
    cases s <;> simp

theorem rootOf_fuel {w : IOWorld} (hw : Inv w) : ∀ (k k' m : ℕ), m ≤ k → m ≤ k' → w.rootOf k m = w.rootOf k' m
  | 0, 0, _, _, _ => rfl
  | 0, k' + 1, m, h, _ => by
    have : m = 0 := by omega
    subst this
    rw [IOWorld.rootOf, IOWorld.rootOf]
    cases hp : w.parent 0 with
    | none => rfl
    | some p =>
      obtain ⟨M, hM, hs⟩ := parent_iff.1 hp
      exact absurd (hw.parents 0 M p hM hs) (by omega)
  | k + 1, 0, m, _, h => by
    have : m = 0 := by omega
    subst this
    rw [IOWorld.rootOf, IOWorld.rootOf]
    cases hp : w.parent 0 with
    | none => rfl
    | some p =>
      obtain ⟨M, hM, hs⟩ := parent_iff.1 hp
      exact absurd (hw.parents 0 M p hM hs) (by omega)
  | k + 1, k' + 1, m, h, h' => by
    rw [IOWorld.rootOf, IOWorld.rootOf]
    cases hp : w.parent m with
    | none => rfl
    | some p =>
      obtain ⟨M, hM, hs⟩ := parent_iff.1 hp
      have := hw.parents m M p hM hs
      exact rootOf_fuel hw k k' p (by omega) (by omega)

theorem rootOf_spec {w : IOWorld} (hw : Inv w) : ∀ (k m : ℕ), m ≤ k → m < w.mgrs.length →
    Outermost w (w.rootOf k m) ∧ NestedIn w (w.rootOf k m) m := by
  intro k
  induction k with
  | zero =>
    intro m h hm
    have : m = 0 := by omega
    subst this
    rw [IOWorld.rootOf]
    refine ⟨⟨w.mgrs[0], by simp, ?_⟩, .self⟩
    intro p hs
    exact absurd (hw.parents 0 _ p (by simp) hs) (by omega)
  | succ k ih =>
    intro m h hm
    rw [IOWorld.rootOf]
    cases hp : w.parent m with
    | none =>
      refine ⟨⟨w.mgrs[m], by simp, ?_⟩, .self⟩
      intro p hs
      have := (parent_iff (w := w) (m := m) (p := p)).2 ⟨w.mgrs[m], by simp, hs⟩
      rw [hp] at this; cases this
    | some p =>
      obtain ⟨M, hM, hs⟩ := parent_iff.1 hp
      have hlt := hw.parents m M p hM hs
      obtain ⟨a, b⟩ := ih p (by omega) (by omega)
      exact ⟨a, .step hM hs b⟩

/-- The outermost manager which a manager is nested in. -/
theorem rootOf_eq {w : IOWorld} (hw : Inv w) {r m : ℕ} (hr : Outermost w r) (h : NestedIn w r m) : w.rootOf m m = r := by
  induction h with
  | self =>
    cases r with
    | zero => rfl
    | succ r =>
      rw [IOWorld.rootOf]
      cases hp : w.parent (r + 1) with
      | none => rfl
      | some p =>
        obtain ⟨M, hM, hs⟩ := parent_iff.1 hp
        obtain ⟨N, hN, hn⟩ := hr
        rw [hM] at hN; cases hN
        exact absurd hs (hn p)
  | @step m p M hM hs _ ih =>
    have hlt := hw.parents m M p hM hs
    cases m with
    | zero => omega
    | succ m =>
      rw [IOWorld.rootOf, parent_iff.2 ⟨M, hM, hs⟩]
      simp only
      rw [rootOf_fuel hw m p p (by omega) (le_refl p), ih]

theorem rootOf_not_mgr {w : IOWorld} (hw : Inv w) (m : ℕ) : ∀ M p, w.mgrs[w.rootOf m m]? = some M → M.source ≠ .mgr p := by
  by_cases hm : m < w.mgrs.length
  · obtain ⟨⟨M, hM, hs⟩, -⟩ := rootOf_spec hw m m (le_refl m) hm
    intro N p hN
    rw [hM] at hN; cases hN
    exact hs p
  · have h0 : w.mgrs[m]? = none := List.getElem?_eq_none (by omega)
    have : w.rootOf m m = m := by
      cases m with
      | zero => rfl
      | succ m => rw [IOWorld.rootOf, IOWorld.parent, h0]
    rw [this, h0]
    intro M p h; cases h

theorem inv_closeAll {w : IOWorld} (hw : Inv w) (m : ℕ) : Inv (w.closeAll m) := by
  unfold IOWorld.closeAll
  cases hM : w.mgrs[m]? with
  | none => exact hw
  | some M =>
    refine ⟨hw.parents, hw.nestedEmpty, hw.owner, hw.cache, hw.handles, hw.keys, hw.opensLt, ?_, hw.cacheLt, hw.srcLt⟩
    intro h hh
    rcases List.mem_append.1 hh with hh | hh
    · exact hw.closesLt h hh
    · obtain ⟨e, he, heh⟩ := List.mem_filterMap.1 hh
      exact hw.cacheLt M (getElem_mem hM) e he h heh

theorem inv_step {w : IOWorld} (hw : Inv w) (op : IOOp) : Inv (w.step E op) := by
  cases op with
  | openOutside =>
    exact ⟨hw.parents, hw.nestedEmpty, hw.owner, hw.cache, hw.handles, hw.keys, fun o ho => Nat.lt_succ_of_lt (hw.opensLt o ho),
      fun h hh => Nat.lt_succ_of_lt (hw.closesLt h hh), fun M hM e he h hh => Nat.lt_succ_of_lt (hw.cacheLt M hM e he h hh),
      fun M hM h hs => Nat.lt_succ_of_lt (hw.srcLt M hM h hs)⟩
  | create src =>
    unfold IOWorld.step
    simp only
    split
    · exact inv_create hw src (by assumption)
    · exact hw
  | request m t => exact inv_obtain E hw (rootOf_not_mgr hw m) t
  | exit m => exact inv_closeAll hw m
  | del m => exact inv_closeAll hw m

theorem inv_steps (ops : List IOOp) : ∀ {w : IOWorld}, Inv w → Inv (ops.foldl (IOWorld.step E) w) := by
  induction ops with
  | nil => exact fun h => h
  | cons op ops ih => exact fun h => ih (inv_step E h op)

theorem inv_run (ops : List IOOp) : Inv (IOWorld.run E ops) := inv_steps E ops inv_start

/-! ### What lasts -/

/-- What a step keeps: managers keep their sources, caches only grow at the end, and openings and closings are only added. -/
structure Keeps (w w' : IOWorld) : Prop where
  mgr : ∀ (m : ℕ) M, w.mgrs[m]? = some M → ∃ l, w'.mgrs[m]? = some { M with cache := M.cache ++ l }
  opens : ∃ l, w'.opens = w.opens ++ l ∧ ∀ o ∈ l, w.next ≤ o.2.2
  closes : ∃ l, w'.closes = w.closes ++ l
  next : w.next ≤ w'.next

theorem Keeps.refl (w : IOWorld) : Keeps w w := ⟨fun m M h => ⟨[], by simpa using h⟩, ⟨[], by simp⟩, ⟨[], by simp⟩, le_refl _⟩

theorem Keeps.trans {u v w : IOWorld} (h : Keeps u v) (k : Keeps v w) : Keeps u w := by
  refine ⟨?_, ?_, ?_, h.next.trans k.next⟩
  · intro m M hM
    obtain ⟨l, hl⟩ := h.mgr m M hM
    obtain ⟨l', hl'⟩ := k.mgr m _ hl
    exact ⟨l ++ l', by rw [hl']; simp⟩
  · obtain ⟨l, hl, hn⟩ := h.opens
    obtain ⟨l', hl', hn'⟩ := k.opens
    refine ⟨l ++ l', by rw [hl', hl]; simp, ?_⟩
    intro o ho
    rcases List.mem_append.1 ho with ho | ho
    · exact hn o ho
    · exact h.next.trans (hn' o ho)
  · obtain ⟨l, hl⟩ := h.closes
    obtain ⟨l', hl'⟩ := k.closes
    exact ⟨l ++ l', by rw [hl', hl]; simp⟩

theorem keeps_obtain (w : IOWorld) (r t : ℕ) : Keeps w (w.obtain E r t).2 := by
  unfold IOWorld.obtain
  cases hM : w.mgrs[r]? with
  | none => exact Keeps.refl w
  | some M =>
    simp only
    cases hf : M.cache.find? (fun e => e.1 == t) with
    | some e => exact Keeps.refl w
    | none =>
      simp only
      cases hg : getHandle E w.next M.source t with
      | error e => exact Keeps.refl w
      | ok vn =>
        obtain ⟨v, new⟩ := vn
        simp only
        refine ⟨?_, ?_, ⟨[], by simp⟩, by split <;> simp⟩
        · intro m N hN
          by_cases hm : r = m
          · subst hm
            rw [hM] at hN; cases hN
            exact ⟨[(t, v)], by rw [List.getElem?_set_self (List.getElem?_eq_some_iff.1 hM).1]⟩
          · exact ⟨[], by rw [List.getElem?_set_ne hm]; simpa using hN⟩
        · cases new with
          | true => exact ⟨[(r, t, w.next)], by simp, by simp⟩
          | false => exact ⟨[], by simp, by simp⟩

theorem keeps_step (w : IOWorld) (op : IOOp) : Keeps w (w.step E op) := by
  cases op with
  | openOutside => exact ⟨(Keeps.refl w).mgr, (Keeps.refl w).opens, (Keeps.refl w).closes, Nat.le_succ _⟩
  | create src =>
    unfold IOWorld.step
    simp only
    split
    · refine ⟨?_, ⟨[], by simp⟩, ⟨[], by simp⟩, le_refl _⟩
      intro m M hM
      exact ⟨[], by rw [List.getElem?_append_left (List.getElem?_eq_some_iff.1 hM).1]; simpa using hM⟩
    · exact Keeps.refl w
  | request m t => exact keeps_obtain E w _ t
  | exit m =>
    show Keeps w (w.closeAll m)
    unfold IOWorld.closeAll
    split
    · exact Keeps.refl w
    · exact ⟨(Keeps.refl w).mgr, ⟨[], by simp⟩, ⟨_, rfl⟩, le_refl _⟩
  | del m =>
    show Keeps w (w.closeAll m)
    unfold IOWorld.closeAll
    split
    · exact Keeps.refl w
    · exact ⟨(Keeps.refl w).mgr, ⟨[], by simp⟩, ⟨_, rfl⟩, le_refl _⟩

theorem keeps_steps (ops : List IOOp) : ∀ w : IOWorld, Keeps w (ops.foldl (IOWorld.step E) w) := by
  induction ops with
  | nil => exact Keeps.refl
  | cons op ops ih => exact fun w => (keeps_step E w op).trans (ih _)

theorem Keeps.outermost {w w' : IOWorld} (h : Keeps w w') {r : ℕ} (hr : Outermost w r) : Outermost w' r := by
  obtain ⟨M, hM, hs⟩ := hr
  obtain ⟨l, hl⟩ := h.mgr r M hM
  exact ⟨_, hl, hs⟩

/-- What is in the cache of a manager stays there. -/
theorem Keeps.cached {w w' : IOWorld} (h : Keeps w w') {r : ℕ} {M : Mgr} (hM : w.mgrs[r]? = some M) {t : ℕ} {e : ℕ × Option ℕ}
    (he : M.cache.find? (fun e => e.1 == t) = some e) :
    ∃ N, w'.mgrs[r]? = some N ∧ N.cache.find? (fun e => e.1 == t) = some e := by
  obtain ⟨l, hl⟩ := h.mgr r M hM
  exact ⟨_, hl, by simp only [List.find?_append, he, Option.some_or]⟩

theorem obtain_cached {w : IOWorld} {r : ℕ} {M : Mgr} (hM : w.mgrs[r]? = some M) {t : ℕ} {e : ℕ × Option ℕ}
    (he : M.cache.find? (fun e => e.1 == t) = some e) : w.obtain E r t = (.ok e.2, w) := by
  unfold IOWorld.obtain
  rw [hM]
  simp only
  rw [he]

/-- After a successful request the resource is in the cache. -/
theorem obtain_ok {w : IOWorld} {r t : ℕ} {v : Option ℕ} (h : (w.obtain E r t).1 = .ok v) :
    ∃ M e, (w.obtain E r t).2.mgrs[r]? = some M ∧ M.cache.find? (fun e => e.1 == t) = some e ∧ e.2 = v := by
  unfold IOWorld.obtain at h ⊢
  cases hM : w.mgrs[r]? with
  | none => rw [hM] at h; cases h
  | some M =>
    rw [hM] at h
    simp only at h ⊢
    cases hf : M.cache.find? (fun e => e.1 == t) with
    | some e =>
      rw [hf] at h
      simp only at h
      cases h
      exact ⟨M, e, hM, hf, rfl⟩
    | none =>
      rw [hf] at h
      simp only at h ⊢
      cases hg : getHandle E w.next M.source t with
      | error e => rw [hg] at h; cases h
      | ok vn =>
        obtain ⟨u, new⟩ := vn
        rw [hg] at h
        simp only at h ⊢
        cases h
        refine ⟨_, (t, v), by rw [List.getElem?_set_self (List.getElem?_eq_some_iff.1 hM).1], ?_, rfl⟩
        simp only [List.find?_append, hf]
        simp

/-- Handles which a manager opened are those in its cache. -/
theorem cache_handles {w : IOWorld} (hw : Inv w) {r : ℕ} {M : Mgr} (hM : w.mgrs[r]? = some M) (hs : M.source = .path) :
    M.cache.filterMap Prod.snd = (w.opens.filter fun o => o.1 == r).map fun o => o.2.2 := by
  have h : ∀ l : List (ℕ × Option ℕ), l.filterMap Prod.snd = (l.filter fun e => e.2.isSome).filterMap Prod.snd := by
    intro l
    induction l with
    | nil => rfl
    | cons e l ih =>
      obtain ⟨t, v⟩ := e
      cases v with
      | none => simpa using ih
      | some h => simpa using ih
  rw [h, hw.cache r M hM hs, List.filterMap_map]
  simp

theorem handle_owner {w : IOWorld} (hw : Inv w) {r r' t t' h : ℕ} (h1 : OpenedBy w r t h) (h2 : OpenedBy w r' t' h) : r = r' ∧ t = t' := by
  have := List.inj_on_of_nodup_map hw.handles h1 h2 rfl
  simp only [Prod.mk.injEq] at this
  exact ⟨this.1, this.2.1⟩

/-- No manager is made from an open handle. -/
def NoHandles (w : IOWorld) : Prop := ∀ M ∈ w.mgrs, ∀ h, M.source ≠ .handle h

theorem noHandles_step {w : IOWorld} (hw : NoHandles w) {op : IOOp} (hop : ∀ h, op ≠ .create (.handle h)) :
    NoHandles (w.step E op) := by
  cases op with
  | openOutside => exact hw
  | create src =>
    unfold IOWorld.step
    simp only
    split
    · intro M hM h hs
      rcases List.mem_append.1 hM with hM | hM
      · exact hw M hM h hs
      · rw [List.mem_singleton] at hM; subst hM
        simp only at hs; subst hs
        exact hop h rfl
    · exact hw
  | request m t =>
    show NoHandles (w.obtain E _ t).2
    unfold IOWorld.obtain
    split
    · exact hw
    · rename_i M hM
      split
      · exact hw
      · split
        · exact hw
        · intro N hN h hs
          rcases mem_set hN with rfl | hN
          · exact hw M (getElem_mem hM) h hs
          · exact hw N hN h hs
  | exit m =>
    show NoHandles (w.closeAll m)
    unfold IOWorld.closeAll
    split <;> exact hw
  | del m =>
    show NoHandles (w.closeAll m)
    unfold IOWorld.closeAll
    split <;> exact hw

theorem noHandles_steps (ops : List IOOp) (h : PathsOnly ops) : ∀ {w : IOWorld}, NoHandles w → NoHandles (ops.foldl (IOWorld.step E) w) := by
  induction ops with
  | nil => exact fun h => h
  | cons op ops ih =>
    intro w hw
    exact ih (fun o ho => h o (by simp [ho])) (noHandles_step E hw (h op (by simp)))

/-- How often a handle is closed by `close_all`. -/
theorem count_closeAll {w : IOWorld} (hw : Inv w) (hn : NoHandles w) {r t h : ℕ} (ho : OpenedBy w r t h) (m : ℕ) :
    (w.closeAll m).closes.count h = w.closes.count h + if m = r then 1 else 0 := by
  obtain ⟨R, hR, hRs⟩ := hw.owner _ ho
  unfold IOWorld.closeAll
  cases hM : w.mgrs[m]? with
  | none =>
    have : m ≠ r := by rintro rfl; rw [hM] at hR; cases hR
    simp [this]
  | some M =>
    simp only [List.count_append]
    congr 1
    cases hs : M.source with
    | handle h' => exact absurd hs (hn M (getElem_mem hM) h')
    | mgr p =>
      have : m ≠ r := by
        rintro rfl; rw [hM] at hR; cases hR
        rw [hs] at hRs; cases hRs
      rw [hw.nestedEmpty m M p hM hs]
      simp [this]
    | path =>
      rw [cache_handles hw hM hs]
      have hnd : ((w.opens.filter fun o => o.1 == m).map fun o => o.2.2).Nodup :=
        hw.handles.sublist (List.filter_sublist.map _)
      split
      · rename_i e; subst e
        apply List.count_eq_one_of_mem hnd
        exact List.mem_map.2 ⟨(m, t, h), List.mem_filter.2 ⟨ho, by simp⟩, rfl⟩
      · rename_i hne
        apply List.count_eq_zero.2
        intro hmem
        obtain ⟨o, hoo, e⟩ := List.mem_map.1 hmem
        obtain ⟨ho1, ho2⟩ := List.mem_filter.1 hoo
        have := handle_owner hw (r := o.1) (t := o.2.1) (h := h) (by rw [← e]; exact ho1) ho
        simp at ho2
        exact hne (ho2.symm.trans this.1)

/-- The number of times a manager is left. -/
def leavings (r : ℕ) (ops : List IOOp) : ℕ := (ops.filter fun op => decide (op = .exit r) || decide (op = .del r)).length

theorem count_step {w : IOWorld} (hw : Inv w) (hn : NoHandles w) {r t h : ℕ} (ho : OpenedBy w r t h) (op : IOOp) :
    (w.step E op).closes.count h = w.closes.count h + leavings r [op] := by
  cases op with
  | openOutside => rfl
  | create src => unfold IOWorld.step; simp only; split <;> rfl
  | request m s =>
    have : (w.obtain E (w.rootOf m m) s).2.closes = w.closes := by
      unfold IOWorld.obtain
      split
      · rfl
      · split
        · rfl
        · split <;> rfl
    show List.count h (w.obtain E (w.rootOf m m) s).2.closes = _
    rw [this]; rfl
  | exit m =>
    show List.count h (w.closeAll m).closes = _
    rw [count_closeAll hw hn ho]
    by_cases e : m = r <;> simp [leavings, e]
  | del m =>
    show List.count h (w.closeAll m).closes = _
    rw [count_closeAll hw hn ho]
    by_cases e : m = r <;> simp [leavings, e]

theorem count_steps (ops : List IOOp) (hp : PathsOnly ops) {r t h : ℕ} : ∀ {w : IOWorld}, Inv w → NoHandles w → OpenedBy w r t h →
    (ops.foldl (IOWorld.step E) w).closes.count h = w.closes.count h + leavings r ops := by
  induction ops with
  | nil => intro w _ _ _; rfl
  | cons op ops ih =>
    intro w hw hn ho
    rw [List.foldl_cons, ih (fun o ho => hp o (by simp [ho])) (inv_step E hw op) (noHandles_step E hn (hp op (by simp))), count_step E hw hn ho]
    · simp only [leavings, List.filter_cons]
      split <;> simp; ring
    · obtain ⟨l, hl, -⟩ := (keeps_step E w op).opens
      show (r, t, h) ∈ (w.step E op).opens
      rw [hl]; exact List.mem_append_left _ ho

/-- A manager made from a path has a handle for each type that needs one in its cache. -/
def Handled (w : IOWorld) : Prop := ∀ M ∈ w.mgrs, M.source = .path → ∀ t, (t, none) ∈ M.cache → E.kind t ≠ .handle

theorem handled_step {w : IOWorld} (hw : Handled E w) (op : IOOp) : Handled E (w.step E op) := by
  cases op with
  | openOutside => exact hw
  | create src =>
    unfold IOWorld.step
    simp only
    split
    · intro M hM hs t ht
      rcases List.mem_append.1 hM with hM | hM
      · exact hw M hM hs t ht
      · rw [List.mem_singleton] at hM; subst hM; cases ht
    · exact hw
  | request m t =>
    show Handled E (w.obtain E _ t).2
    unfold IOWorld.obtain
    split
    · exact hw
    · rename_i M hM
      split
      · exact hw
      · split
        · exact hw
        · rename_i v new hg
          intro N hN hs s hsn hk
          rcases mem_set hN with rfl | hN
          · rcases List.mem_append.1 hsn with h | h
            · exact hw M (getElem_mem hM) hs s h hk
            · rw [List.mem_singleton] at h
              cases h
              simp only at hs
              rcases getHandle_cases E hg with ⟨-, hv, -⟩ | ⟨rfl, -⟩
              · cases hv
              · simp only [getHandle, hs, hk] at hg
                split at hg <;> cases hg
          · exact hw N hN hs s hsn hk
  | exit m =>
    show Handled E (w.closeAll m)
    unfold IOWorld.closeAll
    split <;> exact hw
  | del m =>
    show Handled E (w.closeAll m)
    unfold IOWorld.closeAll
    split <;> exact hw

theorem handled_run (ops : List IOOp) : Handled E (IOWorld.run E ops) := by
  have : ∀ (ops : List IOOp) (w : IOWorld), Handled E w → Handled E (ops.foldl (IOWorld.step E) w) := by
    intro ops
    induction ops with
    | nil => exact fun _ h => h
    | cons op ops ih => exact fun w h => ih _ (handled_step E h op)
  exact this ops {} (by intro M hM; cases hM)

end Res
end Verif
