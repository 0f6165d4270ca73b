import Verif.Proof.Resource
/-!
# Resource managers (C34)

The history is any list of openings outside, managers made, requests, exits and deletions.
-/
namespace Verif
open Spec Res

variable (E : TypeEnv)

/-- C34. Each outermost manager opens at most one handle for each type (two openings differ in the manager or the type), different openings give
different handles, and only outermost managers open any. -/
theorem C34_one_handle (ops : List IOOp) :
    let w := IOWorld.run E ops
    (∀ (i j r t h h' : ℕ), w.opens[i]? = some (r, t, h) → w.opens[j]? = some (r, t, h') → i = j) ∧
      (∀ (i j r t r' t' h : ℕ), w.opens[i]? = some (r, t, h) → w.opens[j]? = some (r', t', h) → i = j) ∧
      ∀ r t h, OpenedBy w r t h → Outermost w r := by
  intro w
  have hw := inv_run E ops
  refine ⟨?_, ?_, ?_⟩
  · intro i j r t h h' hi hj
    have h1 : (w.opens.map fun o => (o.1, o.2.1))[i]? = some (r, t) := by rw [List.getElem?_map, hi]; rfl
    have h2 : (w.opens.map fun o => (o.1, o.2.1))[j]? = some (r, t) := by rw [List.getElem?_map, hj]; rfl
    exact (List.getElem?_inj (List.getElem?_eq_some_iff.1 h1).1 hw.keys).1 (h1.trans h2.symm)
  · intro i j r t r' t' h hi hj
    have h1 : (w.opens.map fun o => o.2.2)[i]? = some h := by rw [List.getElem?_map, hi]; rfl
    have h2 : (w.opens.map fun o => o.2.2)[j]? = some h := by rw [List.getElem?_map, hj]; rfl
    exact (List.getElem?_inj (List.getElem?_eq_some_iff.1 h1).1 hw.handles).1 (h1.trans h2.symm)
  · intro r t h ho
    obtain ⟨M, hM, hs⟩ := hw.owner _ ho
    exact ⟨M, hM, fun p e => by rw [hs] at e; cases e⟩

/-- C34. Every request goes to the outermost manager around it: a handle newly opened by it is recorded there. -/
theorem C34_opens (ops : List IOOp) {m r t : ℕ} (hr : Outermost (IOWorld.run E ops) r) (hm : NestedIn (IOWorld.run E ops) r m) :
    let w := IOWorld.run E ops
    (w.request E m t).2.opens = w.opens ∨ (w.request E m t).2.opens = w.opens ++ [(r, t, w.next)] ∧ (w.request E m t).1 = .ok (some w.next) := by
  intro w
  have hw := inv_run E ops
  unfold IOWorld.request
  rw [rootOf_eq hw hr hm]
  unfold IOWorld.obtain
  cases hM : w.mgrs[r]? with
  | none => exact .inl rfl
  | some M =>
    simp only
    cases hf : M.cache.find? (fun e => e.1 == t) with
    | some e => exact .inl rfl
    | none =>
      simp only
      cases hg : getHandle E w.next M.source t with
      | error e => exact .inl rfl
      | ok vn =>
        obtain ⟨v, new⟩ := vn
        simp only
        rcases getHandle_cases E hg with ⟨hs, rfl, rfl⟩ | ⟨rfl, hv⟩
        · exact .inr ⟨rfl, rfl⟩
        · exact .inl rfl

/-- C34. A manager made from a path opens a handle for a type that needs one at the first request, if it can be opened. -/
theorem C34_first (ops : List IOOp) {m r t : ℕ} {M : Mgr} (hM : (IOWorld.run E ops).mgrs[r]? = some M) (hs : M.source = .path)
    (hm : NestedIn (IOWorld.run E ops) r m) (hk : E.kind t = .handle) (hc : E.canOpen t = true)
    (hn : ∀ h, ¬ OpenedBy (IOWorld.run E ops) r t h) :
    ((IOWorld.run E ops).request E m t).1 = .ok (some (IOWorld.run E ops).next) ∧
      OpenedBy ((IOWorld.run E ops).request E m t).2 r t (IOWorld.run E ops).next := by
  have hw := inv_run E ops
  unfold IOWorld.request
  rw [rootOf_eq hw ⟨M, hM, fun p e => by rw [hs] at e; cases e⟩ hm]
  unfold IOWorld.obtain
  rw [hM]
  simp only
  cases hf : M.cache.find? (fun e => e.1 == t) with
  | some e =>
    simp only
    obtain ⟨t', v⟩ := e
    cases v with
    | none =>
      have h1 := List.find?_some hf
      simp at h1; subst h1
      exact absurd hk (handled_run E ops M (getElem_mem hM) hs _ (List.mem_of_find?_eq_some hf))
    | some h =>
      exfalso
      have h1 := List.find?_some hf
      simp at h1; subst h1
      have : (t', some h) ∈ M.cache.filter (fun e => e.2.isSome) := List.mem_filter.2 ⟨List.mem_of_find?_eq_some hf, rfl⟩
      rw [hw.cache r M hM hs] at this
      obtain ⟨o, ho, e⟩ := List.mem_map.1 this
      obtain ⟨ho, hr⟩ := List.mem_filter.1 ho
      simp at e hr
      exact hn h (by rw [← hr, ← e.1, ← e.2]; exact ho)
  | none =>
    simp [getHandle, hs, hk, hc, OpenedBy]

/-- C34. After a successful request, any request for the same type, at any depth inside the same outermost manager and whatever happened
in between, returns the same resource and opens nothing. -/
theorem C34_same (ops more : List IOOp) {m m' r t : ℕ} {v : Option ℕ} (hr : Outermost (IOWorld.run E ops) r)
    (hm : NestedIn (IOWorld.run E ops) r m) (h : ((IOWorld.run E ops).request E m t).1 = .ok v)
    (hm' : NestedIn (IOWorld.run E (ops ++ .request m t :: more)) r m') :
    (IOWorld.run E (ops ++ .request m t :: more)).request E m' t = (.ok v, IOWorld.run E (ops ++ .request m t :: more)) := by
  have hw := inv_run E ops
  have hw' := inv_run E (ops ++ .request m t :: more)
  have hrun : IOWorld.run E (ops ++ .request m t :: more) =
      more.foldl (IOWorld.step E) ((IOWorld.run E ops).request E m t).2 := by
    simp only [IOWorld.run, List.foldl_append, List.foldl_cons]; rfl
  unfold IOWorld.request at h hrun
  rw [rootOf_eq hw hr hm] at h hrun
  obtain ⟨M, e, hM, he, hv⟩ := obtain_ok E h
  have hk := keeps_steps E more ((IOWorld.run E ops).obtain E r t).2
  rw [← hrun] at hk
  obtain ⟨N, hN, hc⟩ := hk.cached hM he
  have hr' : Outermost (IOWorld.run E (ops ++ .request m t :: more)) r := hk.outermost ((keeps_obtain E _ r t).outermost hr)
  rw [IOWorld.request, rootOf_eq hw' hr' hm', obtain_cached E hN hc, hv]

/-- C34. Leaving or deleting a nested manager does nothing. -/
theorem C34_nested (ops : List IOOp) {m : ℕ} (hm : Nested (IOWorld.run E ops) m) {op : IOOp} (ho : Leaves m op) :
    (IOWorld.run E ops).step E op = IOWorld.run E ops := by
  obtain ⟨M, p, hM, hs⟩ := hm
  have h := (inv_run E ops).nestedEmpty m M p hM hs
  have : (IOWorld.run E ops).closeAll m = IOWorld.run E ops := by
    unfold IOWorld.closeAll
    rw [hM]
    simp [h]
  rcases ho with rfl | rfl <;> exact this

/-- C34. Leaving a manager made from a path calls `close` once for each handle it opened and for nothing else. -/
theorem C34_leave (ops : List IOOp) {r : ℕ} {M : Mgr} (hM : (IOWorld.run E ops).mgrs[r]? = some M) (hs : M.source = .path) {op : IOOp}
    (ho : Leaves r op) :
    ∃ l, ((IOWorld.run E ops).step E op).closes = (IOWorld.run E ops).closes ++ l ∧ l.Nodup ∧
      ∀ h, h ∈ l ↔ ∃ t, OpenedBy (IOWorld.run E ops) r t h := by
  have hw := inv_run E ops
  have h : (IOWorld.run E ops).step E op = (IOWorld.run E ops).closeAll r := by rcases ho with rfl | rfl <;> rfl
  refine ⟨M.cache.filterMap Prod.snd, ?_, ?_, ?_⟩
  · rw [h, IOWorld.closeAll, hM]
  · rw [cache_handles hw hM hs]
    exact hw.handles.sublist (List.filter_sublist.map _)
  · intro h
    rw [cache_handles hw hM hs, List.mem_map]
    constructor
    · rintro ⟨o, ho, rfl⟩
      obtain ⟨ho, hr⟩ := List.mem_filter.1 ho
      simp at hr
      exact ⟨o.2.1, by rw [← hr]; exact ho⟩
    · rintro ⟨t, ho⟩
      exact ⟨_, List.mem_filter.2 ⟨ho, by simp⟩, rfl⟩

/-- C34. Over a whole history without managers made from open handles: `close` of a handle is called as often as the manager that opened it
is left or deleted afterwards; so exactly once if it is left once, and never before that. -/
theorem C34_count (a : List IOOp) (op : IOOp) (b : List IOOp) (hp : PathsOnly (a ++ op :: b)) {r t h : ℕ}
    (hno : ¬ OpenedBy (IOWorld.run E a) r t h) (hyes : OpenedBy (IOWorld.run E (a ++ [op])) r t h) :
    (IOWorld.run E (a ++ op :: b)).closes.count h =
      (b.filter fun o => decide (o = .exit r) || decide (o = .del r)).length := by
  have hrun : IOWorld.run E (a ++ op :: b) = b.foldl (IOWorld.step E) (IOWorld.run E (a ++ [op])) := by
    simp [IOWorld.run]
  have hrun1 : IOWorld.run E (a ++ [op]) = (IOWorld.run E a).step E op := by simp [IOWorld.run]
  have hn : NoHandles (IOWorld.run E (a ++ [op])) := by
    refine noHandles_steps E (a ++ [op]) (fun o ho => hp o ?_) (by intro M hM; cases hM)
    rcases List.mem_append.1 ho with ho | ho
    · exact List.mem_append_left _ ho
    · rw [List.mem_singleton] at ho; subst ho; simp
  rw [hrun, count_steps E b (fun o ho => hp o (by simp [ho])) (inv_run E _) hn hyes]
  have hw := inv_run E a
  have h0 : (IOWorld.run E (a ++ [op])).closes.count h = 0 := by
    rw [List.count_eq_zero]
    intro hh
    obtain ⟨l, hl, hlt⟩ := (keeps_step E (IOWorld.run E a) op).opens
    rw [hrun1, OpenedBy, hl] at hyes
    rcases List.mem_append.1 hyes with hyes | hyes
    · exact hno hyes
    · have hnew := hlt _ hyes
      rw [hrun1] at hh
      -- the step that opens the handle closes nothing
      cases op with
      | request m s =>
        have : ((IOWorld.run E a).obtain E ((IOWorld.run E a).rootOf m m) s).2.closes = (IOWorld.run E a).closes := by
          unfold IOWorld.obtain
          split
          · rfl
          · split
            · rfl
            · split <;> rfl
        have hh : h ∈ ((IOWorld.run E a).obtain E ((IOWorld.run E a).rootOf m m) s).2.closes := hh
        rw [this] at hh
        exact absurd (hw.closesLt h hh) (by simpa using hnew)
      | openOutside =>
        have : l = [] := by simpa [IOWorld.step] using hl
        rw [this] at hyes; cases hyes
      | create src =>
        have : l = [] := by
          have : ((IOWorld.run E a).step E (.create src)).opens = (IOWorld.run E a).opens := by
            unfold IOWorld.step; simp only; split <;> rfl
          rw [this] at hl; simpa using hl
        rw [this] at hyes; cases hyes
      | exit m =>
        have : l = [] := by
          have : ((IOWorld.run E a).step E (.exit m)).opens = (IOWorld.run E a).opens := by
            show ((IOWorld.run E a).closeAll m).opens = _
            unfold IOWorld.closeAll; split <;> rfl
          rw [this] at hl; simpa using hl
        rw [this] at hyes; cases hyes
      | del m =>
        have : l = [] := by
          have : ((IOWorld.run E a).step E (.del m)).opens = (IOWorld.run E a).opens := by
            show ((IOWorld.run E a).closeAll m).opens = _
            unfold IOWorld.closeAll; split <;> rfl
          rw [this] at hl; simpa using hl
        rw [this] at hyes; cases hyes
  rw [h0, Nat.zero_add]
  rfl

/-! ## Examples -/

/-- Types 0 and 1 need handles and take open ones, 2 is `str`. -/
def exTypes : TypeEnv := ⟨fun t => if t < 2 then .handle else .convert, fun _ => true, fun _ _ => true⟩

/-- Two managers nested in one made from a path, requests at all depths, the inner ones left, the outer left and deleted. -/
def exIO : List IOOp :=
  [.create .path, .create (.mgr 0), .create (.mgr 1), .request 2 0, .request 1 2, .exit 2, .request 0 0, .request 1 1, .del 2, .exit 1]

example : (IOWorld.run exTypes exIO).opens = [(0, 0, 0), (0, 1, 1)] ∧ (IOWorld.run exTypes exIO).closes = [] ∧
    ((IOWorld.run exTypes exIO).request exTypes 1 0).1 = .ok (some 0) ∧
    (IOWorld.run exTypes (exIO ++ [.exit 0])).closes = [0, 1] := by decide +kernel

example : Outermost (IOWorld.run exTypes exIO) 0 ∧ Nested (IOWorld.run exTypes exIO) 1 ∧ NestedIn (IOWorld.run exTypes exIO) 0 2 := by
  have h2 : (IOWorld.run exTypes exIO).mgrs[2]? = some ⟨.mgr 1, []⟩ := by decide +kernel
  have h1 : (IOWorld.run exTypes exIO).mgrs[1]? = some ⟨.mgr 0, []⟩ := by decide +kernel
  have h0 : (IOWorld.run exTypes exIO).mgrs[0]? = some ⟨.path, [(0, some 0), (2, none), (1, some 1)]⟩ := by decide +kernel
  exact ⟨⟨_, h0, fun p e => by cases e⟩, ⟨_, 0, h1, rfl⟩, .step h2 rfl (.step h1 rfl .self)⟩

example : PathsOnly exIO ∧ ¬ OpenedBy (IOWorld.run exTypes (exIO.take 3)) 0 0 0 ∧ OpenedBy (IOWorld.run exTypes (exIO.take 4)) 0 0 0 := by
  refine ⟨?_, ?_, ?_⟩
  · intro op hop h
    simp only [exIO, List.mem_cons, List.not_mem_nil, or_false] at hop
    rcases hop with rfl | rfl | rfl | rfl | rfl | rfl | rfl | rfl | rfl | rfl <;> simp
  all_goals (unfold OpenedBy; decide +kernel)

/-- C34 is violated: a manager made from an open handle, which it did not open, closes it; once for each type asked for. -/
theorem C34_borrowed_violated :
    let w := IOWorld.run exTypes [.openOutside, .create (.handle 0), .request 0 0, .request 0 1, .exit 0]
    w.opens = [] ∧ w.closes = [0, 0] := by decide +kernel

/-- C34 is violated: leaving a manager does not empty its cache, so it is closed again when it is deleted, and a request in between gives
the closed handle. -/
theorem C34_again_violated :
    let w := IOWorld.run exTypes [.create .path, .request 0 0, .exit 0]
    w.closes = [0] ∧ (w.request exTypes 0 0).1 = .ok (some 0) ∧ (w.step exTypes (.del 0)).closes = [0, 0] := by decide +kernel

end Verif
