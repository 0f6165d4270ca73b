import Verif.Spec.History
import Verif.Proof.Dict
import Mathlib.Data.List.Sort
import Mathlib.Data.String.Basic
namespace Verif
open Spec

variable {δ : Type}

theorem checkPatchCoords_ok (f : PatchFn δ) (p : TPatch δ) :
    checkPatchCoords f p = .ok () ↔ (∀ d ∈ f.requiredDims, d ∈ p.dims) ∧ ∀ c ∈ f.requiredCoords, c ∈ p.coords := by
  unfold checkPatchCoords
  constructor
  · intro h
    split at h
    · rename_i hc
      simpa using hc
    · cases h
  · rintro ⟨h1, h2⟩
    rw [if_pos]
    simpa using ⟨h1, h2⟩

theorem checkPatchAttrs_ok (f : PatchFn δ) (p : TPatch δ) : checkPatchAttrs f p = .ok () ↔ match f.requiredAttrs with
    | .names l => ∀ k ∈ l, ∃ v, p.attrs.get? k = some v
    | .values d => ∀ a ∈ d, ∃ v, p.attrs.get? a.1 = some v ∧ v.pyEq a.2 = true := by
  unfold checkPatchAttrs
  cases f.requiredAttrs with
  | names l =>
    simp only
    constructor
    · intro h
      split at h
      · rename_i hc
        intro k hk
        have := List.all_eq_true.1 hc k hk
        exact Dict.mem_keys.1 (by simpa using this)
      · cases h
    · intro h
      rw [if_pos]
      rw [List.all_eq_true]
      intro k hk
      simpa using Dict.mem_keys.2 (h k hk)
  | values d =>
    simp only [checkValues]
    constructor
    · intro h
      split at h
      · cases h
      split at h
      · rename_i hc
        intro a ha
        have := List.all_eq_true.1 hc a ha
        cases hv : p.attrs.get? a.1 with
        | none => rw [hv] at this; cases this
        | some v => rw [hv] at this; exact ⟨v, rfl, this⟩
      · cases h
    · intro h
      have h1 : ∀ a ∈ d, a.1 ∈ Dict.keys p.attrs := fun a ha => by
        obtain ⟨v, hv, -⟩ := h a ha
        exact Dict.mem_keys.2 ⟨v, hv⟩
      rw [if_neg (by simpa using h1), if_pos]
      rw [List.all_eq_true]
      intro a ha
      obtain ⟨v, hv, he⟩ := h a ha
      rw [hv]
      exact he

theorem hasRequired_iff (f : PatchFn δ) (p : TPatch δ) : HasRequired f p ↔ checkPatchCoords f p = .ok () ∧ checkPatchAttrs f p = .ok () := by
  rw [checkPatchCoords_ok, checkPatchAttrs_ok]
  exact ⟨fun h => ⟨⟨h.dims, h.coords⟩, h.attrs⟩, fun h => ⟨h.1.1, h.1.2, h.2⟩⟩

theorem call_eq (f : PatchFn δ) (p : TPatch δ) (h : HasRequired f p) : f.call p = (f.body p).map (f.finish p) := by
  obtain ⟨h1, h2⟩ := (hasRequired_iff f p).1 h
  unfold PatchFn.call
  rw [h1, h2]
  cases hb : f.body p <;> rfl

/-- C40: what a function requires is checked before it runs. If a dimension or coordinate is missing the call raises
PatchCoordinateError whatever the function would do; otherwise, if an attribute is missing or wrong, PatchAttributeError
(AttributeError if a value is required of an attribute that does not exist); and if nothing is missing the function runs, and
only its own errors are raised. -/
theorem C40_requirements (f : PatchFn δ) (p : TPatch δ) :
    (((∃ d ∈ f.requiredDims, d ∉ p.dims) ∨ ∃ c ∈ f.requiredCoords, c ∉ p.coords) → f.call p = .error .patchCoordinateError) ∧
    ((∀ d ∈ f.requiredDims, d ∈ p.dims) → (∀ c ∈ f.requiredCoords, c ∈ p.coords) → ¬ HasRequired f p →
      f.call p = .error .patchAttributeError ∨
        (f.call p = .error .attributeError ∧ ∃ d a, f.requiredAttrs = .values d ∧ a ∈ d ∧ p.attrs.get? a.1 = none)) ∧
    (HasRequired f p → ∀ e, f.call p = .error e ↔ f.body p = .error e) := by
  refine ⟨?_, ?_, ?_⟩
  · intro h
    have : checkPatchCoords f p ≠ .ok () := by
      rw [Ne, checkPatchCoords_ok]
      rintro ⟨h1, h2⟩
      rcases h with ⟨d, hd, hn⟩ | ⟨c, hc, hn⟩
      · exact hn (h1 d hd)
      · exact hn (h2 c hc)
    have he : checkPatchCoords f p = .error .patchCoordinateError := by
      unfold checkPatchCoords at this ⊢
      split
      · rename_i hc
        rw [if_pos hc] at this
        exact absurd rfl this
      · rfl
    unfold PatchFn.call
    rw [he]
    rfl
  · intro h1 h2 hn
    have hc := (checkPatchCoords_ok f p).2 ⟨h1, h2⟩
    have ha : checkPatchAttrs f p ≠ .ok () := fun h => hn ((hasRequired_iff f p).2 ⟨hc, h⟩)
    have : checkPatchAttrs f p = .error .patchAttributeError ∨
        (checkPatchAttrs f p = .error .attributeError ∧ ∃ d a, f.requiredAttrs = .values d ∧ a ∈ d ∧ p.attrs.get? a.1 = none) := by
      unfold checkPatchAttrs at ha ⊢
      cases hr : f.requiredAttrs with
      | names l =>
        rw [hr] at ha
        simp only at ha ⊢
        split
        · rename_i hc'
          rw [if_pos hc'] at ha
          exact absurd rfl ha
        · exact Or.inl rfl
      | values d =>
        rw [hr] at ha
        simp only [checkValues] at ha ⊢
        split
        · rename_i hc'
          refine Or.inr ⟨rfl, d, ?_⟩
          simp only [Bool.not_eq_true', List.all_eq_false, List.contains_iff_mem] at hc'
          obtain ⟨a, had, hna⟩ := hc'
          exact ⟨a, rfl, had, Dict.get?_eq_none.2 hna⟩
        · rename_i hc'
          rw [if_neg hc'] at ha
          split
          · rename_i hc''
            rw [if_pos hc''] at ha
            exact absurd rfl ha
          · exact Or.inl rfl
    unfold PatchFn.call
    rw [hc]
    rcases this with h | ⟨h, h'⟩
    · rw [h]; exact Or.inl rfl
    · rw [h]; exact Or.inr ⟨rfl, h'⟩
  · intro h e
    rw [call_eq f p h]
    cases hb : f.body p <;> simp [Except.map]

theorem intercalate_ne (name : String) (args : List (String × Option String)) : callStr name args ≠ "" := by
  unfold callStr
  intro h
  have := congrArg String.length h
  simp [String.length_append] at this

theorem entry_eq (f : PatchFn δ) : f.entry = recorded f := rfl

theorem record_history (q : TPatch δ) (e : Option String) (h : e ≠ some "") :
    (q.record e).history = e.elim q.history fun s => .items (q.history.toList ++ [s]) := by
  cases e with
  | none => rfl
  | some s =>
    unfold TPatch.record
    simp only
    rw [if_neg (fun hs => h (by rw [hs]))]
    rfl

theorem setType_history (q : TPatch δ) (t : Option String) : (q.setType t).history = q.history := by
  cases t <;> rfl

theorem recorded_ne (f : PatchFn δ) (hn : f.name ≠ "") : f.entry ≠ some "" := by
  unfold PatchFn.entry
  cases f.mode with
  | off => simp
  | full => simpa using intercalate_ne f.name f.args
  | methodName => simpa using hn

/-- C40, one call: if the function returns a new patch, the result is that patch with one entry more (none if the function is
not recorded); if it returns the patch it was given, nothing is recorded; nothing else but the data type changes. -/
theorem C40_call (f : PatchFn δ) (p : TPatch δ) (hn : f.name ≠ "") (h : HasRequired f p) :
    (∀ q, f.body p = .ok (.fresh q) → ∃ r, f.call p = .ok (.fresh r) ∧ r.content = q.content ∧ r.dims = q.dims ∧ r.coords = q.coords ∧
      (∀ k, k ≠ "data_type" → r.attrs.get? k = q.attrs.get? k) ∧
      (r.attrs.get? "data_type" = match f.dataType with | none => q.attrs.get? "data_type" | some t => some (.val t)) ∧
      r.history = match recorded f with | none => q.history | some e => .items (q.history.toList ++ [e])) ∧
    (f.body p = .ok .same → ∃ o r, f.call p = .ok o ∧ o.patch p = .ok r ∧ r.content = p.content ∧ r.dims = p.dims ∧ r.coords = p.coords ∧
      (∀ k, k ≠ "data_type" → r.attrs.get? k = p.attrs.get? k) ∧ r.history = p.history) := by
  constructor
  · intro q hq
    refine ⟨(q.setType f.dataType).record f.entry, ?_, ?_, ?_, ?_, ?_, ?_, ?_⟩
    · rw [call_eq f p h, hq]; rfl
    · unfold TPatch.record
      cases f.entry <;> cases f.dataType <;> simp only [TPatch.setType] <;> first | rfl | (split <;> rfl)
    · unfold TPatch.record
      cases f.entry <;> cases f.dataType <;> simp only [TPatch.setType] <;> first | rfl | (split <;> rfl)
    · unfold TPatch.record
      cases f.entry <;> cases f.dataType <;> simp only [TPatch.setType] <;> first | rfl | (split <;> rfl)
    · intro k hk
      have h1 : ((q.setType f.dataType).record f.entry).attrs = (q.setType f.dataType).attrs := by
        unfold TPatch.record
        cases f.entry <;> simp only; split <;> rfl
      rw [h1]
      cases f.dataType with
      | none => rfl
      | some t => simp only [TPatch.setType, Dict.get?_set, if_neg hk]
    · have h1 : ((q.setType f.dataType).record f.entry).attrs = (q.setType f.dataType).attrs := by
        unfold TPatch.record
        cases f.entry <;> simp only; split <;> rfl
      rw [h1]
      cases f.dataType with
      | none => rfl
      | some t => simp only [TPatch.setType, Dict.get?_set, if_pos]
    · rw [record_history _ _ (recorded_ne f hn), setType_history, entry_eq]
      cases recorded f <;> rfl
  · intro hs
    rw [call_eq f p h, hs]
    cases hd : f.dataType with
    | none =>
      refine ⟨.same, p, ?_, rfl, rfl, rfl, rfl, fun _ _ => rfl, rfl⟩
      simp [Except.map, PatchFn.finish, hd]
    | some t =>
      refine ⟨.fresh (p.setType (some t)), p.setType (some t), ?_, rfl, rfl, rfl, rfl, ?_, rfl⟩
      · simp [Except.map, PatchFn.finish, hd]
      · intro k hk
        simp only [TPatch.setType, Dict.get?_set, if_neg hk]

/-- C40, chains of calls: if the functions themselves keep the history, the history of the final patch is that of the first one
followed by exactly one entry for each recorded function that returned a new patch, in the order of the calls. -/
theorem C40_sequence_partial (fs : List (PatchFn δ)) (p r : TPatch δ) (h : List String) (hk : ∀ f ∈ fs, KeepsHistory f)
    (hn : ∀ f ∈ fs, f.name ≠ "") (hp : p.history = .items h) (hr : runAll fs p = .ok r) :
    ∃ made, Chain fs p made r ∧ made.Sublist fs ∧ r.history = .items (h ++ made.filterMap recorded) := by
  induction fs generalizing p h with
  | nil =>
    simp only [runAll, Except.ok.injEq] at hr
    subst hr
    exact ⟨[], .done p, List.Sublist.refl _, by simp [hp]⟩
  | cons f fs ih =>
    unfold runAll at hr
    cases hc : f.call p with
    | error e => rw [hc] at hr; cases hr
    | ok o =>
      rw [hc] at hr
      cases hq : o.patch p with
      | error e => simp only [bind, Except.bind, hq] at hr; cases hr
      | ok q =>
        simp only [bind, Except.bind, hq] at hr
        have hm : HasRequired f p := by
          rw [hasRequired_iff]
          unfold PatchFn.call at hc
          cases h1 : checkPatchCoords f p with
          | error e => rw [h1] at hc; cases hc
          | ok u =>
            cases h2 : checkPatchAttrs f p with
            | error e => rw [h1, h2] at hc; cases hc
            | ok v => exact ⟨rfl, rfl⟩
        have hbody : ∃ b, f.body p = .ok b ∧ o = f.finish p b := by
          rw [call_eq f p hm] at hc
          cases hb : f.body p with
          | error e => rw [hb] at hc; cases hc
          | ok b =>
            rw [hb] at hc
            simp only [Except.map, Except.ok.injEq] at hc
            exact ⟨b, rfl, hc.symm⟩
        obtain ⟨b, hb, rfl⟩ := hbody
        obtain ⟨c1, c2⟩ := C40_call f p (hn f (by simp)) hm
        have hk' : ∀ g ∈ fs, KeepsHistory g := fun g hg => hk g (by simp [hg])
        have hn' : ∀ g ∈ fs, g.name ≠ "" := fun g hg => hn g (by simp [hg])
        cases b with
        | value => simp [PatchFn.finish, Returned.patch] at hq
        | same =>
          obtain ⟨o, r', ho, hr', -, -, -, -, hh⟩ := c2 hb
          rw [hc] at ho
          injection ho with ho
          subst ho
          rw [hq] at hr'
          injection hr' with hr'
          subst hr'
          obtain ⟨made, hm1, hm2, hm3⟩ := ih q h hk' hn' (hh.trans hp) hr
          exact ⟨made, .kept f fs p _ q made r hb hc hq hm1, hm2.cons _, hm3⟩
        | fresh n =>
          obtain ⟨r', hr', -, -, -, -, -, hh⟩ := c1 n hb
          rw [hc] at hr'
          injection hr' with hr'
          rw [hr'] at hq
          simp only [Returned.patch, Except.ok.injEq] at hq
          subst hq
          have hnh : n.history = .items h := (hk f (by simp) p n hb).trans hp
          have hq' : r'.history = .items (h ++ (recorded f).toList) := by
            rw [hh, hnh]
            cases recorded f <;> simp [Hist.toList]
          obtain ⟨made, hm1, hm2, hm3⟩ := ih r' _ hk' hn' hq' hr
          refine ⟨f :: made, .new f fs p n _ r' made r hb hc (by rw [hr']; rfl) hm1, hm2.cons_cons _, ?_⟩
          rw [hm3]
          congr 1
          rw [List.append_assoc]
          congr 1
          cases hrf : recorded f <;> simp [hrf]

/-- C40: the functions of the library that end in a new patch with the attributes of the old one keep the history. -/
theorem C40_newBody (name : String) (args : List (String × Option String)) (work : TPatch δ → Except Err δ) :
    KeepsHistory { name := name, args := args, body := newBody work } := by
  intro p q h
  simp only [newBody] at h
  cases hw : work p with
  | error e => rw [hw] at h; cases h
  | ok c =>
    rw [hw] at h
    simp only [bind, Except.bind, Except.ok.injEq, Returned.fresh.injEq] at h
    rw [← h]

/-- C40: a function that calls other recorded functions leaves their entries in the history, before its own. -/
theorem C40_nested (f : PatchFn δ) (inner : List (PatchFn δ)) (work : TPatch δ → Except Err δ) (p r : TPatch δ) (h : List String)
    (hf : f.body = nestedBody inner work) (hn : f.name ≠ "") (hk : ∀ g ∈ inner, KeepsHistory g) (hn' : ∀ g ∈ inner, g.name ≠ "")
    (hp : p.history = .items h) (hr : f.call p = .ok (.fresh r)) :
    ∃ made q, Chain inner p made q ∧ r.history = .items (h ++ made.filterMap recorded ++ (recorded f).toList) := by
  have hm : HasRequired f p := by
    rw [hasRequired_iff]
    unfold PatchFn.call at hr
    cases h1 : checkPatchCoords f p with
    | error e => rw [h1] at hr; cases hr
    | ok u =>
      cases h2 : checkPatchAttrs f p with
      | error e => rw [h1, h2] at hr; cases hr
      | ok v => exact ⟨rfl, rfl⟩
  have hc := hr
  rw [call_eq f p hm, hf] at hr
  unfold nestedBody at hr
  cases hi : runAll inner p with
  | error e => rw [hi] at hr; cases hr
  | ok q =>
    obtain ⟨made, hm1, -, hm3⟩ := C40_sequence_partial inner p q h hk hn' hp hi
    cases hw : work q with
    | error e => simp only [hi, bind, Except.bind, newBody, hw] at hr; cases hr
    | ok c =>
      have hb : f.body p = .ok (.fresh { q with content := c }) := by
        rw [hf]
        simp only [nestedBody, hi, bind, Except.bind, newBody, hw]
      obtain ⟨r', hr', -, -, -, -, -, hh⟩ := (C40_call f p hn hm).1 _ hb
      rw [hc] at hr'
      injection hr' with hr'
      injection hr' with hr'
      subst hr'
      refine ⟨made, q, hm1, ?_⟩
      rw [hh]
      cases recorded f <;> simp [hm3, Hist.toList]

/-- C40: the recorded call does not depend on the order of the arguments, nor on arguments that are `None`. -/
theorem C40_entry (name : String) (a b : List (String × Option String))
    (h : (a.filter fun x => x.2.isSome).Perm (b.filter fun x => x.2.isSome)) : callStr name a = callStr name b := by
  have hf : ∀ l : List (String × Option String), (l.filterMap fun a => a.2.map fun v => a.1 ++ "=" ++ v)
      = (l.filter fun x => x.2.isSome).filterMap fun a => a.2.map fun v => a.1 ++ "=" ++ v := by
    intro l
    rw [List.filterMap_filter]
    congr 1
    funext x
    cases hx : x.2 <;> simp
  unfold callStr
  simp only
  have hp : ((a.filterMap fun a => a.2.map fun v => a.1 ++ "=" ++ v).insertionSort (· ≤ ·))
      = (b.filterMap fun a => a.2.map fun v => a.1 ++ "=" ++ v).insertionSort (· ≤ ·) := by
    have hperm : (a.filterMap fun a => a.2.map fun v => a.1 ++ "=" ++ v).Perm (b.filterMap fun a => a.2.map fun v => a.1 ++ "=" ++ v) := by
      rw [hf a, hf b]
      exact h.filterMap _
    apply List.Perm.eq_of_pairwise' (r := (· ≤ ·))
    · exact List.pairwise_insertionSort _ _
    · exact List.pairwise_insertionSort _ _
    · exact ((List.perm_insertionSort _ _).trans hperm).trans (List.perm_insertionSort _ _).symm
  rw [hp]

/-! ### Where the property fails -/

/-- A patch with content 0. -/
def exTracked (h : Hist) : TPatch ℕ := ⟨["time", "distance"], ["time", "distance", "latitude"], [("data_type", .val "velocity")], h, 0⟩

/-- C40: `roll` with `update_coord=True` is one call but leaves two entries. -/
theorem C40_roll_violated : ∃ r, (rollFn "time" "'5'" "'coord'" true (fun _ => .ok 1) (fun _ => .ok 2)).call (exTracked (.items [])) = .ok (.fresh r) ∧
    r.history = .items ["update_coords(time='coord')", "roll(samples='True',time='5',update_coord='True')"] :=
  ⟨_, rfl, by decide +kernel⟩

/-- C40: a history that is a single string is split into its characters by the next recorded function. -/
theorem C40_text_violated : ∃ (f : PatchFn ℕ) (r : TPatch ℕ), KeepsHistory f ∧ f.call (exTracked (.text "ab")) = .ok (.fresh r) ∧
    r.history = .items ["a", "b", "abs()"] :=
  ⟨{ name := "abs", body := newBody fun _ => .ok 1 }, _, C40_newBody _ _ _, rfl, by decide +kernel⟩

/-- C40: a required value of an attribute that does not exist raises AttributeError, not PatchAttributeError. -/
theorem C40_attr_violated : ∃ (f : PatchFn ℕ), f.requiredAttrs = .values [("gauge_length", .val "10")] ∧
    (f.call (exTracked (.items []))).map (fun _ => ()) = .error .attributeError :=
  ⟨{ name := "f", requiredAttrs := .values [("gauge_length", .val "10")], body := newBody fun _ => .ok 1 }, rfl, by decide +kernel⟩

/-- Three functions: two recorded (one under its name only) and one not. -/
def exChain : List (PatchFn ℕ) :=
  [{ name := "abs", requiredDims := ["time"], requiredAttrs := .values [("data_type", .val "velocity")], body := newBody fun p => .ok (p.content + 1) },
   { name := "select", mode := .off, body := newBody fun p => .ok (p.content + 1) },
   { name := "squeeze", body := fun _ => .ok .same },
   { name := "coords_from_df", mode := .methodName, args := [("dataframe", some "'x'")], body := newBody fun p => .ok (p.content + 1) },
   { name := "pass_filter", args := [("time", some "'(1,2)'"), ("corners", some "'4'"), ("zerophase", none)], body := newBody fun p => .ok (p.content + 1) }]

/-- The hypotheses are met. -/
example : (∀ f ∈ exChain, f.name ≠ "") ∧
    (runAll exChain (exTracked (.items ["start"]))).map (fun r => (r.history, r.content)) =
      .ok (.items ["start", "abs()", "coords_from_df", "pass_filter(corners='4',time='(1,2)')"], 4) := by
  decide +kernel

example : ∀ f ∈ exChain, KeepsHistory f := by
  intro f hf
  simp only [exChain, List.mem_cons, List.not_mem_nil, or_false] at hf
  have : ∀ work : TPatch ℕ → Except Err ℕ, ∀ p q, newBody work p = .ok (.fresh q) → q.history = p.history :=
    fun work => C40_newBody "" [] work
  rcases hf with rfl | rfl | rfl | rfl | rfl
  · exact this _
  · exact this _
  · intro p q h; cases h
  · exact this _
  · exact this _

end Verif
