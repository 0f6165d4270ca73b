import Verif.Spec.Namespace
import Mathlib.Data.List.Induction
/-! # C111: namespaces of methods -/
namespace Verif
open Spec

variable {plugins : String → Option String}

/-- What is kept was asked for before, and belongs to the object. -/
structure NsState.Good (s : NsState) : Prop where
  loaded : ∀ o n x, s.kept o n = some x → s.loaded n = true
  own : ∀ o n x, s.kept o n = some x → x.2 = o

theorem load_kept (s : NsState) (m : String) : (s.load plugins m).kept = s.kept := by
  unfold NsState.load
  split
  · rfl
  · cases plugins m <;> rfl

theorem load_loaded (s : NsState) (m n : String) : (s.load plugins m).loaded n = (s.loaded n || decide (m = n)) := by
  unfold NsState.load
  by_cases h : s.loaded m = true
  · rw [if_pos h]
    by_cases e : m = n
    · subst e; simp [h]
    · simp [e]
  · rw [if_neg h]
    have : ∀ t : NsState, t.loaded = Function.update s.loaded m true → t.loaded n = (s.loaded n || decide (m = n)) := by
      intro t ht
      rw [ht]
      by_cases e : n = m
      · subst e; simp
      · simp [e, Ne.symm e]
    cases plugins m <;> exact this _ rfl

theorem load_registry (s : NsState) (m n : String) :
    (s.load plugins m).registry n = ((if m = n ∧ s.loaded n = false then (plugins n).toList else []).getLast?).or (s.registry n) := by
  unfold NsState.load
  by_cases h : s.loaded m = true
  · rw [if_pos h]
    have : ¬ (m = n ∧ s.loaded n = false) := by rintro ⟨rfl, g⟩; simp [h] at g
    rw [if_neg this]
    rfl
  · rw [if_neg h]
    by_cases e : m = n
    · subst e
      rw [if_pos ⟨rfl, by simpa using h⟩]
      cases hp : plugins m <;> simp [NsState.register]
    · rw [if_neg (fun g => e g.1)]
      cases hp : plugins m <;> simp [NsState.register, Ne.symm e]

theorem access_eq (s : NsState) (hs : s.Good) (o : ℕ) (m : String) :
    (∀ n, (s.access plugins o m).1.loaded n = (s.load plugins m).loaded n) ∧ (∀ n, (s.access plugins o m).1.registry n = (s.load plugins m).registry n) ∧
    (s.access plugins o m).1.kept = Function.update s.kept o (Function.update (s.kept o) m (s.access plugins o m).2) ∧
    (s.access plugins o m).2 = (s.kept o m).or (((s.load plugins m).registry m).map fun c => (c, o)) := by
  unfold NsState.access
  cases hk : s.kept o m with
  | some x =>
    have hl : s.load plugins m = s := by unfold NsState.load; rw [if_pos (hs.loaded _ _ _ hk)]
    simp only [hl]
    refine ⟨fun _ => trivial, fun _ => trivial, ?_, by simp⟩
    rw [← hk]
    simp
  | none =>
    simp only
    cases hr : (s.load plugins m).registry m with
    | some c => simp [load_kept]
    | none =>
      refine ⟨fun _ => rfl, fun _ => rfl, ?_, by simp⟩
      simp only [load_kept]
      rw [← hk]
      simp

theorem step_good {s : NsState} (hs : s.Good) (e : NsEvent) : (s.step plugins e).Good := by
  cases e with
  | register m c => exact ⟨hs.loaded, hs.own⟩
  | access o m =>
    obtain ⟨h1, _, h3, h4⟩ := access_eq (plugins := plugins) s hs o m
    have key : ∀ o' n x, (s.access plugins o m).1.kept o' n = some x → s.kept o' n = some x ∨ (o' = o ∧ n = m ∧ x.2 = o) := by
      intro o' n x hx
      rw [h3] at hx
      by_cases ho : o' = o
      · subst ho
        by_cases hn : n = m
        · subst hn
          rw [Function.update_self, Function.update_self, h4] at hx
          cases hk : s.kept o' n with
          | some y => rw [hk] at hx; exact Or.inl hx
          | none =>
            rw [hk, Option.none_or] at hx
            obtain ⟨c, _, rfl⟩ := Option.map_eq_some_iff.1 hx
            exact Or.inr ⟨rfl, rfl, rfl⟩
        · rw [Function.update_self, Function.update_of_ne hn] at hx; exact Or.inl hx
      · rw [Function.update_of_ne ho] at hx; exact Or.inl hx
    refine ⟨fun o' n x hx => ?_, fun o' n x hx => ?_⟩
    · show (s.access plugins o m).1.loaded n = true
      rw [h1, load_loaded]
      rcases key o' n x hx with h | ⟨_, rfl, _⟩
      · rw [hs.loaded _ _ _ h]; rfl
      · simp
    · rcases key o' n x hx with h | ⟨rfl, _, h⟩
      · exact hs.own _ _ _ h
      · exact h

theorem run_good (h : List NsEvent) : ∀ {s : NsState}, s.Good → (h.foldl (NsState.step plugins) s).Good := by
  induction h with
  | nil => exact fun hs => hs
  | cons e h ih => exact fun hs => ih (step_good hs e)

theorem empty_good : NsState.empty.Good := ⟨fun _ _ _ h => (by cases h), fun _ _ _ h => (by cases h)⟩

theorem getLast?_append_or (a b : List String) (x : Option String) : ((a ++ b).getLast?).or x = (b.getLast?).or ((a.getLast?).or x) := by
  rw [List.getLast?_append, Option.or_assoc]

/-- Loading a name after some events leaves the last class offered in the registry. -/
theorem run_registry (n : String) (h : List NsEvent) : ∀ {s : NsState}, s.Good →
    (h.foldl (NsState.step plugins) s).registry n = ((offered plugins n (s.loaded n) h).getLast?).or (s.registry n) := by
  induction h with
  | nil => intro s _; rfl
  | cons e h ih =>
    intro s hs
    rw [List.foldl_cons, ih (step_good hs e)]
    cases e with
    | register m c =>
      rw [offered, getLast?_append_or]
      show ((offered plugins n (s.loaded n) h).getLast?).or (Function.update s.registry m (some c) n) = _
      by_cases e : m = n
      · subst e; simp
      · simp [e, Ne.symm e]
    | access o m =>
      obtain ⟨h1, h2, _, _⟩ := access_eq (plugins := plugins) s hs o m
      rw [offered, getLast?_append_or]
      show ((offered plugins n ((s.access plugins o m).1.loaded n) h).getLast?).or ((s.access plugins o m).1.registry n) = _
      rw [h1, h2, load_loaded, load_registry]

theorem run_kept {o : ℕ} {n : String} {x : String × ℕ} (h : List NsEvent) : ∀ {s : NsState}, s.Good → s.kept o n = some x →
    (h.foldl (NsState.step plugins) s).kept o n = some x := by
  induction h with
  | nil => exact fun _ hk => hk
  | cons e h ih =>
    intro s hs hk
    refine ih (step_good hs e) ?_
    cases e with
    | register m c => exact hk
    | access o' m =>
      obtain ⟨_, _, h3, h4⟩ := access_eq (plugins := plugins) s hs o' m
      show (s.access plugins o' m).1.kept o n = some x
      rw [h3]
      by_cases ho : o = o'
      · subst ho
        by_cases hn : n = m
        · subst hn
          rw [Function.update_self, Function.update_self, h4, hk]
          rfl
        · rw [Function.update_self, Function.update_of_ne hn]; exact hk
      · rw [Function.update_of_ne ho]; exact hk

/-- A namespace belongs to the object it was asked from, and stays the same for that object, whatever happens later. -/
theorem C111_stable {h : List NsEvent} {o : ℕ} {n : String} {x : String × ℕ} (hx : nsResult plugins h o n = some x) :
    x.2 = o ∧ ∀ later, nsResult plugins (h ++ .access o n :: later) o n = some x := by
  have hg := run_good (plugins := plugins) h empty_good
  unfold nsResult at hx
  obtain ⟨_, _, h3, h4⟩ := access_eq (plugins := plugins) _ hg o n
  have hk : ((h.foldl (NsState.step plugins) .empty).step plugins (.access o n)).kept o n = some x := by
    show ((h.foldl (NsState.step plugins) .empty).access plugins o n).1.kept o n = some x
    rw [h3, Function.update_self, Function.update_self, hx]
  have hg' := step_good (plugins := plugins) hg (.access o n)
  refine ⟨hg'.own _ _ _ hk, fun later => ?_⟩
  unfold nsResult
  rw [List.foldl_append, List.foldl_cons]
  have := run_kept (plugins := plugins) later hg' hk
  rw [(access_eq _ (run_good later hg') o n).2.2.2, this]
  rfl

theorem kept_none {o : ℕ} {n : String} (h : List NsEvent)
    (hno : ∀ a b, h = a ++ .access o n :: b → nsResult plugins a o n = none) : (h.foldl (NsState.step plugins) .empty).kept o n = none := by
  induction h using List.reverseRecOn with
  | nil => rfl
  | append_singleton h e ih =>
    have hi := ih fun a b hab => hno a (b ++ [e]) (by rw [hab]; simp)
    rw [List.foldl_append, List.foldl_cons, List.foldl_nil]
    cases e with
    | register m c => exact hi
    | access o' m =>
      obtain ⟨_, _, h3, _⟩ := access_eq (plugins := plugins) _ (run_good (plugins := plugins) h empty_good) o' m
      show ((h.foldl (NsState.step plugins) .empty).access plugins o' m).1.kept o n = none
      rw [h3]
      by_cases ho : o = o'
      · subst ho
        by_cases hn : n = m
        · subst hn
          rw [Function.update_self, Function.update_self]
          exact hno h [] rfl
        · rw [Function.update_self, Function.update_of_ne hn]; exact hi
      · rw [Function.update_of_ne ho]; exact hi

/-- An object which has not got a namespace of that name yet gets the class defined last under it, made for this object; if there is none, an
AttributeError, and these leave no trace. -/
theorem C111_access {h : List NsEvent} {o : ℕ} {n : String} (hno : ∀ a b, h = a ++ .access o n :: b → nsResult plugins a o n = none) :
    nsResult plugins h o n = ((offered plugins n false (h ++ [.access o n])).getLast?).map fun c => (c, o) := by
  have hk := kept_none (plugins := plugins) h hno
  have hg := run_good (plugins := plugins) h empty_good
  have hr := run_registry (plugins := plugins) n (h ++ [.access o n]) empty_good
  obtain ⟨_, h2, _, h4⟩ := access_eq (plugins := plugins) _ hg o n
  rw [List.foldl_append, List.foldl_cons, List.foldl_nil] at hr
  have hr' : ((h.foldl (NsState.step plugins) .empty).access plugins o n).1.registry n = _ := hr
  rw [h2] at hr'
  unfold nsResult
  rw [h4, hk, Option.none_or, hr']
  simp [NsState.empty]

/-- A class which is registered is not used by objects which had an older one of that name. -/
theorem C111_replaced_violated : nsResult (fun _ => none) [.register "x" "A", .access 0 "x", .register "x" "B"] 0 "x" = some ("A", 0) ∧
    nsResult (fun _ => none) [.register "x" "A", .access 0 "x", .register "x" "B"] 1 "x" = some ("B", 1) := by decide +kernel

/-- A class which is registered is replaced by that of an entry point as soon as it is asked for. -/
theorem C111_entry_point_violated : nsResult (fun n => if n = "x" then some "P" else none) [.register "x" "A"] 0 "x" = some ("P", 0) := by decide +kernel

/-- After an AttributeError a class is registered, and found. -/
example : (∀ a b, [.access 0 "x", .register "x" "A"] = a ++ NsEvent.access 0 "x" :: b → nsResult (fun _ => none) a 0 "x" = none) ∧
    nsResult (fun _ => none) [.access 0 "x", .register "x" "A"] 0 "x" = some ("A", 0) := by
  refine ⟨fun a b h => ?_, by decide +kernel⟩
  match a, h with
  | [], _ => decide +kernel
  | [_], h => simp at h
  | _ :: _ :: _, h => simp at h

end Verif
