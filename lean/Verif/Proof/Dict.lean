import Verif.Model.CoordManager
/-! # Lemmas about dictionaries -/
namespace Verif
namespace Dict
variable {α β : Type}

theorem get?_nil (k : String) : get? ([] : Dict α) k = none := rfl

theorem get?_cons (p : String × α) (d : Dict α) (k : String) :
    get? (p :: d) k = if p.1 = k then some p.2 else get? d k := by
  unfold get?
  rw [List.find?_cons]
  by_cases h : p.1 = k
  · simp [h]
  · simp [h, beq_eq_false_iff_ne.2 h]

theorem get?_eq_none {d : Dict α} {k : String} : get? d k = none ↔ k ∉ d.keys := by
  induction d with
  | nil => simp [get?_nil, keys]
  | cons p d ih =>
    rw [get?_cons]
    by_cases h : p.1 = k
    · simp [h, keys]
    · rw [if_neg h, ih]; simp [keys, Ne.symm h]

theorem mem_keys {d : Dict α} {k : String} : k ∈ d.keys ↔ ∃ v, get? d k = some v := by
  rw [← not_iff_not, ← get?_eq_none]
  cases get? d k <;> simp

theorem mem_of_get? {d : Dict α} {k : String} {v : α} (h : get? d k = some v) : (k, v) ∈ d := by
  induction d with
  | nil => simp [get?_nil] at h
  | cons p d ih =>
    rw [get?_cons] at h
    split_ifs at h with h1
    · cases h; subst h1; simp
    · exact List.mem_cons_of_mem _ (ih h)

theorem get?_of_mem {d : Dict α} (hn : d.keys.Nodup) {k : String} {v : α} (h : (k, v) ∈ d) : get? d k = some v := by
  induction d with
  | nil => simp at h
  | cons p d ih =>
    rw [get?_cons]
    simp only [keys, List.map_cons, List.nodup_cons] at hn
    rcases List.mem_cons.1 h with h | h
    · subst h; simp
    · have : p.1 ≠ k := by
        intro e; apply hn.1; rw [e]; exact List.mem_map_of_mem (f := Prod.fst) h
      rw [if_neg this]; exact ih hn.2 h

theorem mem_iff {d : Dict α} (hn : d.keys.Nodup) {k : String} {v : α} : (k, v) ∈ d ↔ get? d k = some v :=
  ⟨get?_of_mem hn, mem_of_get?⟩

theorem keys_set (d : Dict α) (k : String) (v : α) : (d.set k v).keys = if k ∈ d.keys then d.keys else d.keys ++ [k] := by
  unfold set
  have : (d.any fun p => p.1 == k) = true ↔ k ∈ d.keys := by
    simp [keys, List.any_eq_true]
  by_cases h : k ∈ d.keys
  · rw [if_pos (this.2 h), if_pos h]
    simp only [keys, List.map_map]
    apply List.map_congr_left
    intro p _
    by_cases e : p.1 = k <;> simp [e]
  · rw [if_neg (fun c => h (this.1 c)), if_neg h]
    simp [keys]

theorem nodup_set {d : Dict α} (h : d.keys.Nodup) (k : String) (v : α) : (d.set k v).keys.Nodup := by
  rw [keys_set]
  split_ifs with hk
  · exact h
  · rw [List.nodup_append]
    refine ⟨h, by simp, ?_⟩
    intro a ha b hb e
    simp at hb
    exact hk (hb ▸ e ▸ ha)

theorem get?_map_val (d : Dict α) (f : String → α → β) (k : String) :
    get? (d.map fun p => (p.1, f p.1 p.2)) k = (get? d k).map (f k) := by
  induction d with
  | nil => rfl
  | cons p d ih =>
    rw [List.map_cons, get?_cons, get?_cons]
    by_cases h : p.1 = k
    · simp [h]
    · simp only [h, if_false]; exact ih

theorem keys_map_val (d : Dict α) (f : String → α → β) : keys (d.map fun p => (p.1, f p.1 p.2)) = d.keys := by
  simp [keys, Function.comp_def]

theorem get?_append (d e : Dict α) (k : String) : get? (d ++ e) k = (get? d k).or (get? e k) := by
  induction d with
  | nil => simp [get?_nil]
  | cons p d ih =>
    rw [List.cons_append, get?_cons, get?_cons]
    by_cases h : p.1 = k
    · simp [h]
    · simp only [h, if_false]; exact ih

theorem get?_set (d : Dict α) (k : String) (v : α) (k' : String) :
    get? (d.set k v) k' = if k' = k then some v else get? d k' := by
  unfold set
  have : (d.any fun p => p.1 == k) = true ↔ k ∈ d.keys := by
    simp [keys, List.any_eq_true]
  by_cases h : k ∈ d.keys
  · rw [if_pos (this.2 h)]
    have e := get?_map_val d (fun n w => if n = k then v else w) k'
    have e2 : (d.map fun p => if p.1 == k then (k, v) else p) = d.map fun p => (p.1, if p.1 = k then v else p.2) := by
      apply List.map_congr_left
      intro p _
      by_cases e : p.1 = k
      · rcases p with ⟨a, b⟩; simp at e; subst e; simp
      · simp [e]
    rw [e2, e]
    by_cases hk : k' = k
    · subst hk
      obtain ⟨w, hw⟩ := mem_keys.1 h
      simp [hw]
    · simp only [hk, if_false, Option.map_id']
  · rw [if_neg (fun c => h (this.1 c)), get?_append, get?_cons, get?_nil]
    by_cases hk : k' = k
    · subst hk
      simp [get?_eq_none.2 h]
    · rw [if_neg hk, if_neg (Ne.symm hk)]; simp

theorem get?_filter (d : Dict α) (p : String → Bool) (k : String) :
    get? (d.filter fun q => p q.1) k = if p k then get? d k else none := by
  induction d with
  | nil => simp [get?_nil]
  | cons q d ih =>
    rw [List.filter_cons]
    by_cases h : p q.1 = true
    · rw [if_pos h, get?_cons, get?_cons, ih]
      by_cases e : q.1 = k
      · subst e; simp [h]
      · simp [e]
    · rw [if_neg h, ih, get?_cons]
      by_cases e : q.1 = k
      · subst e; simp [h]
      · simp [e]

theorem nodup_filter {d : Dict α} (h : d.keys.Nodup) (p : String × α → Bool) : (keys (d.filter p)).Nodup :=
  List.Nodup.sublist (List.Sublist.map _ List.filter_sublist) h

theorem nodup_update {d : Dict α} (h : d.keys.Nodup) (e : Dict α) : (d.update e).keys.Nodup := by
  unfold update
  induction e generalizing d with
  | nil => exact h
  | cons p e ih => exact ih (nodup_set h _ _)

theorem get?_update (d : Dict α) (e : Dict α) (he : e.keys.Nodup) (k : String) :
    get? (d.update e) k = (get? e k).or (get? d k) := by
  unfold update
  induction e generalizing d with
  | nil => simp [get?_nil]
  | cons p e ih =>
    simp only [keys, List.map_cons, List.nodup_cons] at he
    rw [List.foldl_cons, ih _ he.2, get?_cons, get?_set]
    by_cases h : p.1 = k
    · subst h
      have : get? e p.1 = none := get?_eq_none.2 he.1
      simp [this]
    · rw [if_neg h, if_neg (Ne.symm h)]

/-- A dictionary mapped through a function that may fail, keeping the keys. -/
theorem mapM_keys {d : Dict α} {f : String × α → Except Err β} {e : Dict β}
    (h : (d.mapM fun p => (f p).map fun x => (p.1, x)) = .ok e) : e.keys = d.keys := by
  induction d generalizing e with
  | nil => simp [pure, Except.pure] at h; subst h; rfl
  | cons p d ih =>
    rw [List.mapM_cons] at h
    cases h1 : f p with
    | error x => rw [h1] at h; simp [Except.map, bind, Except.bind] at h
    | ok x =>
      rw [h1] at h
      cases h2 : (d.mapM fun p => (f p).map fun x => (p.1, x)) with
      | error y => rw [h2] at h; simp [Except.map, bind, Except.bind] at h
      | ok e' =>
        rw [h2] at h
        simp [Except.map, bind, Except.bind, pure, Except.pure] at h
        subst h
        simp only [keys, List.map_cons, List.cons.injEq, true_and]
        exact ih h2

theorem mapM_get? {d : Dict α} {f : String × α → Except Err β} {e : Dict β}
    (h : (d.mapM fun p => (f p).map fun x => (p.1, x)) = .ok e) (k : String) {v : β} (hv : get? e k = some v) :
    ∃ a, get? d k = some a ∧ f (k, a) = .ok v := by
  induction d generalizing e with
  | nil => simp [pure, Except.pure] at h; subst h; simp [get?_nil] at hv
  | cons p d ih =>
    rw [List.mapM_cons] at h
    cases h1 : f p with
    | error x => rw [h1] at h; simp [Except.map, bind, Except.bind] at h
    | ok x =>
      rw [h1] at h
      cases h2 : (d.mapM fun p => (f p).map fun x => (p.1, x)) with
      | error y => rw [h2] at h; simp [Except.map, bind, Except.bind] at h
      | ok e' =>
        rw [h2] at h
        simp [Except.map, bind, Except.bind, pure, Except.pure] at h
        subst h
        rw [get?_cons] at hv
        rw [get?_cons]
        by_cases e : p.1 = k
        · simp only [e, if_true, Option.some.injEq] at hv ⊢
          exact ⟨p.2, rfl, by rw [← e, ← hv]; exact h1⟩
        · simp only [e, if_false] at hv ⊢
          exact ih h2 hv

/-- If the function succeeds on every item, so does the mapping, with the expected items. -/
theorem mapM_total {d : Dict α} {f : String × α → Except Err β} (h : ∀ p ∈ d, ∃ v, f p = .ok v) :
    ∃ e, (d.mapM fun p => (f p).map fun x => (p.1, x)) = .ok e := by
  induction d with
  | nil => exact ⟨[], rfl⟩
  | cons p d ih =>
    obtain ⟨v, hv⟩ := h p List.mem_cons_self
    obtain ⟨e, he⟩ := ih fun q hq => h q (List.mem_cons_of_mem _ hq)
    exact ⟨(p.1, v) :: e, by rw [List.mapM_cons, hv, he]; rfl⟩

end Dict
end Verif
