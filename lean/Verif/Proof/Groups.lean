import Verif.Proof.SelectPatch
/-! # Lemmas: the groups of keywords -/
namespace Verif
open Spec

theorem flatMap_singles {α κ : Type} [DecidableEq κ] (x : α) (k : κ) : ∀ ks : List κ, ks.Nodup → k ∈ ks →
    (ks.flatMap fun j => if k = j then [x] else []) = [x] := by
  intro ks
  induction ks with
  | nil => intro _ h; simp at h
  | cons j ks ih =>
    intro hn hk
    rw [List.nodup_cons] at hn
    rw [List.flatMap_cons]
    by_cases e : k = j
    · subst e
      have : (ks.flatMap fun j => if k = j then [x] else []) = [] := by
        rw [List.flatMap_eq_nil_iff]
        intro j hj
        have : k ≠ j := by rintro rfl; exact hn.1 hj
        simp [this]
      simp [this]
    · have hk : k ∈ ks := (List.mem_cons.1 hk).resolve_left e
      simp [e, ih hn.2 hk]

theorem filters_perm {α κ : Type} [DecidableEq κ] [BEq κ] [LawfulBEq κ] (f : α → κ) (ks : List κ) (hn : ks.Nodup) : ∀ l : List α, (∀ x ∈ l, f x ∈ ks) →
    (ks.flatMap fun k => l.filter fun x => f x == k).Perm l := by
  intro l
  induction l with
  | nil => intro _; simp
  | cons x l ih =>
    intro h
    have e : (ks.flatMap fun k => (x :: l).filter fun x => f x == k) =
        ks.flatMap fun k => (if f x = k then [x] else []) ++ l.filter fun x => f x == k := by
      congr 1
      funext k
      by_cases hk : f x = k <;> simp [hk]
    rw [e]
    refine (List.flatMap_append_perm ks _ _).symm.trans ?_
    rw [flatMap_singles x (f x) ks hn (h x List.mem_cons_self)]
    exact (ih fun y hy => h y (List.mem_cons_of_mem _ hy)).cons x

theorem column_all {α : Type} (c : List α) {n : ℕ} (h : c.length ≤ n) : ((List.range n).flatMap fun i : ℕ => (c[i]?).toList) = c := by
  induction c generalizing n with
  | nil => simp
  | cons a c ih =>
    cases n with
    | zero => simp at h
    | succ n =>
      rw [List.range_succ_eq_map, List.flatMap_cons, List.flatMap_map]
      simp only [List.getElem?_cons_zero, Option.toList_some, List.getElem?_cons_succ, List.cons_append, List.nil_append]
      rw [ih (by simpa using h)]

theorem rows_perm {α : Type} (cols : List (List α)) {n : ℕ} (h : ∀ c ∈ cols, c.length ≤ n) :
    ((List.range n).flatMap fun i : ℕ => cols.filterMap fun c => c[i]?).Perm cols.flatten := by
  induction cols with
  | nil => simp
  | cons c cols ih =>
    have e : ((List.range n).flatMap fun i : ℕ => (c :: cols).filterMap fun c => c[i]?) =
        (List.range n).flatMap fun i : ℕ => (c[i]?).toList ++ cols.filterMap fun c => c[i]? := by
      congr 1
      funext i
      rw [List.filterMap_cons]
      cases c[i]? <;> rfl
    rw [e]
    refine (List.flatMap_append_perm _ _ _).symm.trans ?_
    rw [column_all c (h c List.mem_cons_self), List.flatten_cons]
    exact (ih fun d hd => h d (List.mem_cons_of_mem _ hd)).append_left c

theorem le_foldl_max (l : List ℕ) : ∀ a, a ≤ l.foldl max a ∧ ∀ x ∈ l, x ≤ l.foldl max a := by
  induction l with
  | nil => intro a; simp
  | cons y l ih =>
    intro a
    rw [List.foldl_cons]
    obtain ⟨h1, h2⟩ := ih (max a y)
    refine ⟨le_trans (le_max_left _ _) h1, ?_⟩
    intro x hx
    rcases List.mem_cons.1 hx with rfl | hx
    · exact le_trans (le_max_right _ _) h1
    · exact h2 x hx

theorem groups_perm (m : CM) (kw : Dict CQuery) :
    (m.groups kw).flatten.Perm (kw.filter fun p => m.ents.keys.contains p.1) := by
  unfold CM.groups
  simp only
  split_ifs with h
  · simp
  · rw [← List.flatMap_def]
    refine (rows_perm _ ?_).trans ?_
    · intro c hc
      exact (le_foldl_max _ 0).2 _ (List.mem_map_of_mem hc)
    · rw [← List.flatMap_def]
      apply filters_perm
      · exact List.nodup_dedup _
      · intro x hx
        rw [List.mem_dedup]
        exact List.mem_map.2 ⟨x, hx, rfl⟩

theorem groups_onePerDim (m : CM) (kw : Dict CQuery) : ∀ g ∈ m.groups kw, OnePerDim m g := by
  unfold CM.groups
  simp only
  intro g hg
  have key : ∀ {p q : String × CQuery}, ((m.ents.get? p.1).map Prod.fst).getD [] ≠ ((m.ents.get? q.1).map Prod.fst).getD [] →
      ∀ d c c', m.ents.get? p.1 = some ([d], c) → m.ents.get? q.1 ≠ some ([d], c') := by
    intro p q h d c c' h1 h2
    rw [h1, h2] at h
    exact h rfl
  unfold OnePerDim
  split_ifs at hg with h
  · simp only [List.mem_singleton] at hg
    subst hg
    rw [List.Nodup, List.pairwise_map] at h
    exact h.imp key
  · obtain ⟨i, _, rfl⟩ := List.mem_map.1 hg
    rw [List.filterMap_map]
    rw [List.pairwise_filterMap]
    refine (List.nodup_dedup _).imp ?_
    intro ds es hne p hp q hq
    apply key
    simp only [Function.comp_apply] at hp hq
    have h1 := (List.mem_filter.1 (List.mem_of_getElem? hp)).2
    have h2 := (List.mem_filter.1 (List.mem_of_getElem? hq)).2
    simp only [beq_iff_eq] at h1 h2
    rw [h1, h2]
    exact hne

theorem chain_spec {α} {argsort : List ℚ → List ℕ} (ha : IsArgsort argsort) (gs : List (Dict CQuery)) :
    ∀ (p : PatchM α) (q : CM × Nd α), Regular p.cm → p.cm.dims ≠ [] → p.cm.shape = p.data.shape →
      (∀ g ∈ gs, ∀ r ∈ g, NonNegSamples r.2) → (∀ g ∈ gs, OnePerDim p.cm g) →
      gs.foldlM (CM.selectGroup argsort) (p.cm, p.data) = .ok q → SelectedBy p gs ⟨q.1, q.2⟩ ∧ Regular q.1 ∧ q.1.shape = q.2.shape := by
  induction gs with
  | nil => intro p q h1 _ h3 _ _ h; cases h; exact ⟨.done p, h1, h3⟩
  | cons g gs ih =>
    intro p q h1 h2 h3 hn ho h
    rw [List.foldlM_cons] at h
    cases hg : CM.selectGroup argsort (p.cm, p.data) g with
    | error e => rw [hg] at h; cases h
    | ok s =>
      rw [hg] at h
      obtain ⟨red, hs, hr, hsh⟩ := group_spec ha h1 h2 h3 (hn g List.mem_cons_self) (ho g List.mem_cons_self) hg
      obtain ⟨i1, i2⟩ := ih ⟨s.1, s.2⟩ q hr (by rw [hs.dims]; exact h2) hsh (fun g' hg' => hn g' (List.mem_cons_of_mem _ hg')) (by
        intro g' hg'
        refine (ho g' (List.mem_cons_of_mem _ hg')).imp ?_
        intro a b hab d c c' hc hc'
        have ea := hs.attached a.1
        have eb := hs.attached b.1
        simp only at ea eb hc hc'
        rw [hc] at ea
        rw [hc'] at eb
        cases ha' : p.cm.ents.get? a.1 with
        | none => rw [ha'] at ea; cases ea
        | some v =>
          cases hb' : p.cm.ents.get? b.1 with
          | none => rw [hb'] at eb; cases eb
          | some w =>
            rw [ha'] at ea; rw [hb'] at eb
            obtain ⟨v1, v2⟩ := v
            obtain ⟨w1, w2⟩ := w
            simp only [Option.map_some, Option.some.injEq] at ea eb
            subst ea; subst eb
            exact hab d v2 w2 ha' hb') h
      exact ⟨.next red (ho g List.mem_cons_self) hs i1, i2⟩

end Verif
