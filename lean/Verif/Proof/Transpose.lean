import Verif.Proof.SortPatch
/-! # Lemmas: transposing and renaming -/
namespace Verif
open Spec

namespace CM

theorem foldl_erase_eq {old : List String} (hn : old.Nodup) (names : List String) :
    names.foldl List.erase old = old.filter (· ∉ names) := by
  induction names generalizing old with
  | nil => simp
  | cons a l ih =>
    rw [List.foldl_cons, ih (hn.erase a), hn.erase_eq_filter, List.filter_filter]
    apply List.filter_congr
    intro x _
    by_cases h1 : x = a <;> by_cases h2 : x ∈ l <;> simp [h1, h2]

theorem names_dim (l : List String) : (l.map TDim.dim).filterMap TDim.name? = l := by
  induction l with
  | nil => rfl
  | cons a l ih => rw [List.map_cons, List.filterMap_cons, ih]; rfl

theorem expand_dim (rest l : List String) : (l.map TDim.dim).flatMap (expand rest) = l := by
  induction l with
  | nil => rfl
  | cons a l ih =>
    rw [List.map_cons, List.flatMap_cons, ih]; rfl

theorem no_dots {l : List TDim} (h : TDim.dots ∉ l) : ∃ a : List String, l = a.map .dim := by
  induction l with
  | nil => exact ⟨[], rfl⟩
  | cons t l ih =>
    simp only [List.mem_cons, not_or] at h
    obtain ⟨a, rfl⟩ := ih h.2
    cases t with
    | dim s => exact ⟨s :: a, rfl⟩
    | dots => exact absurd rfl h.1

theorem dim_injective : Function.Injective TDim.dim := fun _ _ h => by cases h; rfl

theorem transposeDims_eq (new : List TDim) (old : List String) : transposeDims new old =
    if ¬ new.Nodup then .error .parameterError
    else if ¬ (new.filterMap TDim.name?).all (fun n => old.contains n) then .error .valueError
    else
      let full := new.flatMap (expand ((new.filterMap TDim.name?).foldl List.erase old))
      if full.all (fun n => old.contains n) && old.all (fun n => full.contains n) then .ok full else .error .parameterError := by
  rfl

theorem transposeDims_spec {new : List TDim} {old full : List String} (hn : old.Nodup) (hne : new ≠ []) :
    transposeDims new old = .ok full ↔ Requested old new full ∧ full.Perm old := by
  constructor
  · intro h
    refine ⟨?_, transposeDims_perm h hn⟩
    rw [transposeDims_eq] at h
    simp only at h
    split_ifs at h with h1 h2 h3
    cases h
    rw [foldl_erase_eq hn]
    by_cases hd : TDim.dots ∈ new
    · right; right
      obtain ⟨l1, l2, rfl⟩ := List.append_of_mem hd
      rw [List.nodup_append, List.nodup_cons] at h1
      obtain ⟨a, rfl⟩ := no_dots (l := l1) fun h => h1.2.2 _ h _ List.mem_cons_self rfl
      obtain ⟨b, rfl⟩ := no_dots (l := l2) h1.2.1.1
      refine ⟨a, b, rfl, ?_⟩
      simp only [List.filterMap_append, names_dim, List.flatMap_append, List.flatMap_cons, expand_dim, expand, List.filterMap_cons, TDim.name?,
        List.append_assoc]
    · right; left
      obtain ⟨a, rfl⟩ := no_dots hd
      refine ⟨hne, ?_⟩
      rw [expand_dim]
  · rintro ⟨hr, hp⟩
    have hfn := hp.nodup_iff.2 hn
    have hall : (full.all (fun n => old.contains n) && old.all (fun n => full.contains n)) = true := by
      rw [Bool.and_eq_true, List.all_eq_true, List.all_eq_true]
      exact ⟨fun x hx => by simpa using hp.mem_iff.1 hx, fun x hx => by simpa using hp.mem_iff.2 hx⟩
    rw [transposeDims_eq, foldl_erase_eq hn]
    rcases hr with ⟨h, _⟩ | ⟨_, rfl⟩ | ⟨a, b, rfl, rfl⟩
    · exact absurd h hne
    · rw [if_neg (by rw [not_not]; exact hfn.map dim_injective), names_dim, if_neg, expand_dim]
      · simp only [hall, if_true]
      · rw [not_not, List.all_eq_true]
        exact fun x hx => by simpa using hp.mem_iff.1 hx
    · have e1 : (a.map TDim.dim ++ TDim.dots :: b.map TDim.dim).filterMap TDim.name? = a ++ b := by
        simp only [List.filterMap_append, names_dim, List.filterMap_cons, TDim.name?]
      have e2 : (a.map TDim.dim ++ TDim.dots :: b.map TDim.dim).flatMap (expand (old.filter (· ∉ a ++ b))) =
          a ++ old.filter (· ∉ a ++ b) ++ b := by
        simp only [List.flatMap_append, List.flatMap_cons, expand_dim, expand, List.append_assoc]
      rw [if_neg, e1, if_neg, e2]
      · simp only [hall, if_true]
      · rw [not_not, List.all_eq_true]
        intro x hx
        have : x ∈ a ++ old.filter (· ∉ a ++ b) ++ b := by
          simp only [List.mem_append] at hx ⊢; tauto
        simpa using hp.mem_iff.1 this
      · rw [not_not, List.nodup_append]
        rw [List.append_assoc, List.nodup_append] at hfn
        have h2 := (List.nodup_append.1 hfn.2.1).2.1
        refine ⟨hfn.1.map dim_injective, ?_, ?_⟩
        · rw [List.nodup_cons]
          exact ⟨by simp, h2.map dim_injective⟩
        · intro x hx y hy hxy
          subst hxy
          obtain ⟨s, hs, rfl⟩ := List.mem_map.1 hx
          simp only [List.mem_cons, reduceCtorEq, false_or, List.mem_map] at hy
          obtain ⟨s', hs', e⟩ := hy
          cases e
          exact hfn.2.2 s hs s (List.mem_append_right _ hs') rfl

/-- The manager after a transpose. -/
theorem transpose_spec {m : CM} (hw : WellFormed m) (hd : DistinctDims m) (new : List TDim) (full : List String) :
    (∃ m', m.transpose new = .ok m' ∧ m'.dims = full) ↔ Requested m.dims new full ∧ full.Perm m.dims := by
  have hmk : ∀ l : List String, l.Perm m.dims → CM.mk? l m.ents = .ok ⟨l, m.ents⟩ := by
    intro l hl
    obtain ⟨_, h1, h2⟩ := mk?_ok (WellFormed.valid hw)
    exact mk?_of (fun d hd => h1 d (hl.mem_iff.1 hd)) fun p hp => ⟨fun d hd => hl.mem_iff.2 ((h2 p hp).1 d hd), (h2 p hp).2⟩
  have key : ∀ new, new ≠ [] → ((∃ m', (transposeDims new m.dims).bind
      (fun dims => if dims = m.dims then Except.ok m else CM.mk? dims m.ents) = .ok m' ∧ m'.dims = full) ↔
      Requested m.dims new full ∧ full.Perm m.dims) := by
    intro new hne
    rw [← transposeDims_spec hd hne]
    constructor
    · rintro ⟨m', h, rfl⟩
      cases ht : transposeDims new m.dims with
      | error e => rw [ht] at h; cases h
      | ok l =>
        rw [ht] at h
        simp only [Except.bind] at h
        split_ifs at h with he
        · cases h; rw [he]
        · rw [hmk l (transposeDims_perm ht hd)] at h
          cases h; rfl
    · intro h
      rw [h]
      simp only [Except.bind]
      split_ifs with he
      · exact ⟨m, rfl, he.symm⟩
      · exact ⟨_, hmk _ (transposeDims_perm h hd), rfl⟩
  unfold transpose
  by_cases hne : new = []
  · subst hne
    simp only [List.isEmpty_nil, if_true]
    by_cases hdn : m.dims = []
    · -- no dimensions at all
      rw [hdn]
      have : transposeDims ([] : List TDim) ([] : List String) = .ok [] := by decide +kernel
      simp only [List.reverse_nil, List.map_nil, this, bind, Except.bind, if_true]
      constructor
      · rintro ⟨m', h, rfl⟩
        cases h
        rw [hdn]
        exact ⟨Or.inl ⟨rfl, rfl⟩, List.Perm.refl _⟩
      · rintro ⟨_, h⟩
        exact ⟨m, rfl, by rw [hdn, List.perm_nil.1 h]⟩
    · have h1 := key (m.dims.reverse.map .dim) (by simpa using hdn)
      refine Iff.trans h1 ?_
      constructor
      · rintro ⟨h, hp⟩
        refine ⟨Or.inl ⟨rfl, ?_⟩, hp⟩
        rcases h with ⟨h, _⟩ | ⟨_, h⟩ | ⟨a, b, h, _⟩
        · simp at h; exact absurd h hdn
        · exact (List.map_injective_iff.2 dim_injective h).symm
        · have : TDim.dots ∈ m.dims.reverse.map TDim.dim := by rw [h]; simp
          simp at this
      · rintro ⟨h, hp⟩
        refine ⟨?_, hp⟩
        rcases h with ⟨_, rfl⟩ | ⟨h, _⟩ | ⟨a, b, h, _⟩
        · exact Or.inr (Or.inl ⟨by simpa using hdn, rfl⟩)
        · exact absurd rfl h
        · simp at h
  · rw [if_neg (by simpa using hne)]
    exact key new hne

theorem transpose_ents {m m' : CM} {new : List TDim} (h : m.transpose new = .ok m') : m'.ents = m.ents := by
  unfold transpose at h
  simp only [bind, Except.bind] at h
  split at h
  · cases h
  · split_ifs at h
    · cases h; rfl
    · rw [(mk?_ok h).1]

end CM

/-- Where the element at index `i` of the transposed array was. -/
def untranspose (old new : List String) (i : List ℕ) : List ℕ := old.map fun d => i.getD (new.idxOf d) 0

theorem idxOf_map_inj {α β} [BEq α] [LawfulBEq α] [BEq β] [LawfulBEq β] {f : α → β} {l : List α} {x : α}
    (hf : ∀ y ∈ l, f y = f x → y = x) : (l.map f).idxOf (f x) = l.idxOf x := by
  induction l with
  | nil => rfl
  | cons a l ih =>
    rw [List.map_cons, List.idxOf_cons, List.idxOf_cons, ih fun y hy => hf y (List.mem_cons_of_mem _ hy)]
    by_cases h : a = x
    · rw [h]; simp
    · have : f a ≠ f x := fun e => h (hf a List.mem_cons_self e)
      simp only [beq_eq_false_iff_ne.2 h, beq_eq_false_iff_ne.2 this]

theorem transpose_get {α} {a : Nd α} {old new : List String} (hn : old.Nodup) (hp : new.Perm old) (hl : a.shape.length = old.length)
    (i : List ℕ) : (a.transpose (new.map fun d => old.idxOf d)).get i = a.get (untranspose old new i) := by
  unfold Nd.transpose untranspose
  simp only
  congr 1
  rw [hl]
  apply List.ext_getElem (by simp)
  intro k h1 h2
  simp only [List.getElem_map, List.getElem_range]
  congr 1
  have hk : k < old.length := by simpa using h2
  have e : old.idxOf old[k] = k := hn.idxOf_getElem k hk
  conv_lhs => rw [← e]
  apply idxOf_map_inj (f := fun d => old.idxOf d)
  intro y hy hyx
  exact (List.idxOf_inj (hp.mem_iff.1 hy)).1 hyx

theorem transpose_shape {α} {a : Nd α} {old new : List String} {f : String → ℕ} (hs : a.shape = old.map f) (hp : new.Perm old) :
    (a.transpose (new.map fun d => old.idxOf d)).shape = new.map f := by
  unfold Nd.transpose
  simp only [List.map_map]
  apply List.map_congr_left
  intro d hd
  have := List.idxOf_lt_length_of_mem (hp.mem_iff.1 hd)
  simp only [Function.comp, hs]
  rw [List.getD_eq_getElem?_getD, List.getElem?_map, List.getElem?_eq_getElem this]
  simp

theorem untranspose_getD {old new : List String} {i : List ℕ} {d : String} (hd : d ∈ old) :
    (untranspose old new i).getD (old.idxOf d) 0 = i.getD (new.idxOf d) 0 := by
  unfold untranspose
  have := List.idxOf_lt_length_of_mem hd
  rw [List.getD_eq_getElem?_getD, List.getElem?_map, List.getElem?_eq_getElem this]
  simp

theorem map_getD_idxOf {l : List String} (hn : l.Nodup) {i : List ℕ} (hi : i.length = l.length) :
    (l.map fun d => i.getD (l.idxOf d) 0) = i := by
  apply List.ext_getElem (by simp [hi])
  intro k h1 h2
  simp only [List.getElem_map]
  rw [hn.idxOf_getElem k (by simpa using h1), List.getD_eq_getElem?_getD, List.getElem?_eq_getElem h2]
  rfl

theorem untranspose_untranspose {old new : List String} (hn : old.Nodup) (hp : new.Perm old) {j : List ℕ} (hj : j.length = old.length) :
    untranspose old new (untranspose new old j) = j := by
  conv_rhs => rw [← map_getD_idxOf hn hj]
  apply List.map_congr_left
  intro d hd
  exact untranspose_getD (hp.mem_iff.2 hd)

end Verif
