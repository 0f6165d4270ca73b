import Verif.Props.Spool
import Verif.Props.Filter
import Verif.Proof.CMWf
/-! # Lemmas about indexing arrays and axes -/
namespace Verif
open Spec

theorem apply_map {α β} (f : α → β) (l : List α) (x : Indexer) : x.apply (l.map f) = (x.apply l).map fun r => r.map f := by
  cases x with
  | slice s => exact pySlice_map f l s
  | ints ix => exact takeInts_map f l ix
  | mask m =>
    simp only [Indexer.apply, List.length_map, maskIdx_map]
    split_ifs <;> rfl

theorem mem_takeInts {α} {l r : List α} {ix : List ℤ} (h : takeInts l ix = .ok r) : ∀ v ∈ r, v ∈ l := by
  induction ix generalizing r with
  | nil => cases h; simp
  | cons i ix ih =>
    simp only [takeInts] at h
    split_ifs at h <;>
    · split at h
      · cases h
      · rename_i w hw
        cases h1 : takeInts l ix with
        | error e => rw [h1] at h; cases h
        | ok r' =>
          rw [h1] at h; cases h
          intro v hv
          rcases List.mem_cons.1 hv with rfl | hv
          · exact List.mem_of_getElem? hw
          · exact ih h1 v hv

theorem mem_maskIdx {α} {l : List α} {m : List Bool} : ∀ v ∈ maskIdx l m, v ∈ l := by
  intro v hv
  unfold maskIdx at hv
  obtain ⟨p, hp, h⟩ := List.mem_filterMap.1 hv
  split_ifs at h
  cases h
  exact (List.of_mem_zip hp).1

theorem mem_apply {α} {l r : List α} {x : Indexer} (h : x.apply l = .ok r) : ∀ v ∈ r, v ∈ l := by
  cases x with
  | slice s => exact fun v hv => mem_pySlice h v hv
  | ints ix => exact mem_takeInts h
  | mask m =>
    simp only [Indexer.apply] at h
    split_ifs at h
    cases h
    exact mem_maskIdx

theorem positions_lt {x : Indexer} {n : ℕ} {ps : List ℕ} (h : x.positions n = .ok ps) : ∀ i ∈ ps, i < n :=
  fun i hi => List.mem_range.1 (mem_apply h i hi)

/-- Any indexer applied to a list takes the elements at its positions. -/
theorem apply_eq {α} (l : List α) (x : Indexer) : x.apply l = (x.positions l.length).map fun ps => takeIdx l ps := by
  have h : l = (List.range l.length).attach.map fun i => l[i.1]'(List.mem_range.1 i.2) := by
    apply List.ext_getElem (by simp)
    intro i h1 h2
    simp
  have e1 := apply_map (fun i : {i // i ∈ List.range l.length} => l[i.1]'(List.mem_range.1 i.2)) (List.range l.length).attach x
  rw [← h] at e1
  have e2 := apply_map (fun i : {i // i ∈ List.range l.length} => i.1) (List.range l.length).attach x
  rw [List.attach_map_subtype_val] at e2
  unfold Indexer.positions
  rw [e1, e2]
  cases x.apply (List.range l.length).attach with
  | error e => rfl
  | ok r =>
    simp only [Except.map, Except.ok.injEq]
    unfold takeIdx
    rw [List.filterMap_map, ← List.filterMap_eq_map]
    congr 1
    funext i
    simp [List.getElem?_eq_getElem (List.mem_range.1 i.2)]

namespace Nd
variable {α : Type}

theorem set_append_length {β} (l : List β) (a b : β) (r : List β) : (l ++ a :: r).set l.length b = l ++ b :: r := by
  rw [List.set_append_right _ _ le_rfl]; simp

theorem getD_append_length {β} (l : List β) (a d : β) (r : List β) : (l ++ a :: r).getD l.length d = a := by
  simp [List.getD_eq_getElem?_getD]

/-- Sequential indexing of the axes is independent indexing of each. -/
theorem indexAxes_spec (xs : List Indexer) : ∀ (pre : List ℕ) (ns : List ℕ) (a : Nd α), a.shape = pre ++ ns →
    ns.length = xs.length →
    (∀ rs, (xs.zip ns).mapM (fun p => p.1.positions p.2) = .ok rs →
      ∃ b, indexAxes pre.length xs a = .ok b ∧ b.shape = pre ++ rs.map List.length ∧
        ∀ j i, j.length = pre.length → InRange (rs.map List.length) i →
          b.get (j ++ i) = a.get (j ++ List.zipWith (fun r k => r.getD k 0) rs i)) ∧
    (∀ e, (xs.zip ns).mapM (fun p => p.1.positions p.2) = .error e → indexAxes pre.length xs a = .error e) := by
  induction xs with
  | nil =>
    intro pre ns a hs hl
    cases ns with
    | cons n ns => simp at hl
    | nil =>
      constructor
      · intro rs h
        simp [pure, Except.pure] at h
        subst h
        refine ⟨a, rfl, by simpa using hs, ?_⟩
        intro j i _ hi
        cases i with
        | nil => rfl
        | cons k i => cases hi
      · intro e h; simp [pure, Except.pure] at h
  | cons x xs ih =>
    intro pre ns a hs hl
    cases ns with
    | nil => simp at hl
    | cons n ns =>
      have hax : a.indexAxis pre.length x = (x.positions n).map (a.takeAxis pre.length) := by
        unfold indexAxis
        rw [hs]
        simp
      rw [List.zip_cons_cons, List.mapM_cons]
      simp only [indexAxes, hax]
      cases hp : x.positions n with
      | error e =>
        constructor
        · intro rs h; simp [bind, Except.bind] at h
        · intro e' h; simpa [bind, Except.bind, Except.map] using h
      | ok ps =>
        have hsh : (a.takeAxis pre.length ps).shape = (pre ++ [ps.length]) ++ ns := by
          simp only [takeAxis, hs, set_append_length]; simp
        have := ih (pre ++ [ps.length]) ns (a.takeAxis pre.length ps) hsh (by simpa using hl)
        rw [List.length_append] at this
        simp only [List.length_singleton] at this
        obtain ⟨h1, h2⟩ := this
        simp only [bind, Except.bind, Except.map]
        cases hm : (xs.zip ns).mapM (fun p => p.1.positions p.2) with
        | error e =>
          constructor
          · intro rs h; simp at h
          · intro e' h
            simp at h
            subst h
            exact h2 e hm
        | ok rs' =>
          constructor
          · intro rs h
            simp [pure, Except.pure] at h
            subst h
            obtain ⟨b, hb, hbs, hg⟩ := h1 rs' hm
            refine ⟨b, hb, by rw [hbs]; simp, ?_⟩
            intro j i hj hi
            cases i with
            | nil => cases hi
            | cons k i =>
              rw [List.map_cons] at hi
              cases hi with
              | cons hk hi =>
                have := hg (j ++ [k]) i (by simp [hj]) hi
                rw [List.append_assoc, List.singleton_append] at this
                rw [this]
                simp only [takeAxis, List.append_assoc, List.singleton_append, List.zipWith_cons_cons]
                rw [← hj, set_append_length, getD_append_length]
          · intro e h; simp [pure, Except.pure] at h

end Nd

/-- `_apply_union_indexers` indexes every axis independently of the others. -/
theorem applyUnion_spec {α} (xs : List Indexer) (a : Nd α) (hl : a.shape.length = xs.length) :
    (∀ rs, (xs.zip a.shape).mapM (fun p => p.1.positions p.2) = .ok rs →
      ∃ b, applyUnion xs a = .ok b ∧ b.shape = rs.map List.length ∧
        ∀ i, InRange b.shape i → b.get i = a.get (List.zipWith (fun r k => r.getD k 0) rs i)) ∧
    (∀ e, (xs.zip a.shape).mapM (fun p => p.1.positions p.2) = .error e → applyUnion xs a = .error e) := by
  unfold applyUnion
  by_cases h : 1 < (xs.filter Indexer.isArray).length
  · rw [if_pos h]
    obtain ⟨h1, h2⟩ := Nd.indexAxes_spec xs [] a.shape a rfl hl
    refine ⟨?_, h2⟩
    intro rs hrs
    obtain ⟨b, hb, hs, hg⟩ := h1 rs hrs
    refine ⟨b, hb, by simpa using hs, ?_⟩
    intro i hi
    rw [hs] at hi
    exact hg [] i rfl hi
  · rw [if_neg h]
    unfold Nd.indexTuple
    rw [if_neg h]
    constructor
    · intro rs hrs
      rw [hrs]
      exact ⟨a.outer rs, rfl, rfl, fun i _ => rfl⟩
    · intro e he
      rw [he]; rfl

end Verif
