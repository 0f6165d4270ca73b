import Mathlib.Data.List.Nodup
import Mathlib.Data.List.Perm.Basic
import Verif.Spec.Frozen
/-! # Proofs about frozen dictionaries -/
namespace Verif
open Spec
namespace FD
variable {V : Type}

/-- No key twice. -/
def Distinct (d : Items V) : Prop := (d.map Prod.fst).Nodup

theorem get?_cons (p : PyKey × V) (d : Items V) (k : PyKey) : Items.get? (p :: d) k = if p.1 = k then some p.2 else Items.get? d k := by
  unfold Items.get?
  rw [List.find?_cons]
  by_cases h : p.1 = k
  · simp [h]
  · simp [h, beq_eq_false_iff_ne.2 h]

theorem get?_set (d : Items V) (k : PyKey) (v : V) (k' : PyKey) :
    Items.get? (d.set k v) k' = if k = k' then some v else Items.get? d k' := by
  induction d with
  | nil => simp [Items.set, get?_cons]
  | cons p d ih =>
    rw [Items.set]
    split
    · rename_i h
      rw [get?_cons, get?_cons, h]
      by_cases hk : k = k' <;> simp [hk]
    · rename_i h
      rw [get?_cons, get?_cons, ih]
      by_cases hk : k = k'
      · subst hk; simp [h]
      · simp [hk]

theorem keys_set (d : Items V) (k : PyKey) (v : V) :
    (d.set k v).map Prod.fst = if k ∈ d.map Prod.fst then d.map Prod.fst else d.map Prod.fst ++ [k] := by
  induction d with
  | nil => simp [Items.set]
  | cons p d ih =>
    rw [Items.set]
    by_cases h : p.1 = k
    · simp [h]
    · rw [if_neg h, List.map_cons, ih]
      have h' : ¬ k = p.1 := fun e => h e.symm
      by_cases hk : k ∈ d.map Prod.fst
      · rw [if_pos hk, if_pos (by simp only [List.map_cons, List.mem_cons]; exact .inr hk)]; rfl
      · rw [if_neg hk, if_neg (by simp only [List.map_cons, List.mem_cons, not_or]; exact ⟨h', hk⟩)]; rfl

theorem distinct_set {d : Items V} (h : Distinct d) (k : PyKey) (v : V) : Distinct (d.set k v) := by
  unfold Distinct
  rw [keys_set]
  split
  · exact h
  · rename_i hk
    rw [List.nodup_append]
    refine ⟨h, by simp, ?_⟩
    intro a ha b hb hab
    rw [List.mem_singleton] at hb; subst hb; subst hab
    exact hk ha

theorem distinct_update (e : Items V) : ∀ {d : Items V}, Distinct d → Distinct (d.update e) := by
  induction e with
  | nil => exact fun h => h
  | cons p e ih => exact fun h => ih (distinct_set h p.1 p.2)

theorem get?_update (e : Items V) (k : PyKey) : ∀ d : Items V, Items.get? (d.update e) k = (lastValue e k).or (Items.get? d k) := by
  induction e with
  | nil => intro d; rfl
  | cons p e ih =>
    intro d
    show Items.get? (Items.update (d.set p.1 p.2) e) k = _
    rw [ih, get?_set]
    unfold lastValue
    by_cases h : p.1 = k
    · simp only [h, List.filter_cons, decide_true, if_true, List.map_cons, List.getLast?_cons]
      cases h' : ((e.filter fun p => p.1 = k).map Prod.snd).getLast? with
      | none => rfl
      | some v => rfl
    · simp [h]

theorem mem_iff {d : Items V} (h : Distinct d) {k : PyKey} {v : V} : (k, v) ∈ d ↔ Items.get? d k = some v := by
  induction d with
  | nil => simp [Items.get?]
  | cons p d ih =>
    have hd : Distinct d := (List.nodup_cons.1 h).2
    have hp : p.1 ∉ d.map Prod.fst := (List.nodup_cons.1 h).1
    rw [get?_cons, List.mem_cons, ih hd]
    by_cases hk : p.1 = k
    · rw [if_pos hk]
      constructor
      · rintro (e | e)
        · rw [← e]
        · exact absurd (List.mem_map.2 ⟨(k, v), (ih hd).2 e, hk.symm⟩) hp
      · intro e
        left
        rw [← hk, ← Option.some.inj e]
    · rw [if_neg hk]
      constructor
      · rintro (e | e)
        · rw [← e] at hk; exact absurd rfl hk
        · exact e
      · exact .inr

theorem perm_of_same {d e : Items V} (hd : Distinct d) (he : Distinct e) (h : ∀ k, Items.get? d k = Items.get? e k) : d.Perm e := by
  rw [List.perm_ext_iff_of_nodup (List.Nodup.of_map _ hd) (List.Nodup.of_map _ he)]
  rintro ⟨k, v⟩
  rw [mem_iff hd, mem_iff he, h]

theorem hashContents_perm (h : PyKey → V → Option (BitVec 64)) {d e : Items V} (hp : d.Perm e) : hashContents h d = hashContents h e := by
  induction hp with
  | nil => rfl
  | cons p _ ih => rw [hashContents, hashContents, ih]
  | swap p q l =>
    simp only [hashContents]
    cases h p.1 p.2 <;> cases h q.1 q.2 <;> cases hashContents h l <;> simp
    rename_i a b c
    rw [← BitVec.xor_assoc, ← BitVec.xor_assoc, BitVec.xor_comm a b]
  | trans _ _ ih1 ih2 => rw [ih1, ih2]

/-- What holds of frozen dictionaries. -/
structure Ok (h : PyKey → V → Option (BitVec 64)) (f : Frozen V) : Prop where
  distinct : Distinct f.dict
  hash : ∀ x, f.hash = some x → hashContents h f.dict = some x

theorem ok_make (h : PyKey → V → Option (BitVec 64)) (items : Items V) : Ok h (Frozen.make items) :=
  ⟨distinct_update items (by simp [Distinct]), by intro x hx; cases hx⟩

theorem new_ok {f g : Frozen V} {kwargs : List (String × V)} (hg : f.new kwargs = .ok g) :
    g = .make (f.dict.update (kwargs.map fun p => (.str p.1, p.2))) := by
  unfold Frozen.new at hg
  simp only at hg
  split at hg
  · injection hg with hg; exact hg.symm
  · cases hg

theorem hashed_dict (h : PyKey → V → Option (BitVec 64)) (f : Frozen V) : (f.hashed h).2.dict = f.dict := by
  unfold Frozen.hashed
  split
  · rfl
  · split <;> rfl

theorem ok_made {h : PyKey → V → Option (BitVec 64)} {f : Frozen V} (hf : Made h f) : Ok h f := by
  induction hf with
  | make items => exact ok_make h items
  | new kwargs _ hg _ => rw [new_ok hg]; exact ok_make h _
  | @hashed f _ ih =>
    refine ⟨by rw [hashed_dict]; exact ih.distinct, ?_⟩
    intro x hx
    unfold Frozen.hashed at hx ⊢
    cases hh : f.hash with
    | some y =>
      rw [hh] at hx
      simp only at hx ⊢
      exact ih.hash x hx
    | none =>
      rw [hh] at hx
      simp only at hx ⊢
      cases hc : hashContents h f.dict with
      | none => rw [hc] at hx; simp only at hx; rw [hh] at hx; cases hx
      | some y => rw [hc] at hx; simp only at hx ⊢; rw [hc]; exact hx

/-- The hash is that of the contents. -/
theorem hashed_eq {h : PyKey → V → Option (BitVec 64)} {f : Frozen V} (hf : Ok h f) :
    (f.hashed h).1 = match hashContents h f.dict with | some x => .ok x | none => .error .typeError := by
  unfold Frozen.hashed
  cases hh : f.hash with
  | some y => rw [hf.hash y hh]
  | none => cases hashContents h f.dict <;> rfl

theorem get?_make (items : Items V) (k : PyKey) : Items.get? (Frozen.make items).dict k = lastValue items k := by
  show Items.get? (Items.update [] items) k = _
  rw [get?_update]
  cases lastValue items k <;> rfl

variable [DecidableEq V]

theorem eq_iff {f g : Frozen V} (hf : Distinct f.dict) (hg : Distinct g.dict) : f.eq g = true ↔ SameContents f g := by
  unfold Frozen.eq SameContents
  rw [Bool.and_eq_true, decide_eq_true_eq, List.all_eq_true]
  constructor
  · rintro ⟨hl, ha⟩ k
    have hsub : f.dict ⊆ g.dict := by
      rintro ⟨k, v⟩ hk
      have := ha (k, v) hk
      rw [decide_eq_true_eq] at this
      exact (mem_iff hg).2 this
    have hp : f.dict.Perm g.dict :=
      (List.subperm_of_subset (List.Nodup.of_map _ hf) hsub).perm_of_length_le (by omega)
    cases hv : Items.get? f.dict k with
    | some v => exact ((mem_iff hg).1 (hp.mem_iff.1 ((mem_iff hf).2 hv))).symm
    | none =>
      cases hw : Items.get? g.dict k with
      | none => rfl
      | some v =>
        have := (mem_iff hf).1 (hp.mem_iff.2 ((mem_iff hg).2 hw))
        rw [hv] at this; cases this
  · intro h
    refine ⟨(perm_of_same hf hg h).length_eq, ?_⟩
    rintro ⟨k, v⟩ hk
    rw [decide_eq_true_eq, ← h]
    exact (mem_iff hf).1 hk

end FD
end Verif
