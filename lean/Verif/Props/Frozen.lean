import Verif.Proof.Frozen
/-! # Frozen dictionaries (C50) -/
namespace Verif
open Spec FD

variable {V : Type}

/-- C50. The contents are those given, the last value of each key. -/
theorem C50_contents (items : List (PyKey × V)) (k : PyKey) : Items.get? (Frozen.make items).dict k = lastValue items k := get?_make items k

/-- C50. Equality compares the contents. -/
theorem C50_eq [DecidableEq V] {h : PyKey → V → Option (BitVec 64)} {f g : Frozen V} (hf : Made h f) (hg : Made h g) :
    f.eq g = true ↔ SameContents f g := eq_iff (ok_made hf).distinct (ok_made hg).distinct

/-- C50. Equal frozen dictionaries have equal hashes, or neither has one, irrespective of how they were made, the order of the items and
which hashes were taken before. -/
theorem C50_hash [DecidableEq V] {h : PyKey → V → Option (BitVec 64)} {f g : Frozen V} (hf : Made h f) (hg : Made h g)
    (he : f.eq g = true) : (f.hashed h).1 = (g.hashed h).1 := by
  rw [hashed_eq (ok_made hf), hashed_eq (ok_made hg),
    hashContents_perm h (perm_of_same (ok_made hf).distinct (ok_made hg).distinct ((C50_eq hf hg).1 he))]

/-- C50. There is a hash exactly if every item has one. -/
theorem C50_hash_iff {h : PyKey → V → Option (BitVec 64)} {f : Frozen V} (hf : Made h f) :
    (∃ x, (f.hashed h).1 = .ok x) ↔ ∀ k v, Items.get? f.dict k = some v → (h k v).isSome := by
  rw [hashed_eq (ok_made hf)]
  have key : ∀ d : Items V, (∃ x, hashContents h d = some x) ↔ ∀ p ∈ d, (h p.1 p.2).isSome := by
    intro d
    induction d with
    | nil => simp [hashContents]
    | cons p d ih =>
      rw [List.forall_mem_cons, ← ih, hashContents]
      cases h p.1 p.2 <;> cases hashContents h d <;> simp
  have : (∀ k v, Items.get? f.dict k = some v → (h k v).isSome) ↔ ∀ p ∈ f.dict, (h p.1 p.2).isSome := by
    constructor
    · rintro hh ⟨k, v⟩ hp; exact hh k v ((mem_iff (ok_made hf).distinct).1 hp)
    · intro hh k v hk; exact hh (k, v) ((mem_iff (ok_made hf).distinct).2 hk)
  rw [this, ← key]
  cases hashContents h f.dict <;> simp

theorem lastValue_of_distinct {d : Items V} (h : Distinct d) (k : PyKey) : lastValue d k = Items.get? d k := by
  induction d with
  | nil => rfl
  | cons p d ih =>
    have hd : Distinct d := (List.nodup_cons.1 h).2
    have hp : p.1 ∉ d.map Prod.fst := (List.nodup_cons.1 h).1
    rw [get?_cons, ← ih hd]
    unfold lastValue
    by_cases hk : p.1 = k
    · have : (d.filter fun q => q.1 = k) = [] := by
        rw [List.filter_eq_nil_iff]
        intro q hq
        simp only [decide_eq_true_eq]
        intro e
        exact hp (List.mem_map.2 ⟨q, hq, e.trans hk.symm⟩)
      simp [hk, this]
    · simp [hk]

/-- C50. `new` gives an updated copy, if all keys are strings. Missing: other keys (`C50_new_violated`). -/
theorem C50_new_partial {h : PyKey → V → Option (BitVec 64)} {f : Frozen V} (hf : Made h f) (kwargs : List (String × V))
    (hs : ∀ k v, Items.get? f.dict k = some v → ∃ s, k = .str s) :
    ∃ g, f.new kwargs = .ok g ∧ ∀ k, Items.get? g.dict k = (lastValue (kwargs.map fun p => (.str p.1, p.2)) k).or (Items.get? f.dict k) := by
  have hs' : ∀ p ∈ f.dict, p.1.isStr = true := by
    rintro ⟨k, v⟩ hp
    obtain ⟨s, rfl⟩ := hs k v ((mem_iff (ok_made hf).distinct).1 hp)
    rfl
  have hall : ∀ (e : List (String × V)) (d : Items V), (∀ p ∈ d, p.1.isStr = true) →
      ∀ p ∈ d.update (e.map fun p => (.str p.1, p.2)), p.1.isStr = true := by
    intro e
    induction e with
    | nil => intro d h; exact h
    | cons q e ih =>
      intro d h
      refine ih _ ?_
      intro p hp
      have : p.1 ∈ (d.set (.str q.1) q.2).map Prod.fst := List.mem_map.2 ⟨p, hp, rfl⟩
      rw [keys_set] at this
      split at this
      · obtain ⟨r, hr, e⟩ := List.mem_map.1 this
        rw [← e]; exact h r hr
      · rcases List.mem_append.1 this with this | this
        · obtain ⟨r, hr, e⟩ := List.mem_map.1 this
          rw [← e]; exact h r hr
        · rw [List.mem_singleton] at this; rw [this]; rfl
  refine ⟨_, by unfold Frozen.new; simp only; rw [if_pos (List.all_eq_true.2 (hall kwargs f.dict hs'))], ?_⟩
  intro k
  rw [get?_make, lastValue_of_distinct (distinct_update _ (ok_made hf).distinct), get?_update]

/-- C50. Whatever is done afterwards (changing the dictionaries frozen ones were made from, taking hashes, making new ones), the contents
of a frozen dictionary stay the same. -/
theorem C50_frozen (h : PyKey → V → Option (BitVec 64)) (ops : List (FOp V)) (w : FWorld V) {j : ℕ} {f : Frozen V}
    (hf : w.frozen[j]? = some f) : ∃ g, (ops.foldl (FWorld.step h) w).frozen[j]? = some g ∧ g.dict = f.dict := by
  have hstep : ∀ (w : FWorld V) (op : FOp V) (f : Frozen V), w.frozen[j]? = some f →
      ∃ g, (w.step h op).frozen[j]? = some g ∧ g.dict = f.dict := by
    intro w op f hf
    have hlen := (List.getElem?_eq_some_iff.1 hf).1
    cases op with
    | dict items => exact ⟨f, hf, rfl⟩
    | setItem i k v => exact ⟨f, hf, rfl⟩
    | delItem i k => exact ⟨f, hf, rfl⟩
    | freeze i =>
      unfold FWorld.step
      simp only
      split
      · exact ⟨f, by simp only; rw [List.getElem?_append_left hlen]; exact hf, rfl⟩
      · exact ⟨f, hf, rfl⟩
    | hash i =>
      unfold FWorld.step
      simp only
      rw [List.getElem?_modify, hf]
      simp only [Option.map_eq_map, Option.map_some]
      refine ⟨_, rfl, ?_⟩
      split
      · exact hashed_dict h f
      · rfl
    | new i kwargs =>
      unfold FWorld.step
      simp only
      split
      · split
        · exact ⟨f, by simp only; rw [List.getElem?_append_left hlen]; exact hf, rfl⟩
        · exact ⟨f, hf, rfl⟩
      · exact ⟨f, hf, rfl⟩
  induction ops generalizing w f with
  | nil => exact ⟨f, hf, rfl⟩
  | cons op ops ih =>
    obtain ⟨g, hg, hd⟩ := hstep w op f hf
    obtain ⟨g', hg', hd'⟩ := ih (w.step h op) hg
    exact ⟨g', hg', hd'.trans hd⟩

/-- Example: the same items in another order, one given twice, and one with its hash already taken. -/
example : let h : PyKey → ℕ → Option (BitVec 64) := fun k v => some (match k with | .str s => s.length * 7 + v | .other n => n * 11 + v)
    let f : Frozen ℕ := .make [(.str "a", 1), (.other 2, 5), (.str "bc", 3)]
    let g : Frozen ℕ := .make [(.str "bc", 9), (.str "a", 1), (.str "bc", 3), (.other 2, 5)]
    f.eq g = true ∧ f.dict ≠ g.dict ∧ ((f.hashed h).2.hashed h).1 = (g.hashed h).1 := by decide +kernel

/-- Example: changing the original. -/
example : let w : FWorld ℕ := [FOp.dict [(.str "a", 1)], .freeze 0, .setItem 0 (.str "a") 2, .new 0 [("b", 3)]].foldl (FWorld.step fun _ _ => none) {}
    w.dicts = [[(.str "a", 2)]] ∧ w.frozen.map Frozen.dict = [[(.str "a", 1)], [(.str "a", 1), (.str "b", 3)]] := by decide +kernel

/-- C50 is violated: `new` fails if a key is not a string. -/
theorem C50_new_violated : (Frozen.make [(PyKey.other 1, 2)]).new [("a", 3)] = .error .typeError := by decide +kernel

end Verif
