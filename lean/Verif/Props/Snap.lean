import Verif.Proof.Snap
import Verif.Props.PatchShape
/-!
# Property theorems: snapping the coordinates of a patch (C98)

`Spec.askedCoords` says which coordinates are asked for, `Spec.Evened` what snapping makes of labels, `Spec.Relabelled` that nothing else changes. What sorting does to a
patch is the matter of `C17_sort_partial`.
-/
namespace Verif
open Spec
variable {α : Type}

/-- The parts of a call that succeeds. -/
theorem snapCoords_parts {argsort : List ℚ → List ℕ} {p q : PatchM α} {names : List String} {reverse : Bool} (h : p.snapCoords argsort names reverse = .ok q) :
    ∃ r, p.cm.sort argsort p.data (askedCoords p.cm names) reverse = .ok r ∧ p.cm.snapNamed r.1 (askedCoords p.cm names) = .ok q.cm ∧ q.data = r.2 ∧ q.cm.shape = q.data.shape := by
  unfold PatchM.snapCoords CM.snapAll at h
  simp only [bind, Except.bind, pure, Except.pure, List.isEmpty_iff] at h
  unfold askedCoords
  split at h
  · cases h
  rename_i s hs
  split at hs
  · cases hs
  rename_i r hr
  split at hs
  · cases hs
  rename_i cm hcm
  cases hs
  obtain ⟨rfl, hsh⟩ := new_ok h
  exact ⟨r, hr, hcm, rfl, hsh⟩

/-- **C98 (partial).** `snap_coords` gives the patch `sort_coords` gives, with other labels for the coordinates asked for and nothing else changed: as many labels as before,
evenly spaced and in the order asked for, from the first label to the last (for times up to half a nanosecond per step). Missing: with `reverse`, labels that occur twice are
put in the wrong order (`C98_reverse_violated`). -/
theorem C98_snap_partial (argsort : List ℚ → List ℕ) (ha : IsArgsort argsort) (p q : PatchM α) (hm : Regular p.cm) (hd : p.cm.dims ≠ []) (names : List String)
    (hn : names.Nodup) (reverse : Bool) (h : p.snapCoords argsort names reverse = .ok q) :
    ∃ s, p.sortCoords argsort (askedCoords p.cm names) reverse = .ok s ∧ Relabelled s q (askedCoords p.cm names) ∧
      ∀ n ∈ askedCoords p.cm names, ∃ ds k c c', s.cm.ents.get? n = some (ds, .one k c) ∧ q.cm.ents.get? n = some (ds, .one k c') ∧
        (reverse = false ∨ c.vals.Nodup → Evened k reverse c.vals c'.vals) := by
  obtain ⟨r, hr, hcm, hdata, hsh⟩ := snapCoords_parts h
  have hne : askedCoords p.cm names ≠ [] := by
    unfold askedCoords; split_ifs with h0
    · exact hd
    · exact h0
  have hnd : (askedCoords p.cm names).Nodup := by
    unfold askedCoords; split_ifs
    · exact hm.distinct
    · exact hn
  obtain ⟨hw, hdims, hnamed⟩ := sort_named ha hm hne hnd hr
  obtain ⟨h1, h2, h3⟩ := snapNamed_spec hnd (fun n hnn => by obtain ⟨ds, k, c, hc, _⟩ := hnamed n hnn; exact ⟨_, hc⟩) hcm
  have labels : ∀ n ∈ askedCoords p.cm names, ∃ ds k c c', r.1.ents.get? n = some (ds, .one k c) ∧ q.cm.ents.get? n = some (ds, .one k c') ∧ (MCoord.one k c').len = (MCoord.one k c).len ∧
      (reverse = false ∨ c.vals.Nodup → Evened k reverse c.vals c'.vals) := by
    intro n hnn
    obtain ⟨ds, k, c, hc, hdir⟩ := hnamed n hnn
    obtain ⟨ds', c0, x, g1, g2, g3⟩ := h3 n hnn
    rw [hc] at g1; cases g1
    have hlen : x.len = (MCoord.one k c).len ∧ ∃ c', x = .one k c' := by
      cases c with
      | part n => cases g2; exact ⟨rfl, _, rfl⟩
      | range r => cases g2; exact ⟨rfl, _, rfl⟩
      | mono vs =>
        obtain ⟨c', e1, rfl⟩ := except_map_ok g2
        obtain ⟨st, _, _, rfl⟩ := snap_parts hdir.2.1 e1
        refine ⟨?_, _, rfl⟩
        unfold MCoord.len
        rw [one_shape, one_shape]
        split_ifs <;> rfl
      | arr vs =>
        obtain ⟨c', e1, rfl⟩ := except_map_ok g2
        obtain ⟨st, _, _, rfl⟩ := snap_parts hdir.2.1 e1
        refine ⟨?_, _, rfl⟩
        unfold MCoord.len
        rw [one_shape, one_shape]
        split_ifs <;> rfl
    obtain ⟨e1, c', rfl⟩ := hlen
    refine ⟨ds, k, c, c', hc, g3, e1, fun hdup => ?_⟩
    obtain ⟨c2, e2, e3⟩ := snap_evened hdir hdup g2
    cases e2
    exact e3
  have hshape : q.cm.shape = r.1.shape := by
    unfold CM.shape
    rw [h1]
    congr 1
    apply List.map_congr_left
    intro d hd'
    unfold Ents.lenOf
    by_cases hda : d ∈ askedCoords p.cm names
    · obtain ⟨ds, k, c, c', g1, g2, g3, _⟩ := labels d hda
      rw [g1, g2]; exact g3
    · rw [h2 d hda]
  have hs : p.sortCoords argsort (askedCoords p.cm names) reverse = .ok ⟨r.1, r.2⟩ := by
    unfold PatchM.sortCoords
    rw [hr]
    simp only [bind, Except.bind]
    unfold PatchM.new
    rw [if_pos]
    rw [← hshape, hsh, hdata]
  refine ⟨⟨r.1, r.2⟩, hs, ⟨hdata, h1, h2, hsh⟩, fun n hnn => ?_⟩
  obtain ⟨ds, k, c, c', g1, g2, _, g4⟩ := labels n hnn
  exact ⟨ds, k, c, c', g1, g2, g4⟩

/-- Labels in disorder: sorted they are 1, 2, 9, and snapped 1, 5, 9; the samples go with the sorted labels. -/
def exScattered : PatchM ℕ := ⟨⟨["x"], [("x", ["x"], .one .int (.arr [9, 1, 2])), ("y", ["x"], .one .int (.arr [90, 10, 20]))]⟩, [3], fun i => i.getD 0 0⟩

example : ((exScattered.snapCoords stableArgsort [] false).map fun q => (List.range 3).map fun i => (q.data.get [i], label q "x" [i], label q "y" [i])) =
    .ok [(1, some (some 1), some (some 10)), (2, some (some 5), some (some 20)), (0, some (some 9), some (some 90))] := by decide +kernel
example : ((exScattered.snapCoords stableArgsort ["x"] true).map fun q => (List.range 3).map fun i => (q.data.get [i], label q "x" [i], label q "y" [i])) =
    .ok [(0, some (some 9), some (some 90)), (2, some (some 5), some (some 20)), (1, some (some 1), some (some 10))] := by decide +kernel

/-- **C98.** A patch whose coordinates are evenly sampled and in the order asked for is returned as it is; so snapping twice is snapping once. -/
theorem C98_even (argsort : List ℚ → List ℕ) (p : PatchM α) (hd : p.cm.dims ≠ []) (hsh : p.cm.shape = p.data.shape) (names : List String) (reverse : Bool)
    (hone : (askedCoords p.cm names).Pairwise fun a b => (p.cm.ents.get? a).map Prod.fst ≠ (p.cm.ents.get? b).map Prod.fst)
    (h : EvenAlready p.cm (askedCoords p.cm names) reverse) : p.snapCoords argsort names reverse = .ok p := by
  have hne : askedCoords p.cm names ≠ [] := by
    unfold askedCoords; split_ifs with h0
    · exact hd
    · exact h0
  have hasked : (if names.isEmpty then p.cm.dims else names) = askedCoords p.cm names := by
    unfold askedCoords; simp only [List.isEmpty_iff]
  generalize hA : askedCoords p.cm names = A at *
  have hv : p.cm.sortValid A = .ok () := by
    unfold CM.sortValid
    have hdims : (A.map fun n => ((p.cm.ents.get? n).map Prod.fst).getD []) = A.map fun n => [((p.cm.ents.get? n).map Prod.fst).getD [] |>.headD ""] := by
      apply List.map_congr_left
      intro n hn
      obtain ⟨d, k, r, hc, _⟩ := h n hn
      rw [hc]; rfl
    simp only
    rw [if_neg, if_neg, if_neg]
    · rw [not_and, not_not]
      intro _
      rw [hdims, ← List.flatMap_def, ← List.map_eq_flatMap, List.nodup_iff_pairwise_ne, List.pairwise_map]
      refine List.Pairwise.imp_of_mem ?_ hone
      intro a b ha hb hab heq
      obtain ⟨d, k, r, hc, _⟩ := h a ha
      obtain ⟨d', k', r', hc', _⟩ := h b hb
      apply hab
      rw [hc, hc'] at heq ⊢
      simp at heq
      simp [heq]
    · rw [List.any_eq_true]
      rintro ⟨ds, hds, hlt⟩
      rw [hdims] at hds
      obtain ⟨n, _, rfl⟩ := List.mem_map.1 hds
      simp at hlt
    · rw [List.any_eq_true]
      rintro ⟨n, hn, hlt⟩
      obtain ⟨d, k, r, hc, _⟩ := h n hn
      have : n ∈ p.cm.ents.keys := Dict.mem_keys.2 ⟨_, hc⟩
      simp [this] at hlt
  have hs : p.cm.sort argsort p.data A reverse = .ok (p.cm, p.data) := by
    unfold CM.sort CM.sortCM
    have he : A.isEmpty = false := by cases A with | nil => exact absurd rfl hne | cons _ _ => rfl
    have hf : (A.filter (p.cm.needsSort reverse)).isEmpty = true := by
      rw [List.isEmpty_iff, List.filter_eq_nil_iff]
      intro n hn
      obtain ⟨d, k, r, hc, hst⟩ := h n hn
      unfold CM.needsSort
      rw [hc]
      cases reverse with
      | true => simp at hst; simp [CM.isSortedAs, Coord.isReverse, RangeCoord.reverseSorted, hst]
      | false => simp at hst; simp [CM.isSortedAs, Coord.isSorted, RangeCoord.sorted, hst.le]
    simp only [he, Bool.false_eq_true, if_false, hv, bind, Except.bind, hf, if_true, pure, Except.pure, List.foldlM_nil]
  have hk : A.all (CM.snapKept p.cm.ents) = true := by
    rw [List.all_eq_true]
    intro n hn
    obtain ⟨d, k, r, hc, _⟩ := h n hn
    unfold CM.snapKept; rw [hc]; rfl
  unfold PatchM.snapCoords CM.snapAll CM.snapNamed
  simp only [hasked, hs, hk, if_true, bind, Except.bind, pure, Except.pure]
  unfold PatchM.new
  rw [if_pos hsh]

/-- The distance of the example patch is even and ascending. -/
example : EvenAlready exPatch.cm ["distance"] false ∧ exPatch.cm.shape = exPatch.data.shape := by
  constructor
  · intro n hn
    rw [List.mem_singleton] at hn; subst hn
    exact ⟨"distance", _, _, rfl, by decide +kernel⟩
  · decide +kernel

/-- **C98.** What is refused: names that are no coordinates, coordinates along two dimensions, and two coordinates of one dimension. -/
theorem C98_refused (argsort : List ℚ → List ℕ) (p : PatchM α) (names : List String) (hne : names ≠ []) (reverse : Bool)
    (h : (∃ n ∈ names, n ∉ p.cm.ents.keys) ∨ (∃ n ∈ names, ∃ d e ds c, p.cm.ents.get? n = some (d :: e :: ds, c)) ∨
      ∃ a b d c c' pre mid post, names = pre ++ a :: mid ++ b :: post ∧ p.cm.ents.get? a = some ([d], c) ∧ p.cm.ents.get? b = some ([d], c')) :
    ∃ e, p.snapCoords argsort names reverse = .error e ∧ (e = .keyError ∨ e = .coordSortError) := by
  have hv : ∃ e, p.cm.sortValid names = .error e ∧ (e = .keyError ∨ e = .coordSortError) := by
    unfold CM.sortValid
    simp only
    split_ifs with h1 h2 h3
    · exact ⟨_, rfl, Or.inl rfl⟩
    · exact ⟨_, rfl, Or.inr rfl⟩
    · exact ⟨_, rfl, Or.inr rfl⟩
    · exfalso
      rcases h with ⟨n, hn, hk⟩ | ⟨n, hn, d, e, ds, c, hc⟩ | ⟨a, b, d, c, c', pre, mid, post, rfl, ha, hb⟩
      · apply h1
        rw [List.any_eq_true]
        exact ⟨n, hn, by simpa using hk⟩
      · apply h2
        rw [List.any_eq_true]
        refine ⟨_, List.mem_map_of_mem hn, ?_⟩
        rw [hc]; simp
      · apply h3
        refine ⟨by simp; omega, ?_⟩
        intro hnd
        simp only [List.map_append, List.map_cons, List.flatten_append, List.flatten_cons, ha, hb, Option.map_some, Option.getD_some] at hnd
        rw [List.nodup_append] at hnd
        exact hnd.2.2 d (by simp) d (by simp) rfl
  obtain ⟨e, he, hor⟩ := hv
  refine ⟨e, ?_, hor⟩
  have he' : names.isEmpty = false := by cases names with | nil => exact absurd rfl hne | cons _ _ => rfl
  unfold PatchM.snapCoords CM.snapAll CM.sort CM.sortCM
  simp only [he', Bool.false_eq_true, if_false, he, bind, Except.bind]

example : exPatch.snapCoords stableArgsort ["nowhere"] false = .error .keyError := rfl

/-- Two samples with the same label. -/
def exRepeated : PatchM ℕ := ⟨⟨["x"], [("x", ["x"], .one .int (.arr [1, 4, 1]))]⟩, [3], fun i => i.getD 0 0⟩

/-- **C98 violated** (`reverse`, a label that occurs twice): the samples are put in descending order of their labels, the new labels in ascending order. The sample that was
labelled 4 is labelled 1 afterwards. -/
theorem C98_reverse_violated : Regular exRepeated.cm ∧ label exRepeated "x" [1] = some (some 4) ∧ exRepeated.data.get [1] = 1 ∧
    ((exRepeated.snapCoords stableArgsort ["x"] true).map fun q => (q.data.get [0], (List.range 3).map fun i => label q "x" [i])) =
      .ok (1, [some (some 1), some (some (5 / 2)), some (some 4)]) := by
  refine ⟨⟨CM.mk?_wf (m := exRepeated.cm) (if_pos (by decide +kernel)) (by decide +kernel), by unfold DistinctDims; decide, ?_, ?_, ?_⟩, by decide +kernel, rfl, by decide +kernel⟩
  · intro name ds c h
    simp only [exRepeated, List.mem_cons, Prod.mk.injEq, List.not_mem_nil, or_false] at h
    obtain ⟨_, rfl, _⟩ := h; decide
  · intro name ds k c h
    simp only [exRepeated, List.mem_cons, Prod.mk.injEq, List.not_mem_nil, or_false] at h
    obtain ⟨_, _, h⟩ := h; cases h
    simp [Coord.Wf]
  · have : exRepeated.cm.ents.keys.all (fun n => matchesPrefixSuffix exRepeated.cm.dims n == false) = true := by decide +kernel
    rw [List.all_eq_true] at this
    intro n hn
    simpa using this n hn

/-- **C98.** Labels that are all the same are refused, with an AssertionError. -/
theorem C98_constant_refused : (PatchM.snapCoords stableArgsort (⟨⟨["x"], [("x", ["x"], .one .int (.arr [3, 3]))]⟩, [2], fun i => i.getD 0 0⟩ : PatchM ℕ) ["x"] false).map
    (fun q => q.data.shape) = .error .assertionError := by decide +kernel

end Verif
