import Verif.Proof.Moving
import Verif.Props.Window
/-! # Despiking -/
namespace Verif
open Spec

/-! ### One dimension -/

/-- Only samples that are read matter. -/
theorem sep_ones (installed : Bool) (a : Nd ℚ) : ∀ (n k : ℕ), ((List.replicate n 1).zipIdx k).foldlM
    (fun a (s : ℕ × ℕ) => if 1 < s.1 then movingWindow (fun _ => 0) installed .auto a s.1 .median s.2 else .ok a) a = .ok a
  | 0, _ => rfl
  | n + 1, k => by
    simp only [List.replicate_succ, List.zipIdx_cons, List.foldlM_cons, lt_self_iff_false, if_false, bind, Except.bind]
    exact sep_ones installed a n (k + 1)

theorem sep_one (installed : Bool) (a : Nd ℚ) {w : ℕ} (hw : 1 < w) : ∀ (n axis k : ℕ), axis < n → (((List.replicate n 1).set axis w).zipIdx k).foldlM
    (fun a (s : ℕ × ℕ) => if 1 < s.1 then movingWindow (fun _ => 0) installed .auto a s.1 .median s.2 else .ok a) a =
      movingWindow (fun _ => 0) installed .auto a w .median (k + axis)
  | 0, _, _, h => absurd h (by omega)
  | n + 1, 0, k, _ => by
    simp only [List.replicate_succ, List.set_cons_zero, List.zipIdx_cons, List.foldlM_cons, if_pos hw, Nat.add_zero]
    cases h : movingWindow (fun _ => 0) installed .auto a w .median k with
    | error e => rfl
    | ok b => exact sep_ones installed b n (k + 1)
  | n + 1, axis + 1, k, h => by
    simp only [List.replicate_succ, List.set_cons_succ, List.zipIdx_cons, List.foldlM_cons, lt_self_iff_false, if_false, bind, Except.bind]
    rw [sep_one installed a hw n axis (k + 1) (by omega)]
    congr 1
    omega

theorem choices_singles {α : Type} : ∀ i : List α, choices (i.map fun x => [x]) = [i]
  | [] => rfl
  | x :: i => by simp [choices, choices_singles i]

theorem choices_one {α : Type} (W : List α) : ∀ (i : List α) (axis : ℕ), axis < i.length → choices ((i.map fun x => [x]).set axis W) = W.map fun x => i.set axis x
  | [], _, h => absurd h (by simp)
  | x :: i, 0, _ => by
    simp only [List.map_cons, List.set_cons_zero, choices, choices_singles, List.map_nil]
    induction W with
    | nil => rfl
    | cons y W ih => simp [List.flatMap_cons, ih]
  | x :: i, axis + 1, h => by
    simp only [List.map_cons, List.set_cons_succ, choices, List.flatMap_cons, List.flatMap_nil, List.append_nil]
    rw [choices_one W i axis (by simpa using h), List.map_map]
    rfl

theorem reflectPos_inside {n : ℕ} {j : ℤ} (h0 : 0 ≤ j) (h1 : j < n) : reflectPos n j = j.toNat := by
  unfold reflectPos
  rw [Int.emod_eq_of_lt h0 (by omega), if_pos h1]

theorem reflectPos_lt {n : ℕ} (hn : 0 < n) (j : ℤ) : reflectPos n j < n := reflect_lt hn j

theorem blockAround_one {a : Nd ℚ} {axis w : ℕ} (ha : axis < a.shape.length) {i : List ℕ} (hi : InRange a.shape i) :
    blockAround a ((List.replicate a.shape.length 1).set axis w) i = scipyWindow .reflect 0 w (lineAt a axis i) (i.getD axis 0) := by
  have hlen : i.length = a.shape.length := (inRange_iff.1 hi).1
  unfold blockAround
  have e : ((List.range a.shape.length).map fun k : ℕ => (List.range (((List.replicate a.shape.length 1).set axis w).getD k 1)).map fun t : ℕ =>
        reflectPos (a.shape.getD k 0) ((i.getD k 0 : ℤ) - (((List.replicate a.shape.length 1).set axis w).getD k 1 / 2 : ℕ) + t)) =
      (i.map fun x => [x]).set axis ((List.range w).map fun t : ℕ => reflectPos (a.shape.getD axis 0) ((i.getD axis 0 : ℤ) - (w / 2 : ℕ) + t)) := by
    apply List.ext_getElem?
    intro k
    by_cases hk : k < a.shape.length
    · rw [List.getElem?_map, List.getElem?_range hk, Option.map_some, List.getElem?_set]
      by_cases hka : axis = k
      · subst hka
        rw [if_pos rfl, if_pos (by simpa [hlen] using hk)]
        have : ((List.replicate a.shape.length 1).set axis w).getD axis 1 = w := by
          rw [List.getD_eq_getElem?_getD, List.getElem?_set, if_pos rfl, if_pos (by simpa using hk)]
          rfl
        rw [this]
      · have : ((List.replicate a.shape.length 1).set axis w).getD k 1 = 1 := by
          rw [List.getD_eq_getElem?_getD, List.getElem?_set, if_neg hka, List.getElem?_replicate, if_pos hk]
          rfl
        rw [if_neg hka, this, List.getElem?_map, List.getElem?_eq_getElem (hlen ▸ hk)]
        have h1 := inRange_axis hi hk
        have h2 : i.getD k 0 = i[k]'(hlen ▸ hk) := by
          rw [List.getD_eq_getElem?_getD, List.getElem?_eq_getElem (hlen ▸ hk)]
          rfl
        simp only [List.range_one, List.map_cons, List.map_nil, Option.map_some]
        rw [reflectPos_inside (by omega) (by omega)]
        congr 2
    · rw [List.getElem?_eq_none (by simpa using hk), List.getElem?_eq_none (by simp [hlen]; omega)]
  rw [e, choices_one _ _ _ (hlen ▸ ha), List.map_map, List.map_map]
  unfold scipyWindow
  apply List.map_congr_left
  intro t ht
  have hpos : 0 < a.shape.getD axis 0 := lt_of_le_of_lt (Nat.zero_le _) (inRange_axis hi ha)
  simp only [Function.comp, extendAt, lineAt_length, sub_zero]
  exact (lineAt_getD a axis i (reflectPos_lt hpos _)).symm

/-- The median filter with a window along one axis, either way. -/
theorem neighbourMedian_one (installed approximate : Bool) {a : Nd ℚ} {axis h : ℕ} (h1 : 0 < h) (hw : 2 * h + 1 ≤ a.shape.getD axis 0) :
    ∃ m bn, neighbourMedian installed approximate ((List.replicate a.shape.length 1).set axis (2 * h + 1)) a = .ok m ∧ m.shape = a.shape ∧
      ∀ i, InRange a.shape i → ∃ l, engineLine (fun _ => 0) bn .median .reflect 0 (2 * h + 1) (lineAt a axis i) = .ok l ∧
        m.get i = l.getD (i.getD axis 0) 0 := by
  have ha : axis < a.shape.length := axis_of_pos (by omega)
  cases approximate with
  | true =>
    obtain ⟨m, hm⟩ := movingWindow_total (sd := fun _ => 0) (installed := installed) (engine := .auto) (a := a) (w := 2 * h + 1) (op := .median)
      (axis := axis) (mode := .reflect) (o := 0) (by omega) hw (fun e => by cases e) (by omega)
    refine ⟨m, _, ?_, (movingWindow_ok hm).2.2.1, fun i _ => (movingWindow_ok hm).2.2.2.2 i⟩
    unfold neighbourMedian separableMedian
    rw [if_pos rfl, sep_one installed a (by omega) _ _ 0 ha, Nat.zero_add]
    exact hm
  | false =>
    refine ⟨blockMedian a ((List.replicate a.shape.length 1).set axis (2 * h + 1)), false, rfl, rfl, fun i hi => ?_⟩
    obtain ⟨l, hl⟩ := scipyLine_total .median .reflect (o := 0) (w := 2 * h + 1) (by omega) (lineAt a axis i)
    refine ⟨l, hl, ?_⟩
    rw [(scipyLine_ok hl).2 _ (by rw [lineAt_length]; exact inRange_axis hi ha)]
    show MoveOp.ofScipy .median _ = _
    rw [blockAround_one ha hi]

/-! ### Bounds -/

theorem separable_bounds {installed : Bool} {lo hi : ℚ} : ∀ {size : List ℕ} {k : ℕ} {a r : Nd ℚ}, (size.zipIdx k).foldlM
    (fun a (s : ℕ × ℕ) => if 1 < s.1 then movingWindow (fun _ => 0) installed .auto a s.1 .median s.2 else .ok a) a = .ok r →
    (∀ i, InRange a.shape i → lo ≤ a.get i ∧ a.get i ≤ hi) → r.shape = a.shape ∧ ∀ i, InRange a.shape i → lo ≤ r.get i ∧ r.get i ≤ hi
  | [], k, a, r, h, hb => by
    cases h
    exact ⟨rfl, hb⟩
  | s :: size, k, a, r, h, hb => by
    rw [List.zipIdx_cons, List.foldlM_cons] at h
    obtain ⟨b, h1, h2⟩ := bind_split h
    have key : b.shape = a.shape ∧ ∀ i, InRange a.shape i → lo ≤ b.get i ∧ b.get i ≤ hi := by
      split_ifs at h1 with hs
      · obtain ⟨hw0, hw1, hsh, -, hl⟩ := movingWindow_ok h1
        refine ⟨hsh, fun i hi => ?_⟩
        obtain ⟨l, e, g⟩ := hl i
        simp only at hw0 hw1 e
        have hax : k < a.shape.length := axis_of_pos (by omega)
        rw [g]
        refine engineLine_bounds (by decide) (by decide) (fun c => by simp) (by omega) (by rw [lineAt_length]; simp only [Int.toNat_natCast]; omega) e ?_
          (by rw [lineAt_length]; exact inRange_axis hi hax)
        intro x hx
        obtain ⟨t, ht, rfl⟩ := List.mem_map.1 hx
        exact hb _ (inRange_set hi (List.mem_range.1 ht))
      · cases h1
        exact ⟨rfl, hb⟩
    obtain ⟨h3, h4⟩ := separable_bounds h2 (fun i hi => key.2 i (key.1 ▸ hi))
    exact ⟨h3.trans key.1, fun i hi => h4 i (key.1 ▸ hi)⟩

theorem choices_mem {α : Type} : ∀ {L : List (List α)} {c : List α}, c ∈ choices L → List.Forall₂ (fun x l => x ∈ l) c L
  | [], c, h => by
    simp [choices] at h
    subst h
    exact .nil
  | l :: L, c, h => by
    simp only [choices, List.mem_flatMap, List.mem_map] at h
    obtain ⟨x, hx, c', hc, rfl⟩ := h
    exact .cons hx (choices_mem hc)

theorem choices_ne_nil {α : Type} : ∀ {L : List (List α)}, (∀ l ∈ L, l ≠ []) → choices L ≠ []
  | [], _ => by simp [choices]
  | l :: L, h => by
    obtain ⟨x, l', rfl⟩ := List.exists_cons_of_ne_nil (h l (by simp))
    obtain ⟨c, L', hc⟩ := List.exists_cons_of_ne_nil (choices_ne_nil fun l' hl => h l' (List.mem_cons_of_mem _ hl))
    simp [choices, hc]

theorem blockAround_mem {a : Nd ℚ} {size i : List ℕ} (hi : InRange a.shape i) {x : ℚ} (hx : x ∈ blockAround a size i) : ∃ j, InRange a.shape j ∧ a.get j = x := by
  unfold blockAround at hx
  obtain ⟨j, hj, rfl⟩ := List.mem_map.1 hx
  refine ⟨j, ?_, rfl⟩
  have h := choices_mem hj
  rw [inRange_iff]
  have hl := h.length_eq
  rw [List.length_map, List.length_range] at hl
  refine ⟨hl, fun k hk => ?_⟩
  have := List.Forall₂.get h (i := k) (by omega) (by simpa using hk)
  simp only [List.get_eq_getElem, List.getElem_map, List.getElem_range, List.mem_map] at this
  obtain ⟨t, -, ht⟩ := this
  rw [List.getD_eq_getElem?_getD, List.getElem?_eq_getElem (hl ▸ hk)]
  simp only [Option.getD_some]
  rw [← ht]
  exact reflectPos_lt (lt_of_le_of_lt (Nat.zero_le _) (inRange_axis hi hk)) _

theorem blockAround_ne_nil {a : Nd ℚ} {size i : List ℕ} (hs : ∀ s ∈ size, 0 < s) : blockAround a size i ≠ [] := by
  unfold blockAround
  intro h
  refine choices_ne_nil ?_ (List.map_eq_nil_iff.1 h)
  intro l hl
  obtain ⟨k, -, rfl⟩ := List.mem_map.1 hl
  intro h0
  rw [List.map_eq_nil_iff] at h0
  have h1 : 0 < size.getD k 1 := by
    rw [List.getD_eq_getElem?_getD]
    cases hk : size[k]? with
    | none => simp
    | some s => exact hs s (List.mem_of_getElem? hk)
  have := congrArg List.length h0
  rw [List.length_range, List.length_nil] at this
  omega

theorem neighbourMedian_bounds {installed approximate : Bool} {size : List ℕ} (hs : ∀ s ∈ size, 0 < s) {a m : Nd ℚ} {lo hi : ℚ}
    (h : neighbourMedian installed approximate size a = .ok m) (hb : ∀ i, InRange a.shape i → lo ≤ a.get i ∧ a.get i ≤ hi) :
    m.shape = a.shape ∧ ∀ i, InRange a.shape i → lo ≤ m.get i ∧ m.get i ≤ hi := by
  unfold neighbourMedian at h
  split_ifs at h
  · exact separable_bounds h hb
  · cases h
    refine ⟨rfl, fun i hi => ?_⟩
    refine ofScipy_bounds (op := .median) (by decide) (by decide) (blockAround_ne_nil hs) fun x hx => ?_
    obtain ⟨j, hj, rfl⟩ := blockAround_mem hi hx
    exact hb j hj

theorem hampelData_ok {installed approximate : Bool} {eps threshold : ℚ} {size : List ℕ} {a r : Nd ℚ}
    (h : hampelData installed approximate eps threshold size a = .ok r) : ∃ med mad, neighbourMedian installed approximate size a = .ok med ∧
      neighbourMedian installed approximate size ⟨a.shape, fun i => absQ (a.get i - med.get i)⟩ = .ok mad ∧ r.shape = a.shape ∧
      ∀ i, r.get i = if threshold < absQ (a.get i - med.get i) / (if mad.get i = 0 then eps else mad.get i) then med.get i else a.get i := by
  unfold hampelData at h
  obtain ⟨med, h1, h⟩ := bind_split h
  obtain ⟨mad, h2, h⟩ := bind_split h
  cases h
  exact ⟨med, mad, h1, h2, rfl, fun _ => rfl⟩

theorem hampelData_total {installed approximate : Bool} {eps threshold : ℚ} {axis h : ℕ} {a : Nd ℚ} (h1 : 0 < h) (hw : 2 * h + 1 ≤ a.shape.getD axis 0) :
    ∃ r, hampelData installed approximate eps threshold ((List.replicate a.shape.length 1).set axis (2 * h + 1)) a = .ok r := by
  obtain ⟨m, bn, e1, e2, -⟩ := neighbourMedian_one installed approximate h1 hw
  obtain ⟨m', bn', e1', -⟩ := neighbourMedian_one installed approximate (a := ⟨a.shape, fun i => absQ (a.get i - m.get i)⟩) h1 hw
  unfold hampelData
  simp only [bind, Except.bind, e1, e1']
  exact ⟨_, rfl⟩

/-! ### A single spike -/

theorem countP_range_le_one {w : ℕ} {P : ℕ → Bool} (h : ∀ t t', t < w → t' < w → P t = true → P t' = true → t = t') : (List.range w).countP P ≤ 1 := by
  rw [List.countP_eq_length_filter]
  have hn : ((List.range w).filter P).Nodup := List.nodup_range.filter _
  rcases hl : (List.range w).filter P with _ | ⟨x, _ | ⟨y, l⟩⟩
  · simp
  · simp
  · exfalso
    have hx : x ∈ (List.range w).filter P := by simp [hl]
    have hy : y ∈ (List.range w).filter P := by simp [hl]
    rw [List.mem_filter, List.mem_range] at hx hy
    have := h x y hx.1 hy.1 hx.2 hy.2
    rw [hl] at hn
    simp [this] at hn

theorem perm_spike {c : ℚ} {ws : List ℚ} (h : ws.countP (fun x => x ≠ c) ≤ 1) : ws = List.replicate ws.length c ∨ ∃ v, ws.Perm (v :: List.replicate (ws.length - 1) c) := by
  have hp := List.filter_append_perm (fun x => decide (x ≠ c)) ws
  have e2 : ws.filter (fun x => !decide (x ≠ c)) = List.replicate (ws.filter (fun x => !decide (x ≠ c))).length c := by
    apply List.eq_replicate_of_mem
    intro b hb
    simpa using (List.mem_filter.1 hb).2
  rw [List.countP_eq_length_filter] at h
  rcases hl : ws.filter (fun x => decide (x ≠ c)) with _ | ⟨v, _ | ⟨y, l⟩⟩
  · left
    apply List.eq_replicate_of_mem
    intro b hb
    by_contra hne
    have : b ∈ ws.filter (fun x => decide (x ≠ c)) := List.mem_filter.2 ⟨hb, by simpa using hne⟩
    rw [hl] at this
    exact absurd this (by simp)
  · right
    refine ⟨v, ?_⟩
    rw [hl, e2] at hp
    have hlen := hp.length_eq
    simp only [List.length_append, List.length_cons, List.length_nil, List.length_replicate] at hlen
    rw [show (ws.filter (fun x => !decide (x ≠ c))).length = ws.length - 1 by omega] at hp
    exact hp.symm
  · rw [hl] at h
    simp at h

theorem sorted_spike {c : ℚ} {ws : List ℚ} (h : ws.countP (fun x => x ≠ c) ≤ 1) (h3 : 3 ≤ ws.length ∨ ws.countP (fun x => x ≠ c) = 0) {k : ℕ}
    (hk : k < ws.length) (hk' : 3 ≤ ws.length → 0 < k ∧ k + 1 < ws.length) : (ws.insertionSort (· ≤ ·)).getD k 0 = c := by
  rcases perm_spike h with e | ⟨v, hv⟩
  · have hm := sort_getD_mem hk
    rw [e] at hm
    have := List.eq_of_mem_replicate hm
    rw [← e] at this
    exact this
  · by_cases hvc : v = c
    · have hm := sort_getD_mem hk
      have hm := hv.subset hm
      rw [hvc] at hm
      rcases List.mem_cons.1 hm with h | h
      · exact h
      · exact List.eq_of_mem_replicate h
    have h3' : 3 ≤ ws.length := by
      rcases h3 with h3 | h3
      · exact h3
      · rw [hv.countP_eq] at h3
        simp [hvc] at h3
    have hk' := hk' h3'
    rcases lt_or_gt_of_ne hvc with hlt | hgt
    · have e : ws.insertionSort (· ≤ ·) = v :: List.replicate (ws.length - 1) c := by
        refine sorted_unique ((sort_perm ws).trans hv) (sort_sorted ws) ?_
        rw [List.pairwise_cons]
        refine ⟨fun x hx => ?_, List.pairwise_replicate.2 (Or.inr le_rfl)⟩
        rw [List.eq_of_mem_replicate hx]
        exact hlt.le
      rw [e]
      obtain ⟨k, rfl⟩ : ∃ j, k = j + 1 := ⟨k - 1, by omega⟩
      rw [List.getD_cons_succ, List.getD_eq_getElem?_getD, List.getElem?_replicate, if_pos (by omega)]
      rfl
    · have e : ws.insertionSort (· ≤ ·) = List.replicate (ws.length - 1) c ++ [v] := by
        refine sorted_unique ((sort_perm ws).trans (hv.trans (List.perm_append_singleton _ _).symm)) (sort_sorted ws) ?_
        rw [List.pairwise_append]
        refine ⟨List.pairwise_replicate.2 (Or.inr le_rfl), List.pairwise_singleton _ _, fun x hx y hy => ?_⟩
        rw [List.eq_of_mem_replicate hx, List.mem_singleton.1 hy]
        exact hgt.le
      rw [e, List.getD_eq_getElem?_getD, List.getElem?_append_left (by simp; omega), List.getElem?_replicate, if_pos (by omega)]
      rfl

theorem ofScipy_spike {c : ℚ} {ws : List ℚ} (h : ws.countP (fun x => x ≠ c) ≤ 1) (h3 : 3 ≤ ws.length) : MoveOp.ofScipy .median ws = c :=
  sorted_spike h (.inl h3) (by omega) (by omega)

theorem npMedian_spike {c : ℚ} {ws : List ℚ} (h : ws.countP (fun x => x ≠ c) ≤ 1) (h0 : 0 < ws.length)
    (h3 : 3 ≤ ws.length ∨ ws.countP (fun x => x ≠ c) = 0) : npMedian false ws = c := by
  rw [npMedian_isMedian ws _ (sort_perm ws) (sort_sorted ws), sorted_spike h h3 (by omega) (by omega), sorted_spike h h3 (by omega) (by omega)]
  ring

theorem oneSpike_countP {l : List ℚ} {c : ℚ} {s : ℕ} (h : OneSpike l c s) : l.countP (fun x => x ≠ c) ≤ 1 := by
  have e : l = (List.range l.length).map fun t => l.getD t 0 := by
    apply List.ext_getElem?
    intro k
    by_cases hk : k < l.length
    · rw [List.getElem?_map, List.getElem?_range hk, List.getElem?_eq_getElem hk, Option.map_some, List.getD_eq_getElem?_getD, List.getElem?_eq_getElem hk]
      rfl
    · rw [List.getElem?_eq_none (by omega), List.getElem?_eq_none (by simpa using hk)]
  rw [e, List.countP_map]
  refine countP_range_le_one fun t t' ht ht' h1 h2 => ?_
  simp only [Function.comp, decide_eq_true_eq] at h1 h2
  have a : t = s := by by_contra hc; exact h1 (h t ht hc)
  have b : t' = s := by by_contra hc; exact h2 (h t' ht' hc)
  omega

theorem trailing_countP_zero {l : List ℚ} {c : ℚ} {s : ℕ} (h : OneSpike l c s) {w i : ℕ} (hi : i < s) (hl : i < l.length) :
    (trailingWindow w l i).countP (fun x => x ≠ c) = 0 := by
  rw [List.countP_eq_zero]
  intro x hx
  have := List.mem_of_mem_drop hx
  obtain ⟨t, ht, e⟩ := List.getElem_of_mem this
  simp only [List.length_take] at ht
  rw [List.getElem_take] at e
  have h1 := h t (by omega) (by omega)
  rw [List.getD_eq_getElem?_getD, List.getElem?_eq_getElem (by omega)] at h1
  simp only [Option.getD_some] at h1
  simp [← e, h1]

/-- The moving median of a single spike away from the ends is constant, with each engine. -/
theorem engineLine_spike {sd : List ℚ → ℚ} {bn : Bool} {l r : List ℚ} {c : ℚ} {s h : ℕ} (h1 : 0 < h) (hsp : OneSpike l c s) (hs1 : 2 * h ≤ s)
    (hs2 : s + h < l.length) (hr : engineLine sd bn .median .reflect 0 (2 * h + 1) l = .ok r) {k : ℕ} (hk : k < l.length) : r.getD k 0 = c := by
  rcases engineLine_cases hr with ⟨e, -⟩ | ⟨-, -, -, rfl⟩
  · rw [(scipyLine_ok e).2 k hk]
    refine ofScipy_spike ?_ (by rw [scipyWindow_length]; omega)
    unfold scipyWindow
    rw [List.countP_map]
    refine countP_range_le_one fun t t' ht ht' g1 g2 => ?_
    simp only [Function.comp, decide_eq_true_eq] at g1 g2
    have hn : 0 < l.length := by omega
    have key : ∀ t, t < 2 * h + 1 → extendAt .reflect l (k - ((2 * h + 1) / 2 : ℕ) - 0 + t) ≠ c → (k : ℤ) - h + t = s := by
      intro t ht g
      simp only [extendAt] at g
      have hp : (if ((k : ℤ) - ((2 * h + 1) / 2 : ℕ) - 0 + t) % (2 * l.length) < l.length then ((k : ℤ) - ((2 * h + 1) / 2 : ℕ) - 0 + t) % (2 * l.length) else
          2 * l.length - 1 - ((k : ℤ) - ((2 * h + 1) / 2 : ℕ) - 0 + t) % (2 * l.length)).toNat = s := by
        by_contra hc
        exact g (hsp _ (reflect_lt hn _) hc)
      rw [show ((2 * h + 1) / 2 : ℕ) = h by omega] at hp
      by_cases hneg : (k : ℤ) - h - 0 + t < 0
      · have : ((k : ℤ) - h - 0 + t) % (2 * l.length) = (k : ℤ) - h - 0 + t + 2 * l.length := by
          rw [← Int.add_emod_right, Int.emod_eq_of_lt (by omega) (by omega)]
        rw [this] at hp
        split_ifs at hp <;> omega
      · rw [Int.emod_eq_of_lt (by omega) (by omega)] at hp
        split_ifs at hp <;> omega
    have a := key t ht g1
    have b := key t' ht' g2
    omega
  · rw [bottleneck_getD _ _ (by omega) hk]
    have hi : (if k + (2 * h + 1) / 2 < l.length then k + (2 * h + 1) / 2 else k) < l.length := by split_ifs <;> omega
    have hi' : h ≤ (if k + (2 * h + 1) / 2 < l.length then k + (2 * h + 1) / 2 else k) := by split_ifs <;> omega
    generalize (if k + (2 * h + 1) / 2 < l.length then k + (2 * h + 1) / 2 else k) = i at hi hi'
    have hlen : (trailingWindow (2 * h + 1) l i).length = min (i + 1) (2 * h + 1) := by
      simp [trailingWindow]
      omega
    refine npMedian_spike ?_ (by omega) ?_
    · exact le_trans (List.Sublist.countP_le ((List.drop_sublist _ _).trans (List.take_sublist _ _))) (oneSpike_countP hsp)
    · by_cases hs : i < s
      · exact .inr (trailing_countP_zero hsp hs hi)
      · left
        omega

end Verif
