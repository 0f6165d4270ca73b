import Verif.Proof.GetCoord
/-! Lemmas on indexers, ordering and array selection. -/
namespace Verif
open Spec

theorem takeInts_eq {α} (l : List α) (ix : List ℕ) (h : ∀ i ∈ ix, i < l.length) :
    takeInts l (ix.map fun i : ℕ => (i : ℤ)) = .ok (takeIdx l ix) := by
  induction ix with
  | nil => rfl
  | cons i ix ih =>
    have hi := h i (by simp)
    have := ih fun j hj => h j (by simp [hj])
    simp only [List.map_cons, takeInts, this]
    rw [if_neg (by omega), if_neg (by omega)]
    simp [List.getElem?_eq_getElem hi, takeIdx, Except.map]

theorem strictInts_eq_range' (f : ℤ) : ∀ (ix : List ℤ), ix.Pairwise (· < ·) → ix.head? = some f →
    ∀ L, ix.getLast? = some L → L - f = (ix.length : ℤ) - 1 →
    ix = (List.range ix.length).map fun i : ℕ => f + (i : ℤ) := by
  intro ix
  induction ix generalizing f with
  | nil => simp
  | cons a r ih =>
    intro hp hh L hL hlen
    simp only [List.head?_cons, Option.some.injEq] at hh
    subst hh
    cases r with
    | nil => simp
    | cons b r =>
      have hp2 := (List.pairwise_cons.1 hp)
      have hab := hp2.1 b (by simp)
      -- last ≥ b + length r
      have key : ∀ (b : ℤ) (r : List ℤ), (b :: r).Pairwise (· < ·) → ∀ L, (b :: r).getLast? = some L → b + r.length ≤ L := by
        intro b r
        induction r generalizing b with
        | nil => intro _ L hL; simp at hL; simp [hL]
        | cons c r ih2 =>
          intro hp L hL
          have h3 := List.pairwise_cons.1 hp
          have h4 := h3.1 c (by simp)
          have h5 := ih2 c h3.2 L (by rw [List.getLast?_cons_cons] at hL; exact hL)
          push_cast [List.length_cons]; omega
      have hL' : (b :: r).getLast? = some L := by rw [List.getLast?_cons_cons] at hL; exact hL
      have h6 := key b r hp2.2 L hL'
      have hb : b = a + 1 := by
        push_cast [List.length_cons] at hlen; omega
      have h7 := ih b hp2.2 rfl L hL' (by push_cast [List.length_cons] at hlen ⊢; omega)
      rw [List.length_cons, List.range_succ_eq_map, List.map_cons, List.map_map]
      simp only [Nat.cast_zero, add_zero]
      congr 1
      rw [h7]
      simp only [List.length_map, List.length_range]
      apply List.map_congr_left
      intro i _
      simp only [Function.comp_apply]
      push_cast; omega

theorem pairwise_of_zip_tail {ix : List ℤ} (h : (ix.zip ix.tail).all (fun p => decide (p.1 < p.2)) = true) :
    ix.Pairwise (· < ·) := by
  induction ix with
  | nil => simp
  | cons a r ih =>
    cases r with
    | nil => simp
    | cons b r =>
      simp only [List.tail_cons, List.zip_cons_cons, List.all_cons, Bool.and_eq_true, decide_eq_true_eq] at h ih
      have := ih h.2
      rw [List.pairwise_cons]
      refine ⟨?_, this⟩
      intro x hx
      rcases List.mem_cons.1 hx with rfl | hx
      · exact h.1
      · exact h.1.trans ((List.pairwise_cons.1 this).1 x hx)

theorem takeInts_range {α} (l : List α) (a k : ℕ) (h : a + k ≤ l.length) :
    takeInts l ((List.range k).map fun i : ℕ => (a : ℤ) + (i : ℤ)) = .ok ((l.drop a).take k) := by
  have : ((List.range k).map fun i : ℕ => (a : ℤ) + (i : ℤ)) = (List.range' a k).map fun i : ℕ => (i : ℤ) := by
    rw [List.range'_eq_map_range, List.map_map]
    apply List.map_congr_left
    intro i _; simp
  rw [this, takeInts_eq, takeIdx_range']
  intro i hi
  simp only [List.mem_range'] at hi
  omega

/-- For valid non-negative index arrays the simplified indexer picks the same elements. -/
theorem maybeArrayToSlice_apply {α} (l : List α) (ix : List ℤ) (h : ∀ i ∈ ix, 0 ≤ i ∧ i < l.length) :
    (maybeArrayToSlice ix l.length).apply l = takeInts l ix := by
  unfold maybeArrayToSlice
  by_cases h2 : ix.length < 2
  · rw [if_pos h2]; rfl
  · rw [if_neg h2]
    simp only
    by_cases hc : ix.getD (ix.length - 1) 0 - ix.getD 0 0 = (ix.length : ℤ) - 1 ∧
        (ix.zip ix.tail).all (fun p => decide (p.1 < p.2)) = true
    · rw [if_pos hc]
      obtain ⟨f, hf⟩ : ∃ f, ix.head? = some f := by
        cases ix with
        | nil => simp at h2
        | cons a r => exact ⟨a, rfl⟩
      obtain ⟨L, hL⟩ : ∃ L, ix.getLast? = some L := by
        cases ix with
        | nil => simp at h2
        | cons a r => exact ⟨_, List.getLast?_eq_some_getLast (by simp)⟩
      have hf' : ix.getD 0 0 = f := by
        rw [List.getD_eq_getElem?_getD, ← List.head?_eq_getElem?, hf]; rfl
      have hL' : ix.getD (ix.length - 1) 0 = L := by
        rw [List.getD_eq_getElem?_getD, ← List.getLast?_eq_getElem?, hL]; rfl
      rw [hf', hL'] at hc
      have hr := strictInts_eq_range' f ix (pairwise_of_zip_tail hc.2) hf L hL hc.1
      have hfm : f ∈ ix := List.mem_of_head? hf
      have hLm : L ∈ ix := List.mem_of_getLast? hL
      have hfb := h f hfm
      have hLb := h L hLm
      obtain ⟨F, rfl⟩ := Int.eq_ofNat_of_zero_le hfb.1
      have htk := takeInts_range l F ix.length (by omega)
      rw [← hr] at htk
      rw [htk, hf', hL']
      by_cases hlen : ix.length = l.length
      · rw [if_pos hlen]
        have : F = 0 := by omega
        subst this
        simp only [Indexer.apply, pySlice_all, List.drop_zero, hlen, List.take_length]
      · rw [if_neg hlen]
        simp only [Indexer.apply]
        have := pySlice_unit l F (F + ix.length) (some (F : ℤ)) (some (L + 1))
          (by simp [clipBound]; omega) (by simp [clipBound]; omega)
        rw [this]
        congr 2; omega
    · rw [if_neg hc]; rfl

/-! ### array select -/

theorem maskIdx_filter (l : List ℚ) (p : ℚ → Bool) : maskIdx l (l.map p) = l.filter p := by
  unfold maskIdx
  induction l with
  | nil => rfl
  | cons a r ih =>
    simp only [List.map_cons, List.zip_cons_cons, List.filterMap_cons, List.filter_cons, ih]
    cases p a <;> simp

theorem selectMask_eq (l : List ℚ) (a b : Option ℚ) :
    ArrCoord.selectMask l (orderPair (a, b)) = l.map fun x => decide (Between 0 a b x) := by
  unfold ArrCoord.selectMask
  apply List.map_congr_left
  intro x _
  have h := RangeCoord.between_iff_orderPair 0 a b x
  rw [Bool.eq_iff_iff, decide_eq_true_eq, h]
  generalize orderPair (a, b) = p
  obtain ⟨lo, hi⟩ := p
  cases lo <;> cases hi <;> simp [RangeCoord.Lo, RangeCoord.Hi]

theorem takeIdx_mask {α} (D : List α) (m : List Bool) (h : m.length = D.length) :
    takeIdx D (((List.range D.length).zip m).filterMap (fun q => if q.2 then some q.1 else none)) = maskIdx D m := by
  have gen : ∀ (E : List α) (m : List Bool) (k : ℕ) (full : List α), m.length = E.length → full.drop k = E →
      takeIdx full (((List.range' k E.length).zip m).filterMap (fun q => if q.2 then some q.1 else none)) = maskIdx E m := by
    intro E
    induction E with
    | nil => intro m k full hm hf; simp [takeIdx, maskIdx]
    | cons e E ih =>
      intro m k full hm hf
      cases m with
      | nil => simp at hm
      | cons b m =>
        have hf' : full.drop (k + 1) = E := by
          have := congrArg List.tail hf
          rw [List.tail_drop] at this; simpa using this
        have := ih m (k + 1) full (by simpa using hm) hf'
        have hk : full[k]? = some e := by
          have := congrArg List.head? hf
          rw [List.head?_drop] at this; simpa using this
        rw [List.length_cons, List.range'_succ, List.zip_cons_cons, List.filterMap_cons]
        cases b with
        | false => simpa [maskIdx] using this
        | true =>
          simp only [if_true]
          have hc : ∀ t, takeIdx full (k :: t) = e :: takeIdx full t := by intro t; simp [takeIdx, hk]
          rw [hc, this]
          simp [maskIdx]
  have := gen D m 0 D h rfl
  rwa [← List.range_eq_range'] at this

/-- Labels kept by `CoordArray.select`, and what the returned indexer does to any companion data. -/
theorem ArrCoord.select_spec (kind : Kind) (l : List ℚ) (a b : Option ℚ) :
    let keep := fun x => decide (Between 0 a b x)
    (l.filter keep = [] → ArrCoord.select kind l (a, b) = .ok (.part 0, .mask (l.map keep))) ∧
    (l ≠ [] → l.filter keep = l → ArrCoord.select kind l (a, b) = .ok (.arr l, .slice {})) ∧
    (l.filter keep ≠ [] → l.filter keep ≠ l → ∃ ix : List ℕ, (∀ i ∈ ix, i < l.length) ∧
      (∀ {α} (D : List α), D.length = l.length → takeIdx D ix = maskIdx D (l.map keep)) ∧
      ArrCoord.select kind l (a, b) =
        (getCoordData kind (l.filter keep)).map (·, .ints (ix.map fun i : ℕ => (i : ℤ)))) := by
  intro keep
  have hm := selectMask_eq l a b
  have hany : ((l.map keep).any id = true) ↔ l.filter keep ≠ [] := by
    rw [List.any_map, List.any_eq_true, ne_eq, List.filter_eq_nil_iff]
    push Not; rfl
  have hall : ((l.map keep).all id = true) ↔ l.filter keep = l := by
    rw [List.all_map, List.all_eq_true, List.filter_eq_self]; rfl
  unfold ArrCoord.select
  simp only
  rw [hm]
  refine ⟨?_, ?_, ?_⟩
  · intro h
    have : (l.map keep).any id = false := by
      rw [← Bool.not_eq_true, hany]; simpa using h
    rw [this]; rfl
  · intro hne h
    have h1 : (l.map keep).any id = true := hany.2 (by rw [h]; exact hne)
    rw [h1, hall.2 h]; rfl
  · intro hne h
    have h1 : (l.map keep).any id = true := hany.2 hne
    have h2 : (l.map keep).all id = false := by
      rw [← Bool.not_eq_true, hall]; exact h
    refine ⟨((List.range l.length).zip (l.map keep)).filterMap (fun q => if q.2 then some q.1 else none), ?_, ?_, ?_⟩
    · intro i hi
      simp only [List.mem_filterMap] at hi
      obtain ⟨q, hq, hqi⟩ := hi
      have := List.of_mem_zip (a := q.1) (b := q.2) hq
      split_ifs at hqi
      cases hqi
      exact List.mem_range.1 this.1
    · intro α D hD
      have := takeIdx_mask D (l.map keep) (by simp [hD])
      rwa [hD] at this
    · rw [h1, h2]
      simp only [Bool.not_true, Bool.false_eq_true, if_false, bind, Except.bind, pure, Except.pure]
      rw [show maskIdx l (l.map fun x => decide (Between 0 a b x)) = l.filter keep from maskIdx_filter l keep]
      have hix : ((List.range l.length).zip (l.map keep)).filterMap (fun q => if q.2 then some (q.1 : ℤ) else none)
          = (((List.range l.length).zip (l.map keep)).filterMap (fun q => if q.2 then some q.1 else none)).map fun i : ℕ => (i : ℤ) := by
        rw [List.map_filterMap]
        apply List.filterMap_congr
        intro q _
        split_ifs <;> rfl
      rw [hix]
      cases getCoordData kind (l.filter keep) <;> rfl

/-! ### ordering by values -/

/-- What numpy's argsort promises: a permutation of the positions which sorts the values. -/
def IsArgsort (f : List ℚ → List ℕ) : Prop :=
  ∀ l, (f l).Perm (List.range l.length) ∧ (takeIdx l (f l)).Pairwise (· ≤ ·)

theorem positions_sorted {l : List ℚ} (h : l.Pairwise (· ≤ ·)) (v : ℚ) :
    positions v l = List.range' (searchLeft l v) (searchRight l v - searchLeft l v) := by
  unfold positions
  apply filter_range_interval
  · exact searchRight_le l v
  · intro i hi
    have h1 := searchLeft_spec h v i hi
    have h2 := searchRight_spec h v i hi
    rw [decide_eq_true_eq, List.getElem?_eq_getElem hi, Option.some.injEq]
    constructor
    · intro he
      exact ⟨not_lt.1 fun hh => by have := h1.2 hh; linarith, h2.1 he.le⟩
    · rintro ⟨h3, h4⟩
      exact le_antisymm (h2.2 h4) (not_lt.1 fun hh => by have := h1.1 hh; omega)

theorem getValueIndex_eq {l : List ℚ} (h : l.Pairwise (· ≤ ·)) (find : List ℚ) :
    Coord.getValueIndex l find = find.flatMap fun v => positions v l := by
  unfold Coord.getValueIndex
  split_ifs with hc
  · simp only [List.all_eq_true, decide_eq_true_eq] at hc
    induction find with
    | nil => rfl
    | cons v r ih =>
      rw [List.map_cons, List.flatMap_cons, ih fun x hx => hc x (by simp [hx]), positions_sorted h,
        hc v (by simp)]
      simp
  · congr 1
    funext v
    exact (positions_sorted h v).symm

theorem positions_of_not_mem {l : List ℚ} {v : ℚ} (h : v ∉ l) : positions v l = [] := by
  unfold positions
  rw [List.filter_eq_nil_iff]
  intro i _
  rw [decide_eq_true_eq]
  intro hh
  exact h (List.mem_of_getElem? hh)

theorem flatMap_filter_mem {β} {l : List ℚ} {f : ℚ → List β} (hf : ∀ v, v ∉ l → f v = []) (find : List ℚ) :
    (find.filter fun v => decide (v ∈ l)).flatMap f = find.flatMap f := by
  induction find with
  | nil => rfl
  | cons v r ih =>
    by_cases h : v ∈ l
    · simp [h, ih]
    · simp [h, ih, hf v h]

theorem positions_neg (l : List ℚ) (v : ℚ) : positions (-v) (l.map fun x => -x) = positions v l := by
  unfold positions
  rw [List.length_map]
  apply List.filter_congr
  intro i _
  rw [decide_eq_decide, List.getElem?_map]
  cases l[i]? <;> simp

theorem takeIdx_getElem? {α} {l : List α} {ix : List ℕ} (h : ∀ i ∈ ix, i < l.length) (k : ℕ) :
    (takeIdx l ix)[k]? = (ix[k]?).bind (l[·]?) := by
  induction ix generalizing k with
  | nil => simp [takeIdx]
  | cons i ix ih =>
    have hi := h i (by simp)
    have ih' := fun k => ih (fun j hj => h j (by simp [hj])) k
    have : takeIdx l (i :: ix) = l[i] :: takeIdx l ix := by simp [takeIdx, List.getElem?_eq_getElem hi]
    rw [this]
    cases k with
    | zero => simp [List.getElem?_eq_getElem hi]
    | succ k => simpa using ih' k

theorem takeIdx_length {α} {l : List α} {ix : List ℕ} (h : ∀ i ∈ ix, i < l.length) :
    (takeIdx l ix).length = ix.length := by
  have := congrArg List.length (takeIdx_of_lt h)
  simpa using this

/-- Reading positions through a sorting permutation gives the positions, in some order. -/
theorem positions_perm {l : List ℚ} {a : List ℕ} (ha : a.Perm (List.range l.length)) (v : ℚ) :
    (takeIdx a (positions v (takeIdx l a))).Perm (positions v l) := by
  have hlt : ∀ i ∈ a, i < l.length := fun i hi => List.mem_range.1 (ha.mem_iff.1 hi)
  have hlen := takeIdx_length hlt
  have : takeIdx a (positions v (takeIdx l a)) = a.filter fun i => decide (l[i]? = some v) := by
    unfold positions
    rw [hlen]
    have hfm : takeIdx a ((List.range a.length).filter fun i => decide ((takeIdx l a)[i]? = some v)) =
        ((List.range a.length).filterMap fun k => a[k]?).filter fun i => decide (l[i]? = some v) := by
      unfold takeIdx
      rw [← List.filterMap_eq_filter, List.filterMap_filterMap, ← List.filterMap_eq_filter, List.filterMap_filterMap]
      apply List.filterMap_congr
      intro k hk
      have hk' := List.mem_range.1 hk
      have h1 : (takeIdx l a)[k]? = l[a[k]]? := by
        rw [takeIdx_getElem? hlt, List.getElem?_eq_getElem hk']; rfl
      have h2 : (List.filterMap (fun i => l[i]?) a)[k]? = l[a[k]]? := h1
      rw [List.getElem?_eq_getElem hk']
      simp only [Option.guard, Option.bind_some, h2]
      by_cases hc : l[a[k]]? = some v
      · simp [hc, List.getElem?_eq_getElem hk']
      · simp [hc]
    rw [hfm]
    congr 1
    have := takeIdx_range' a 0 a.length
    rw [← List.range_eq_range'] at this
    unfold takeIdx at this
    simpa using this
  rw [this]
  exact ha.filter _

theorem takeIdx_flatMap {α β} (a : List α) (f : β → List ℕ) (find : List β) :
    takeIdx a (find.flatMap f) = find.flatMap fun v => takeIdx a (f v) := by
  induction find with
  | nil => rfl
  | cons v r ih => rw [List.flatMap_cons, takeIdx_append, ih, List.flatMap_cons]

/-- A coordinate whose class agrees with its values: what `get_coord` produces. -/
def Coord.Wf : Coord → Prop
  | .range c => c.Valid
  | .mono vs => StrictMono' vs ∧ vs ≠ []
  | .arr vs => vs ≠ []
  | .part _ => True

theorem range_vals_le {c : RangeCoord} (hv : c.Valid) (h : c.sorted = true) : c.values.Pairwise (· ≤ ·) := by
  have hs : 0 ≤ c.step := by simpa [RangeCoord.sorted] using h
  rw [hv.values_eq]
  unfold progression
  rw [List.pairwise_map]
  refine List.Pairwise.imp ?_ List.pairwise_lt_range
  intro i j hij
  have : (i : ℚ) ≤ j := by exact_mod_cast hij.le
  nlinarith

theorem range_vals_ge {c : RangeCoord} (hv : c.Valid) (h : c.reverseSorted = true) : c.values.Pairwise (· ≥ ·) := by
  have hs : c.step < 0 := by simpa [RangeCoord.reverseSorted] using h
  rw [hv.values_eq]
  unfold progression
  rw [List.pairwise_map]
  refine List.Pairwise.imp ?_ List.pairwise_lt_range
  intro i j hij
  have : (i : ℚ) ≤ j := by exact_mod_cast hij.le
  simp only [ge_iff_le]; nlinarith

theorem Wf.le_of_sorted {c : Coord} (h : c.Wf) (hs : c.isSorted = true) : c.vals.Pairwise (· ≤ ·) := by
  cases c with
  | range r => exact range_vals_le h hs
  | mono vs =>
    rcases h.1 with h1 | h1
    · exact h1.imp le_of_lt
    · by_cases h2 : 2 ≤ vs.length
      · rw [Coord.isSorted, isSorted_of_dec h1 h2] at hs; simp at hs
      · match vs, h2 with
        | [], _ => simp [Coord.vals]
        | [a], _ => simp [Coord.vals]
        | _ :: _ :: _, h2 => simp at h2
  | arr vs => simp [Coord.isSorted] at hs
  | part n => simp [Coord.isSorted] at hs

theorem Wf.ge_of_reverse {c : Coord} (h : c.Wf) (hs : c.isReverse = true) : c.vals.Pairwise (· ≥ ·) := by
  cases c with
  | range r => exact range_vals_ge h hs
  | mono vs =>
    rcases h.1 with h1 | h1
    · rw [Coord.isReverse, isReverse_of_inc h1] at hs; simp at hs
    · exact h1.imp le_of_lt
  | arr vs => simp [Coord.isReverse] at hs
  | part n => simp [Coord.isReverse] at hs

/-- The indices computed by `order`: for each requested value, its positions. -/
theorem orderInds_spec {argsort : List ℚ → List ℕ} (ha : IsArgsort argsort) {c : Coord} (hc : c.Wf) (find : List ℚ) :
    ∃ f : ℚ → List ℕ, (∀ v, (f v).Perm (positions v c.vals)) ∧ c.orderInds argsort find = find.flatMap f := by
  unfold Coord.orderInds
  simp only
  by_cases hs : c.isSorted = true
  · rw [if_pos hs]
    refine ⟨fun v => positions v c.vals, fun v => List.Perm.refl _, ?_⟩
    rw [getValueIndex_eq (Wf.le_of_sorted hc hs), flatMap_filter_mem fun v hv => positions_of_not_mem hv]
  · rw [if_neg hs]
    by_cases hr : c.isReverse = true
    · rw [if_pos hr]
      refine ⟨fun v => positions v c.vals, fun v => List.Perm.refl _, ?_⟩
      have hle : (c.vals.map fun x => -x).Pairwise (· ≤ ·) := by
        rw [List.pairwise_map]
        exact (Wf.ge_of_reverse hc hr).imp fun {a b} hab => neg_le_neg hab
      rw [getValueIndex_eq hle, List.flatMap_map]
      simp only [positions_neg]
      rw [flatMap_filter_mem fun v hv => positions_of_not_mem hv]
    · rw [if_neg hr]
      obtain ⟨h1, h2⟩ := ha c.vals
      refine ⟨fun v => takeIdx (argsort c.vals) (positions v (takeIdx c.vals (argsort c.vals))),
        fun v => positions_perm h1 v, ?_⟩
      rw [getValueIndex_eq h2, takeIdx_flatMap]
      apply flatMap_filter_mem
      intro v hv
      rw [positions_of_not_mem]
      · rfl
      · intro hm
        apply hv
        unfold takeIdx at hm
        rw [List.mem_filterMap] at hm
        obtain ⟨i, _, hi⟩ := hm
        exact List.mem_of_getElem? hi

theorem mem_positions {v : ℚ} {l : List ℚ} {i : ℕ} : i ∈ positions v l ↔ l[i]? = some v := by
  unfold positions
  rw [List.mem_filter, List.mem_range, decide_eq_true_eq]
  constructor
  · exact fun h => h.2
  · intro h
    exact ⟨(List.getElem?_eq_some_iff.1 h).1, h⟩

theorem takeIdx_positions {l : List ℚ} {v : ℚ} {ix : List ℕ} (h : ∀ i ∈ ix, l[i]? = some v) :
    takeIdx l ix = List.replicate ix.length v := by
  induction ix with
  | nil => rfl
  | cons i ix ih =>
    have := ih fun j hj => h j (by simp [hj])
    unfold takeIdx at this ⊢
    rw [List.filterMap_cons, h i (by simp), this]; rfl

theorem positions_length (l : List ℚ) (v : ℚ) : (positions v l).length = l.count v := by
  unfold positions
  rw [← List.countP_eq_length_filter]
  induction l with
  | nil => rfl
  | cons a r ih =>
    rw [List.length_cons, List.range_succ_eq_map, List.countP_cons, List.countP_map, List.count_cons]
    have : ((fun i => decide ((a :: r)[i]? = some v)) ∘ Nat.succ) = fun i => decide (r[i]? = some v) := by
      funext i; simp
    rw [this, ih]
    simp

/-- Labels picked by ordering: each requested value once per occurrence. -/
theorem takeIdx_order {l : List ℚ} {f : ℚ → List ℕ} (hf : ∀ v, (f v).Perm (positions v l)) (find : List ℚ) :
    takeIdx l (find.flatMap f) = find.flatMap fun v => List.replicate (l.count v) v := by
  rw [takeIdx_flatMap]
  congr 1
  funext v
  rw [takeIdx_positions fun i hi => mem_positions.1 ((hf v).mem_iff.1 hi), (hf v).length_eq, positions_length]

end Verif
