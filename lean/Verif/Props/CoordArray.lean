import Verif.Proof.Order
import Verif.Props.CoordRange
/-!
# Properties C04 - C08 and C14, C15 (array coordinates)
-/
namespace Verif
open Spec

/-- **C14** an array is represented exactly when it is storable: at most one sample, an exact progression, or
not nearly evenly spaced. Missing from the full statement: nearly even arrays, where it is false
(`C14_snap_violated`, `C14_raises_violated`). -/
theorem C14_represents_partial (kind : Kind) (data : List ℚ) (h : Storable data) :
    ∃ d, getCoordData kind data = .ok d ∧ d.labels = data.map some ∧ d.length = data.length := by
  by_cases h1 : data.length ≤ 1
  · match data, h1 with
    | [], _ => exact ⟨.part 0, rfl, rfl, rfl⟩
    | [x], _ => exact ⟨.mono [x], rfl, rfl, rfl⟩
    | _ :: _ :: _, h1 => simp at h1
  · rcases h with h | ⟨s, d, n, hd, rfl⟩ | h
    · exact absurd h h1
    · have hn : 2 ≤ n := by rw [progression_length] at h1; omega
      refine ⟨_, getCoordData_progression kind s d n hd hn none, ?_, ?_⟩
      · simp only [Coord.labels]
        rw [RangeCoord.Valid.values_eq (c := ⟨s, s + d * n, d, n⟩) ⟨hd, by simp only; omega, rfl⟩]
      · simp [Coord.length, progression_length]
    · refine ⟨_, getCoordData_stored (by omega) h none, ?_, ?_⟩ <;> split_ifs <;> rfl
example : Storable [3, 5, 7, 9] := Or.inr (Or.inl ⟨3, 2, 4, by norm_num, by decide +kernel⟩)
example : Storable [3, 5, 4] := by
  refine Or.inr (Or.inr (Or.inl ?_))
  rintro (h | h)
  · revert h; decide +kernel
  · revert h; decide +kernel
example : Storable [0, 1, 3] := by
  refine Or.inr (Or.inr (Or.inr ?_))
  rintro ⟨m, h⟩
  have h1 := abs_le.1 (h 0 0 1 rfl rfl)
  have h2 := abs_le.1 (h 1 1 3 rfl rfl)
  rcases abs_cases m with ⟨h3, h4⟩ | ⟨h3, h4⟩ <;> rw [h3] at h1 h2 <;> norm_num at h1 h2 <;> linarith

/-- **C14** for every array: if a coordinate comes out it has the array's length and starts at its first
sample; it is declared sorted (reverse sorted) only if the array is strictly increasing (decreasing) or has
one sample; evenly sampled only if the array is nearly evenly spaced. Only `float` arrays can raise. -/
theorem C14_declared_partial (kind : Kind) (data : List ℚ) (hne : data ≠ []) :
    (∃ d, getCoordData kind data = .ok d ∧ d.Wf ∧ d.length = data.length ∧
      d.labels.head? = some data.head? ∧
      (d.isSorted = true → data.Pairwise (· < ·)) ∧ (d.isReverse = true → data.Pairwise (· > ·)) ∧
      (∀ r, d = .range r → NearlyEven data)) ∨
    (kind = .float ∧ getCoordData kind data = .error .assertionError ∧ NearlyEven data) := by
  by_cases h1 : data.length ≤ 1
  · match data, hne, h1 with
    | [x], _, _ =>
      left
      refine ⟨.mono [x], rfl, ⟨Or.inl (by simp), by simp⟩, rfl, rfl, ?_, ?_, ?_⟩
      · intro _; simp
      · intro _; simp
      · intro r hr; cases hr
    | _ :: _ :: _, _, h1 => simp at h1
  · have h2 : 2 ≤ data.length := by omega
    rcases getCoordData_cases kind h2 none with ⟨h, hs⟩ | ⟨h, hs⟩ | ⟨hs, hn, d, hd, h⟩
    · left
      refine ⟨_, h, hne, rfl, by simp [Coord.labels, List.head?_map, List.head?_eq_some_head hne], ?_, ?_, ?_⟩
      · intro hh; simp [Coord.isSorted] at hh
      · intro hh; simp [Coord.isReverse] at hh
      · intro r hr; cases hr
    · left
      refine ⟨_, h, ⟨hs, hne⟩, rfl, by simp [Coord.labels, List.head?_map, List.head?_eq_some_head hne], ?_, ?_, ?_⟩
      · intro hh
        rcases hs with hs | hs
        · exact hs
        · rw [Coord.isSorted, isSorted_of_dec hs h2] at hh; simp at hh
      · intro hh
        rcases hs with hs | hs
        · rw [Coord.isReverse, isReverse_of_inc hs] at hh; simp at hh
        · exact hs
      · intro r hr; cases hr
    · have hsg := diff_sign hd
      have hd0 : d ≠ 0 := by
        rcases hs with h | h
        · exact (hsg.1 h).ne'
        · exact (hsg.2 h).ne
      rcases h with h | ⟨h, h'⟩
      · left
        have hval : (⟨data.getD 0 0, data.getD 0 0 + d * data.length, d, data.length⟩ : RangeCoord).Valid :=
          ⟨hd0, by simp only; omega, rfl⟩
        refine ⟨_, h, hval, rfl, ?_, ?_, ?_, fun _ _ => hn⟩
        · simp only [Coord.labels, hval.values_eq, progression]
          match data, hne with
          | x :: r, _ => simp [List.range_succ_eq_map]
        · intro hh
          have : 0 ≤ d := by simpa [Coord.isSorted, RangeCoord.sorted] using hh
          rcases hs with hs | hs
          · exact hs
          · exact absurd (hsg.2 hs) (not_lt.2 this)
        · intro hh
          have : d < 0 := by simpa [Coord.isReverse, RangeCoord.reverseSorted] using hh
          rcases hs with hs | hs
          · exact absurd (hsg.1 hs) (not_lt.2 this.le)
          · exact hs
      · exact Or.inr ⟨h, h', hn⟩
example : ([3, 5, 4] : List ℚ) ≠ [] := by simp

/-- **C14 violated**: nearly even data is silently replaced by an even grid, here in integers. The labels of
the second and third sample change. -/
theorem C14_snap_violated : ∃ d, getCoordData .int [0, 1000, 2001] = .ok d ∧
    d.labels = [some 0, some 1001, some 2002] := ⟨.range ⟨0, 3003, 1001, 3⟩, by decide +kernel, by decide +kernel⟩

/-- 1000000, then 31 samples spaced by 1 and 30 spaced by 1.002. -/
def driftData : List ℚ :=
  (List.range 32).map (fun i : ℕ => 1000000 + (i : ℚ)) ++
  (List.range 30).map (fun i : ℕ => 1000031 + ((i : ℚ) + 1) * (1002 / 1000))

/-- **C14 violated**: building a coordinate from a legitimate strictly increasing float array can fail with a
bare AssertionError (the even grid has one sample too many and `change_length` cannot shorten it). -/
theorem C14_raises_violated : strictInc driftData = true ∧
    getCoordData .float driftData = .error .assertionError := by
  constructor <;> decide +kernel

/-- **C04** the indexer returned by selecting from a strictly monotonic coordinate picks exactly the samples
between the limits, in order; the returned coordinate is `get_coord` of exactly those samples. -/
theorem C04_select_exact (kind : Kind) (l : List ℚ) (hl : StrictMono' l) (a b : Option ℚ) :
    ∃ sl, pySlice l sl = .ok (samplesBetween 0 a b l) ∧
      MonoCoord.select kind l (a, b) = (getCoordData kind (samplesBetween 0 a b l)).map (·, sl) :=
  MonoCoord.select_spec kind l hl a b
example : StrictMono' [9, 4, 3, 1] ∧ samplesBetween 0 (some 1) (some 4) [9, 4, 3, 1] = [4, 3, 1] :=
  ⟨Or.inr (by decide +kernel), by decide +kernel⟩

/-- **C04** the labels of the returned coordinate, when what is kept is storable. Missing: nearly even
remainders, where it is false (`C04_labels_violated`). -/
theorem C04_labels_partial (kind : Kind) (l : List ℚ) (hl : StrictMono' l) (a b : Option ℚ)
    (hk : Storable (samplesBetween 0 a b l)) :
    ∃ d sl, MonoCoord.select kind l (a, b) = .ok (d, sl) ∧
      d.labels = (samplesBetween 0 a b l).map some ∧ pySlice l sl = .ok (samplesBetween 0 a b l) := by
  obtain ⟨sl, h1, h2⟩ := C04_select_exact kind l hl a b
  obtain ⟨d, h3, h4, _⟩ := C14_represents_partial kind _ hk
  exact ⟨d, sl, by rw [h2, h3]; rfl, h4, h1⟩
example : StrictMono' [9, 4, 3, 1] ∧ Storable (samplesBetween 0 (some 3) (some 4) [9, 4, 3, 1]) :=
  ⟨Or.inr (by decide +kernel), Or.inr (Or.inl ⟨4, -1, 2, by norm_num, by decide +kernel⟩)⟩

/-- **C04 violated** for labels: selecting from a monotonic coordinate relabels a surviving sample, 1000
becomes 1001. -/
theorem C04_labels_violated :
    getCoordData .int [0, 1000, 2001, 5000] = .ok (.mono [0, 1000, 2001, 5000]) ∧
    ∃ d sl, MonoCoord.select .int [0, 1000, 2001, 5000] (none, some 3000) = .ok (d, sl) ∧
      d.labels = [some 0, some 1001, some 2002] ∧ pySlice [0, 1000, 2001, 5000] sl = .ok [0, 1000, 2001] :=
  ⟨by decide +kernel, .range ⟨0, 3003, 1001, 3⟩, ⟨none, some 3, none⟩, by decide +kernel, by decide +kernel, by decide +kernel⟩

/-- **C05** selecting from any array coordinate (unsorted, repeated values) keeps exactly the samples between
the limits in their original order, when they are storable or all samples are kept. -/
theorem C05_array_select_partial (kind : Kind) (l : List ℚ) (hne : l ≠ []) (a b : Option ℚ)
    (hk : Storable (samplesBetween 0 a b l) ∨ samplesBetween 0 a b l = l) :
    ∃ d x, ArrCoord.select kind l (a, b) = .ok (d, x) ∧
      d.labels = (samplesBetween 0 a b l).map some ∧ x.apply l = .ok (samplesBetween 0 a b l) := by
  obtain ⟨h1, h2, h3⟩ := ArrCoord.select_spec kind l a b
  by_cases hnil : samplesBetween 0 a b l = []
  · refine ⟨_, _, h1 hnil, ?_, ?_⟩
    · rw [hnil]; rfl
    · have : maskIdx l (l.map fun x => decide (Between 0 a b x)) = [] := by rw [maskIdx_filter]; exact hnil
      rw [hnil]; simp [Indexer.apply, this]
  · by_cases hall : samplesBetween 0 a b l = l
    · refine ⟨_, _, h2 hne hall, ?_, ?_⟩
      · rw [hall]; rfl
      · rw [hall]; exact pySlice_all l
    · obtain ⟨ix, hix, hD, hs⟩ := h3 hnil hall
      have hst : Storable (samplesBetween 0 a b l) := hk.resolve_right hall
      obtain ⟨d, h4, h5, _⟩ := C14_represents_partial kind _ hst
      refine ⟨d, .ints (ix.map fun i : ℕ => (i : ℤ)), ?_, h5, ?_⟩
      · rw [hs]
        have h4' : getCoordData kind (l.filter fun x => decide (Between 0 a b x)) = .ok d := h4
        rw [h4']; rfl
      · simp only [Indexer.apply]
        rw [takeInts_eq l ix hix, hD l rfl, maskIdx_filter]; rfl
example : ([3, 9, 3, 1] : List ℚ) ≠ [] ∧ samplesBetween 0 (some 4) none [3, 9, 3, 1] = [9] ∧
    Storable (samplesBetween 0 (some 4) none [3, 9, 3, 1]) :=
  ⟨by simp, by decide +kernel, Or.inl (by decide +kernel)⟩

/-- **C05** the indexer of an array selection picks exactly the samples between the limits, always. -/
theorem C05_array_indexer (kind : Kind) (l : List ℚ) (hne : l ≠ []) (a b : Option ℚ) (d : Coord) (x : Indexer)
    (h : ArrCoord.select kind l (a, b) = .ok (d, x)) : x.apply l = .ok (samplesBetween 0 a b l) := by
  obtain ⟨h1, h2, h3⟩ := ArrCoord.select_spec kind l a b
  by_cases hnil : samplesBetween 0 a b l = []
  · rw [h1 hnil] at h
    cases h
    have : maskIdx l (l.map fun x => decide (Between 0 a b x)) = [] := by rw [maskIdx_filter]; exact hnil
    rw [hnil]; simp [Indexer.apply, this]
  · by_cases hall : samplesBetween 0 a b l = l
    · rw [h2 hne hall] at h
      cases h
      rw [hall]; exact pySlice_all l
    · obtain ⟨ix, hix, hD, hs⟩ := h3 hnil hall
      rw [hs] at h
      cases hg : getCoordData kind (l.filter fun x => decide (Between 0 a b x)) with
      | error e => rw [hg] at h; cases h
      | ok c =>
        rw [hg] at h
        cases h
        simp only [Indexer.apply]
        rw [takeInts_eq l ix hix, hD l rfl, maskIdx_filter]; rfl
example : ArrCoord.select .int [3, 9, 3, 1] (some 2, some 4) = .ok (.arr [3, 3], .ints [0, 2]) := by decide +kernel

/-- A sub-list of an evenly spaced coordinate selected by an interval is storable. -/
theorem storable_of_range (c : RangeCoord) (a b : Option ℚ) (tol : ℚ)
    (h : ∃ d sl, c.select (a, b) = .ok (d, sl) ∧ d.labels = (samplesBetween tol a b c.values).map some ∧
      (sl = ⟨some 0, some 0, none⟩ ∨ ∃ r, d = .range r ∧ r.Valid ∧ r.step = c.step) ∧
      pySlice c.values sl = .ok (samplesBetween tol a b c.values)) :
    Storable (samplesBetween tol a b c.values) := by
  obtain ⟨d, sl, _, h2, h3, h4⟩ := h
  rcases h3 with h3 | ⟨r, rfl, hr, hs⟩
  · left
    subst h3
    have := pySlice_unit c.values 0 0 (some 0) (some 0) (by simp [clipBound]) (by simp [clipBound])
    rw [this] at h4
    simp at h4
    simp [h4]
  · right; left
    refine ⟨r.start, r.step, r.len, hr.step_ne, ?_⟩
    simp only [Coord.labels, hr.values_eq] at h2
    exact (List.map_injective_iff.2 (Option.some_injective ℚ) h2).symm

/-- **C05** representation independence: for integer (or nanosecond) labels and limits, selecting from an
evenly sampled coordinate, from the monotonic array of the same labels and from the plain array of the same
labels gives the same labels and the same picked samples. -/
theorem C05_representation_independent (kind : Kind) (c : RangeCoord) (hc : BuiltRange c) (a b : Option ℚ)
    (hstart : ∃ z : ℤ, c.start = z) (hstep : ∃ z : ℤ, c.step = z) (hsmall : |c.step| < 2 * 10 ^ 10)
    (ha : ∀ v, a = some v → ∃ z : ℤ, v = z) (hb : ∀ v, b = some v → ∃ z : ℤ, v = z) :
    ∃ d1 s1 d2 s2 d3 x3 kept, c.select (a, b) = .ok (d1, s1) ∧
      MonoCoord.select kind c.values (a, b) = .ok (d2, s2) ∧
      ArrCoord.select kind c.values (a, b) = .ok (d3, x3) ∧
      kept = samplesBetween 0 a b c.values ∧
      d1.labels = kept.map some ∧ d2.labels = kept.map some ∧ d3.labels = kept.map some ∧
      pySlice c.values s1 = .ok kept ∧ pySlice c.values s2 = .ok kept ∧ x3.apply c.values = .ok kept := by
  obtain ⟨d1, s1, h1, h2, h3⟩ := C03_select_exact_int c hc a b hstart hstep hsmall ha hb
  have hv := hc.valid
  have hst : Storable (samplesBetween 0 a b c.values) := by
    obtain ⟨d, sl, g1, g2, g3, g4⟩ := RangeCoord.select_spec hc.valid a b
    rw [h1] at g1
    cases g1
    exact storable_of_range c a b 0 ⟨d1, s1, h1, h2, g4, h3⟩
  have hmono : StrictMono' c.values := by rw [hv.values_eq]; exact progression_strict _ _ _ hv.step_ne
  have hne : c.values ≠ [] := by
    intro h
    have := hv.length_values
    rw [h] at this
    have := hv.len_pos
    simp at *; omega
  obtain ⟨d2, s2, g1, g2, g3⟩ := C04_labels_partial kind c.values hmono a b hst
  obtain ⟨d3, x3, k1, k2, k3⟩ := C05_array_select_partial kind c.values hne a b (Or.inl hst)
  exact ⟨d1, s1, d2, s2, d3, x3, _, h1, g1, k1, rfl, h2, g2, k2, h3, g3, k3⟩
example : BuiltRange exDown ∧ (∃ z : ℤ, exDown.start = z) ∧ (∃ z : ℤ, exDown.step = z) ∧ |exDown.step| < 2 * 10 ^ 10 :=
  ⟨exDown_built, ⟨14, by norm_num [exDown]⟩, ⟨-3, by norm_num [exDown]⟩, by norm_num [exDown]⟩

/-! ### sorting -/

/-- A stable argsort, showing that `IsArgsort` can be met. -/
def stableArgsort (l : List ℚ) : List ℕ :=
  (l.zipIdx.insertionSort fun p q => p.1 ≤ q.1).map (·.2)

theorem stableArgsort_spec : IsArgsort stableArgsort := by
  intro l
  have hp : (l.zipIdx.insertionSort fun p q : ℚ × ℕ => p.1 ≤ q.1).Perm l.zipIdx := List.perm_insertionSort _ _
  have hmem : ∀ p ∈ (l.zipIdx.insertionSort fun p q : ℚ × ℕ => p.1 ≤ q.1), l[p.2]? = some p.1 := by
    intro p hp'
    have := hp.mem_iff.1 hp'
    exact List.mem_zipIdx_iff_getElem?.1 this
  constructor
  · have := hp.map (·.2)
    unfold stableArgsort
    refine this.trans ?_
    rw [List.zipIdx_map_snd, ← List.range_eq_range']
  · have : takeIdx l (stableArgsort l) = (l.zipIdx.insertionSort fun p q : ℚ × ℕ => p.1 ≤ q.1).map (·.1) := by
      unfold takeIdx stableArgsort
      rw [List.filterMap_map]
      rw [← List.filterMap_eq_map]
      apply List.filterMap_congr
      intro p hp'
      simp [hmem p hp']
    rw [this, List.pairwise_map]
    have : Std.Total (fun p q : ℚ × ℕ => p.1 ≤ q.1) := ⟨fun a b => le_total a.1 b.1⟩
    have : IsTrans (ℚ × ℕ) (fun p q : ℚ × ℕ => p.1 ≤ q.1) := ⟨fun a b c h1 h2 => le_trans h1 h2⟩
    exact List.pairwise_insertionSort (fun p q : ℚ × ℕ => p.1 ≤ q.1) l.zipIdx

/-- **C06** sorting an array coordinate: the indexer permutes the old values into the requested order, and the
returned coordinate is `get_coord` of those values. -/
theorem C06_sort_array (argsort : List ℚ → List ℕ) (ha : IsArgsort argsort) (kind : Kind) (l : List ℚ) (reverse : Bool) :
    ∃ x l', x.apply l = .ok l' ∧ l'.Perm l ∧ l'.Pairwise (fun x y => if reverse then y ≤ x else x ≤ y) ∧
      ArrCoord.sort argsort kind l reverse = (getCoordData kind l').map (·, x) := by
  obtain ⟨h1, h2⟩ := ha l
  have hfull : ∀ (a : List ℕ), a.Perm (List.range l.length) → (takeIdx l a).Perm l := by
    intro a hp
    have : (takeIdx l a).Perm (takeIdx l (List.range l.length)) := hp.filterMap _
    refine this.trans ?_
    have := takeIdx_range' l 0 l.length
    rw [← List.range_eq_range'] at this
    rw [this]; simp
  set a := if reverse then (argsort l).reverse else argsort l with hadef
  have hap : a.Perm (List.range l.length) := by
    rw [hadef]; split_ifs
    · exact (List.reverse_perm _).trans h1
    · exact h1
  refine ⟨.ints (a.map fun i : ℕ => (i : ℤ)), takeIdx l a, ?_, hfull a hap, ?_, ?_⟩
  · exact takeInts_eq l a fun i hi => List.mem_range.1 (hap.mem_iff.1 hi)
  · cases reverse with
    | true =>
      have : takeIdx l a = (takeIdx l (argsort l)).reverse := by
        rw [hadef]; simp [takeIdx, List.filterMap_reverse]
      rw [this, List.pairwise_reverse]
      simpa using h2
    | false => simpa [hadef] using h2
  · unfold ArrCoord.sort
    simp only [bind, Except.bind, pure, Except.pure]
    rw [← hadef]
    cases getCoordData kind (takeIdx l a) <;> rfl
example : IsArgsort stableArgsort := stableArgsort_spec

/-- **C06** labels after sorting an array coordinate with storable sorted values. -/
theorem C06_sort_array_labels_partial (argsort : List ℚ → List ℕ) (ha : IsArgsort argsort) (kind : Kind) (l : List ℚ)
    (reverse : Bool) (hk : Storable (if reverse then (sortQ l).reverse else sortQ l)) :
    ∃ d x, ArrCoord.sort argsort kind l reverse = .ok (d, x) ∧
      d.labels = (if reverse then (sortQ l).reverse else sortQ l).map some := by
  obtain ⟨x, l', _, hp, hs, h⟩ := C06_sort_array argsort ha kind l reverse
  have : l' = if reverse then (sortQ l).reverse else sortQ l := by
    cases reverse with
    | true =>
      simp only [if_true] at hs ⊢
      apply List.Perm.eq_of_pairwise (le := fun x y => y ≤ x) _ hs
      · rw [List.pairwise_reverse]; exact sortQ_sorted l
      · exact hp.trans ((sortQ_perm l).symm.trans (List.reverse_perm _).symm)
      · intro a b _ _ h1 h2; exact le_antisymm h2 h1
    | false =>
      simp only [Bool.false_eq_true, if_false] at hs ⊢
      apply List.Perm.eq_of_pairwise (le := fun x y => x ≤ y) _ hs (sortQ_sorted l) (hp.trans (sortQ_perm l).symm)
      intro a b _ _ h1 h2; exact le_antisymm h1 h2
  rw [this] at h
  obtain ⟨d, h4, h5, _⟩ := C14_represents_partial kind _ hk
  exact ⟨d, x, by rw [h, h4]; rfl, h5⟩
example : Storable (if false then (sortQ [3, 1, 5]).reverse else sortQ [3, 1, 5]) :=
  Or.inr (Or.inl ⟨1, 2, 3, by norm_num, by decide +kernel⟩)

/-- **C06 violated** for labels of nearly even data: sorting 2001, 0, 1000 gives labels 0, 1001, 2002. -/
theorem C06_sort_labels_violated : ∃ d x, ArrCoord.sort stableArgsort .int [2001, 0, 1000] false = .ok (d, x) ∧
    d.labels = [some 0, some 1001, some 2002] :=
  ⟨.range ⟨0, 3003, 1001, 3⟩, .ints [1, 2, 0], by decide +kernel, by decide +kernel⟩

/-! ### indexer simplification -/

/-- **C15** replacing an index array by a slice picks the same elements, for index arrays without negative
entries. Missing: negative entries, where it is false (`C15_negative_violated`). -/
theorem C15_array_to_slice_partial {α} (l : List α) (ix : List ℤ) (h : ∀ i ∈ ix, 0 ≤ i ∧ i < l.length) :
    (maybeArrayToSlice ix l.length).apply l = takeInts l ix := maybeArrayToSlice_apply l ix h
example : ∀ i ∈ ([1, 2, 3] : List ℤ), 0 ≤ i ∧ i < ((["a", "b", "c", "d"] : List String).length : ℤ) := by decide

/-- **C15 violated**: with negative sample numbers the slice selects nothing, or everything in the wrong
order. `order(samples=True)` reaches this: the labels are right, the data indexer is not. -/
theorem C15_negative_violated :
    takeInts ["a", "b", "c", "d"] [-2, -1] = .ok ["c", "d"] ∧
    (maybeArrayToSlice [-2, -1] 4).apply ["a", "b", "c", "d"] = .ok [] ∧
    takeInts ["a", "b", "c"] [-1, 0, 1] = .ok ["c", "a", "b"] ∧
    (maybeArrayToSlice [-1, 0, 1] 3).apply ["a", "b", "c"] = .ok ["a", "b", "c"] ∧
    (∃ x, (Coord.arr [5, 8, 2, 9]).orderSamples [-2, -1] = .ok ([some 2, some 9], x) ∧
      x.apply ["a", "b", "c", "d"] = .ok []) := by
  refine ⟨by decide +kernel, by decide +kernel, by decide +kernel, by decide +kernel, .slice ⟨some (-2), some 0, none⟩,
    by decide +kernel, by decide +kernel⟩

/-- **C15** `_to_slice`: a single sample number selects that sample; `...` and `None` everything. The pair
(a, b) means the half-open Python slice. -/
theorem C15_to_slice {α} (l : List α) :
    (∀ i : ℤ, ∃ r, pySlice l (toSlice (.int i)) = .ok r ∧ r = ((pyIndex l i).toList)) ∧
    pySlice l (toSlice .all) = .ok l ∧
    (∀ a b : ℕ, pySlice l (toSlice (.pair (some a) (some b))) = .ok ((l.take b).drop a)) := by
  refine ⟨?_, pySlice_all l, ?_⟩
  · intro i
    refine ⟨_, ?_, rfl⟩
    simp only [toSlice]
    by_cases hm : i = -1
    · subst hm
      simp only [if_true]
      rw [pySlice_unit l (l.length - 1) l.length (some (-1)) none (by simp [clipBound]; omega) (by simp)]
      unfold pyIndex
      rw [if_neg (by omega)]
      by_cases h0 : l = []
      · subst h0; simp
      · have hl : 0 < l.length := List.length_pos_iff.2 h0
        rw [if_pos (by omega)]
        have : ((-1 : ℤ) + l.length).toNat = l.length - 1 := by omega
        have h2 : l.length - (l.length - 1) = 1 := by omega
        rw [this, List.getElem?_eq_getElem (by omega), h2, List.drop_eq_getElem_cons (by omega)]
        simp only [List.take_succ_cons, List.take_zero, Option.toList_some]
    · rw [if_neg hm]
      unfold pyIndex
      by_cases h0 : 0 ≤ i
      · rw [if_pos h0]
        obtain ⟨k, rfl⟩ := Int.eq_ofNat_of_zero_le h0
        by_cases hk : k < l.length
        · rw [pySlice_unit l k (k + 1) _ _ (by simp [clipBound]; omega) (by simp [clipBound]; omega)]
          simp only [Int.toNat_natCast, List.getElem?_eq_getElem hk, List.drop_eq_getElem_cons hk]
          have : k + 1 - k = 1 := by omega
          rw [this]; simp only [List.take_succ_cons, List.take_zero, Option.toList_some]
        · rw [pySlice_unit l l.length l.length _ _ (by simp [clipBound]; omega) (by simp [clipBound]; omega)]
          simp [List.getElem?_eq_none (not_lt.1 hk)]
      · rw [if_neg h0]
        by_cases hn : -(l.length : ℤ) ≤ i
        · rw [if_pos hn]
          have hk : (i + l.length).toNat < l.length := by omega
          rw [pySlice_unit l (i + l.length).toNat ((i + l.length).toNat + 1) _ _
            (by simp [clipBound, not_le.1 h0])
            (by simp only [Option.map_some, Option.getD_some, clipBound]; rw [if_pos (by omega)]; push_cast; omega)]
          simp only [List.getElem?_eq_getElem hk, List.drop_eq_getElem_cons hk]
          have : (i + l.length).toNat + 1 - (i + l.length).toNat = 1 := by omega
          rw [this]; simp only [List.take_succ_cons, List.take_zero, Option.toList_some]
        · rw [if_neg hn]
          rw [pySlice_unit l 0 0 _ _ (by simp [clipBound, not_le.1 h0]; omega)
            (by simp only [Option.map_some, Option.getD_some, clipBound]; rw [if_pos (by omega)]; push_cast; omega)]
          simp
  · intro a b
    unfold toSlice
    by_cases ha : a ≤ l.length
    · by_cases hb : b ≤ l.length
      · rw [pySlice_unit l a b _ _ (by simp [clipBound]; omega) (by simp [clipBound]; omega), List.drop_take]
      · rw [pySlice_unit l a l.length _ _ (by simp [clipBound]; omega) (by simp [clipBound]; omega)]
        rw [List.take_of_length_le (by simp), List.take_of_length_le (by omega)]
    · rw [pySlice_unit l l.length (min b l.length) _ _ (by simp [clipBound]; omega) (by simp [clipBound])]
      congr 1
      rw [List.drop_length, List.drop_eq_nil_of_le]
      · simp
      · simp; omega

/-! ### ordering and aligning -/

theorem orderInds_lt {argsort : List ℚ → List ℕ} (ha : IsArgsort argsort) {c : Coord} (hc : c.Wf) (find : List ℚ) :
    ∀ i ∈ c.orderInds argsort find, i < c.vals.length := by
  obtain ⟨f, hf, h⟩ := orderInds_spec ha hc find
  intro i hi
  rw [h, List.mem_flatMap] at hi
  obtain ⟨v, _, hi⟩ := hi
  have := mem_positions.1 ((hf v).mem_iff.1 hi)
  exact (List.getElem?_eq_some_iff.1 this).1

theorem vals_length {c : Coord} (hc : c.Wf) (hp : ∀ n, c ≠ .part n) : c.vals.length = c.length := by
  cases c with
  | range r => exact RangeCoord.Valid.length_values hc
  | mono vs => rfl
  | arr vs => rfl
  | part n => exact absurd rfl (hp n)

/-- **C07** ordering by values. The indexer applied to any data of the coordinate's length picks, for each
requested value in request order, exactly the positions holding it (each once); the returned coordinate is
that value list: as such for array coordinates, through `get_coord` for evenly sampled ones. -/
theorem C07_order (argsort : List ℚ → List ℕ) (ha : IsArgsort argsort) (kind : Kind) (c : Coord) (hc : c.Wf)
    (hp : ∀ n, c ≠ .part n) (find : List ℚ) :
    ∃ (f : ℚ → List ℕ) (x : Indexer), (∀ v, (f v).Perm (positions v c.vals)) ∧
      (∀ {α : Type} (D : List α), D.length = c.length → x.apply D = .ok (takeIdx D (find.flatMap f))) ∧
      (match c with
        | .range _ => c.order argsort kind find =
            (getCoordData kind (find.flatMap fun v => List.replicate (c.vals.count v) v)).map (·, x)
        | _ => ∃ d, c.order argsort kind find = .ok (d, x) ∧
            d.labels = (find.flatMap fun v => List.replicate (c.vals.count v) v).map some) := by
  obtain ⟨f, hf, hix⟩ := orderInds_spec ha hc find
  have hlt := orderInds_lt ha hc find
  have hlen := vals_length hc hp
  have hlab : takeIdx c.vals (c.orderInds argsort find) = find.flatMap fun v => List.replicate (c.vals.count v) v := by
    rw [hix]; exact takeIdx_order hf find
  refine ⟨f, maybeArrayToSlice ((c.orderInds argsort find).map fun i : ℕ => (i : ℤ)) c.length, hf, ?_, ?_⟩
  · intro α D hD
    rw [← hD, maybeArrayToSlice_apply D, takeInts_eq, hix]
    · intro i hi; rw [hD, ← hlen]; exact hlt i hi
    · intro i hi
      obtain ⟨j, hj, rfl⟩ := List.mem_map.1 hi
      have := hlt j hj
      omega
  · cases c with
    | range r =>
      simp only [Coord.order, bind, Except.bind, Coord.getInts, pure, Except.pure]
      have : takeIdx r.values ((Coord.range r).orderInds argsort find) =
        find.flatMap fun v => List.replicate ((Coord.range r).vals.count v) v := hlab
      rw [this]
      cases getCoordData kind (find.flatMap fun v => List.replicate ((Coord.range r).vals.count v) v) <;> rfl
    | mono vs =>
      refine ⟨.mono (takeIdx vs ((Coord.mono vs).orderInds argsort find)), rfl, ?_⟩
      simp only [Coord.labels]; rw [← hlab]; rfl
    | arr vs =>
      refine ⟨.arr (takeIdx vs ((Coord.arr vs).orderInds argsort find)), rfl, ?_⟩
      simp only [Coord.labels]; rw [← hlab]; rfl
    | part n => exact absurd rfl (hp n)
example : (Coord.arr [3, 1, 3]).Wf ∧ (Coord.arr [3, 1, 3]).order stableArgsort .int [3, 7, 1] =
    .ok (.arr [3, 3, 1], .ints [0, 2, 1]) := ⟨by simp [Coord.Wf], by decide +kernel⟩

/-- **C07** ordering by sample numbers: each requested number inside the coordinate is used, once per request and
in request order, and data and labels move together. Missing: negative sample numbers, where it is false
(`C07_order_samples_violated`, `C15_negative_violated`). -/
theorem C07_order_samples_partial (c : Coord) (ix : List ℕ) :
    ∃ x : Indexer, c.orderSamples (ix.map fun i : ℕ => (i : ℤ)) =
        .ok (takeIdx c.labels (ix.filter fun i => decide (i < c.labels.length)), x) ∧
      ∀ {α : Type} (D : List α), D.length = c.labels.length →
        x.apply D = .ok (takeIdx D (ix.filter fun i => decide (i < D.length))) := by
  have hlen : c.labels.length = c.length := by
    cases c <;> simp only [Coord.labels, Coord.length, RangeCoord.values, List.length_map, List.length_replicate]
    split_ifs with h1 <;> simp [h1]
  have hinds : c.orderSampleInds (ix.map fun i : ℕ => (i : ℤ)) =
      (ix.filter fun i => decide (i < c.length)).map fun i : ℕ => (i : ℤ) := by
    unfold Coord.orderSampleInds
    rw [List.filter_map]
    rfl
  have hlt : ∀ i ∈ ix.filter fun i => decide (i < c.length), i < c.length := fun i hi => by
    simpa using (List.mem_filter.1 hi).2
  refine ⟨maybeArrayToSlice ((ix.filter fun i => decide (i < c.length)).map fun i : ℕ => (i : ℤ)) c.length, ?_, ?_⟩
  · unfold Coord.orderSamples
    simp only [hinds]
    rw [takeInts_eq _ _ (fun i hi => by rw [hlen]; exact hlt i hi), hlen]
    rfl
  · intro α D hD
    rw [hlen] at hD
    rw [← hD, maybeArrayToSlice_apply D, takeInts_eq]
    · intro i hi; rw [← hD] at hlt; exact hlt i (by simpa using hi)
    · intro i hi
      obtain ⟨j, hj, rfl⟩ := List.mem_map.1 hi
      rw [← hD] at hlt
      have := hlt j (by simpa using hj)
      omega
example : (Coord.arr [5, 8, 2]).orderSamples [2, 0, 7, 2] = .ok ([some 2, some 5, some 2], .ints [2, 0, 2]) := by
  decide +kernel

/-- **C07 violated** for negative sample numbers: -3 is the first of three samples but is dropped, while -1 and -2
are accepted. -/
theorem C07_order_samples_violated :
    takeInts (Coord.arr [5, 8, 2]).labels [-1, -2, -3] = .ok [some 2, some 8, some 5] ∧
    (Coord.arr [5, 8, 2]).orderSamples [-1, -2, -3] = .ok ([some 2, some 8], .ints [-1, -2]) := by
  decide +kernel

/-- **C07 violated** for labels of evenly sampled coordinates: asking 0..2001 for 0, 1000 and 2001 labels the
picked samples 0, 1001 and 2002. -/
theorem C07_range_labels_violated : ∃ c x, mkRange 0 2002 1 = .ok c ∧
    (Coord.range c).order stableArgsort .int [0, 1000, 2001] = .ok (.range ⟨0, 3003, 1001, 3⟩, x) ∧
    x.apply c.values = .ok [0, 1000, 2001] := by
  have hv : (⟨0, 2002, 1, 2002⟩ : RangeCoord).Valid := ⟨by norm_num, by norm_num, by norm_num⟩
  have hwf : (Coord.range ⟨0, 2002, 1, 2002⟩).Wf := hv
  obtain ⟨f, x, hf, hx, ho⟩ := C07_order stableArgsort stableArgsort_spec .int _ hwf (by simp) [0, 1000, 2001]
  have hcount : ∀ v, v ∈ ([0, 1000, 2001] : List ℚ) → (Coord.range ⟨0, 2002, 1, 2002⟩).vals.count v = 1 := by
    intro v hvm
    apply List.count_eq_one_of_mem
    · simp only [Coord.vals, hv.values_eq]
      unfold progression
      apply List.Nodup.map
      · intro i j hij; simpa using hij
      · exact List.nodup_range
    · simp only [Coord.vals, hv.values_eq]
      rw [RangeCoord.mem_progression]
      simp only [List.mem_cons, List.not_mem_nil, or_false] at hvm
      rcases hvm with rfl | rfl | rfl
      · exact ⟨0, by norm_num, by norm_num⟩
      · exact ⟨1000, by norm_num, by norm_num⟩
      · exact ⟨2001, by norm_num, by norm_num⟩
  have hfl : (([0, 1000, 2001] : List ℚ).flatMap fun v => List.replicate ((Coord.range ⟨0, 2002, 1, 2002⟩).vals.count v) v) = [0, 1000, 2001] := by
    simp [List.flatMap_cons, hcount]
  refine ⟨⟨0, 2002, 1, 2002⟩, x, by decide +kernel, ?_, ?_⟩
  · simp only at ho
    rw [ho, hfl]
    rw [show getCoordData .int [0, 1000, 2001] = .ok (.range ⟨0, 3003, 1001, 3⟩) by decide +kernel]
    rfl
  · have := hx (⟨0, 2002, 1, 2002⟩ : RangeCoord).values hv.length_values
    have h2 := takeIdx_order hf [0, 1000, 2001]
    rw [hfl] at h2
    exact this.trans (congrArg Except.ok h2)

theorem flatMap_replicate_count {l find : List ℚ} (hn : l.Nodup) (h : ∀ v ∈ find, v ∈ l) :
    (find.flatMap fun v => List.replicate (l.count v) v) = find := by
  induction find with
  | nil => rfl
  | cons v r ih =>
    rw [List.flatMap_cons, ih fun x hx => h x (by simp [hx]), List.count_eq_one_of_mem hn (h v (by simp))]
    rfl

/-- The labels two lists have in common, ascending and without repetition. -/
def commonLabels (l m : List ℚ) : List ℚ := uniqueQ (l.filter fun x => decide (x ∈ m))

/-- **C08** aligning two coordinates without repeated labels: both results carry exactly the sorted common
labels and the indexers pick those labels from each original - when the common labels are storable and the two are not
taken for equal. Missing: nearly even intersections with an evenly sampled coordinate (`C08_violated`), and coordinates
whose labels differ so little that they count as equal (`C08_close_violated`). -/
theorem C08_align_partial (argsort : List ℚ → List ℕ) (ha : IsArgsort argsort) (kind : Kind) (c d : Coord)
    (hc : c.Wf) (hd : d.Wf) (hpc : ∀ n, c ≠ .part n) (hpd : ∀ n, d ≠ .part n) (hne : c.pyEq kind d = false)
    (hnc : c.vals.Nodup) (hnd : d.vals.Nodup) (hst : Storable (commonLabels c.vals d.vals)) :
    ∃ c1 d1 x1 x2, c.alignTo argsort kind d = .ok (c1, d1, x1, x2) ∧
      c1.labels = (commonLabels c.vals d.vals).map some ∧ d1.labels = (commonLabels c.vals d.vals).map some ∧
      x1.apply c.vals = .ok (commonLabels c.vals d.vals) ∧ x2.apply d.vals = .ok (commonLabels c.vals d.vals) ∧
      (commonLabels c.vals d.vals).Pairwise (· < ·) ∧
      (∀ v, v ∈ commonLabels c.vals d.vals ↔ v ∈ c.vals ∧ v ∈ d.vals) := by
  have hmem : ∀ v, v ∈ commonLabels c.vals d.vals ↔ v ∈ c.vals ∧ v ∈ d.vals := by
    intro v; unfold commonLabels; rw [mem_uniqueQ, List.mem_filter]; simp
  have hlt : (commonLabels c.vals d.vals).Pairwise (· < ·) := by
    have h1 := uniqueQ_sorted (c.vals.filter fun x => decide (x ∈ d.vals))
    have h2 := uniqueQ_nodup (c.vals.filter fun x => decide (x ∈ d.vals))
    exact List.Pairwise.imp₂ (fun a b h3 h4 => lt_of_le_of_ne h3 h4) h1 h2
  have key : ∀ (e : Coord), e.Wf → (∀ n, e ≠ .part n) → e.vals.Nodup → (∀ v ∈ commonLabels c.vals d.vals, v ∈ e.vals) →
      ∃ e1 x, e.order argsort kind (commonLabels c.vals d.vals) = .ok (e1, x) ∧
        e1.labels = (commonLabels c.vals d.vals).map some ∧ x.apply e.vals = .ok (commonLabels c.vals d.vals) := by
    intro e he hpe hnde hsub
    obtain ⟨f, x, hf, hx, ho⟩ := C07_order argsort ha kind e he hpe (commonLabels c.vals d.vals)
    have hfl := flatMap_replicate_count hnde hsub
    have hxe : x.apply e.vals = .ok (commonLabels c.vals d.vals) := by
      rw [hx e.vals (vals_length he hpe), takeIdx_order hf, hfl]
    obtain ⟨g, hg1, hg2, _⟩ := C14_represents_partial kind _ hst
    cases e with
    | range r =>
      simp only at ho
      rw [hfl, hg1] at ho
      exact ⟨g, x, ho, hg2, hxe⟩
    | mono vs =>
      simp only at ho
      rw [hfl] at ho
      obtain ⟨e1, h1, h2⟩ := ho
      exact ⟨e1, x, h1, h2, hxe⟩
    | arr vs =>
      simp only at ho
      rw [hfl] at ho
      obtain ⟨e1, h1, h2⟩ := ho
      exact ⟨e1, x, h1, h2, hxe⟩
    | part n => exact absurd rfl (hpe n)
  obtain ⟨c1, x1, h1, h2, h3⟩ := key c hc hpc hnc fun v hv => ((hmem v).1 hv).1
  obtain ⟨d1, x2, g1, g2, g3⟩ := key d hd hpd hnd fun v hv => ((hmem v).1 hv).2
  refine ⟨c1, d1, x1, x2, ?_, h2, g2, h3, g3, hlt, hmem⟩
  have hun : c.alignTo argsort kind d = (do
      let (c1, s1) ← c.order argsort kind (commonLabels c.vals d.vals)
      let (d1, s2) ← d.order argsort kind (commonLabels c.vals d.vals)
      return (c1, d1, s1, s2)) := by
    unfold Coord.alignTo
    rw [if_neg (by rw [hne]; decide)]
    cases c with
    | part n => exact absurd rfl (hpc n)
    | range r => cases d with
      | part n => exact absurd rfl (hpd n)
      | _ => rfl
    | mono r => cases d with
      | part n => exact absurd rfl (hpd n)
      | _ => rfl
    | arr r => cases d with
      | part n => exact absurd rfl (hpd n)
      | _ => rfl
  rw [hun, h1, g1]
  rfl
example : (Coord.arr [3, 1, 7]).Wf ∧ (Coord.range exUp).Wf ∧ ((Coord.arr [3, 1, 8, 5]).vals).Nodup ∧
    commonLabels [3, 14, 8, 5] exUp.values = [5, 8, 14] ∧ (Coord.arr [3, 14, 8, 5]).pyEq .int (Coord.range exUp) = false :=
  ⟨by simp [Coord.Wf], exUp_built.valid, by decide +kernel, by decide +kernel, rfl⟩

/-- **C08 violated**: the two aligned coordinates need not be equal. 0..2001 aligned to 0, 1000, 2001, 5000
gives labels 0, 1001, 2002 on one side and 0, 1000, 2001 on the other. -/
theorem C08_violated :
    getCoordData .int [0, 1000, 2001, 5000] = .ok (.mono [0, 1000, 2001, 5000]) ∧
    ∃ c, mkRange 0 2002 1 = .ok c ∧ ∃ x1 x2, (Coord.mono [0, 1000, 2001, 5000]).alignTo stableArgsort .int (.range c) =
      .ok (.mono [0, 1000, 2001], .range ⟨0, 3003, 1001, 3⟩, x1, x2) := by
  refine ⟨by decide +kernel, ?_⟩
  obtain ⟨c, x, h1, h2, h3⟩ := C07_range_labels_violated
  refine ⟨c, h1, .slice ⟨some 0, some 3, none⟩, x, ?_⟩
  have hc : c = ⟨0, 2002, 1, 2002⟩ := by
    have : mkRange 0 2002 1 = .ok ⟨0, 2002, 1, 2002⟩ := by decide +kernel
    rw [this] at h1; cases h1; rfl
  subst hc
  have hv : (⟨0, 2002, 1, 2002⟩ : RangeCoord).Valid := ⟨by norm_num, by norm_num, by norm_num⟩
  have hmem : ∀ v, v ∈ (⟨0, 2002, 1, 2002⟩ : RangeCoord).values ↔ ∃ i : ℕ, i < 2002 ∧ v = (i : ℚ) := by
    intro v
    rw [hv.values_eq, RangeCoord.mem_progression]
    simp
  have hflt : ([0, 1000, 2001, 5000] : List ℚ).filter (fun x => decide (x ∈ (⟨0, 2002, 1, 2002⟩ : RangeCoord).values)) = [0, 1000, 2001] := by
    have a0 : (0 : ℚ) ∈ (⟨0, 2002, 1, 2002⟩ : RangeCoord).values := (hmem _).2 ⟨0, by norm_num, by norm_num⟩
    have a1 : (1000 : ℚ) ∈ (⟨0, 2002, 1, 2002⟩ : RangeCoord).values := (hmem _).2 ⟨1000, by norm_num, by norm_num⟩
    have a2 : (2001 : ℚ) ∈ (⟨0, 2002, 1, 2002⟩ : RangeCoord).values := (hmem _).2 ⟨2001, by norm_num, by norm_num⟩
    have a3 : ¬ (5000 : ℚ) ∈ (⟨0, 2002, 1, 2002⟩ : RangeCoord).values := by
      intro h
      obtain ⟨i, hi, h⟩ := (hmem _).1 h
      have : i = 5000 := by exact_mod_cast h.symm
      omega
    simp [a0, a1, a2, a3]
  unfold Coord.alignTo
  rw [if_neg (by simp [Coord.pyEq])]
  have hu : uniqueQ ((Coord.mono [0, 1000, 2001, 5000]).vals.filter fun x =>
      decide (x ∈ (Coord.range ⟨0, 2002, 1, 2002⟩).vals)) = [0, 1000, 2001] := by
    have : ((Coord.mono [0, 1000, 2001, 5000]).vals.filter fun x =>
      decide (x ∈ (Coord.range ⟨0, 2002, 1, 2002⟩).vals)) = [0, 1000, 2001] := hflt
    rw [this]; decide +kernel
  simp only [hu, bind, Except.bind]
  rw [h2]
  rw [show (Coord.mono [0, 1000, 2001, 5000]).order stableArgsort .int [0, 1000, 2001] =
    .ok (.mono [0, 1000, 2001], .slice ⟨some 0, some 3, none⟩) by decide +kernel]
  rfl

/-- **C08 violated** (nearly equal coordinates): labels which differ by less than a hundred-thousandth count as equal, so
that both coordinates are returned as they are, though they have only two of three labels in common. -/
theorem C08_close_violated :
    (Coord.mono [0, 100000, 300000]).alignTo stableArgsort .int (.mono [0, 100001, 300000]) =
      .ok (.mono [0, 100000, 300000], .mono [0, 100001, 300000], .slice {}, .slice {}) ∧
    commonLabels [0, 100000, 300000] [0, 100001, 300000] = [0, 300000] := by
  constructor <;> decide +kernel

end Verif
