import Verif.Spec.Snap
import Verif.Proof.Merge
import Verif.Proof.SortPatch
import Verif.Props.CoordLimits
import Mathlib.Tactic.Linarith
import Mathlib.Tactic.Positivity
import Mathlib.Tactic.FieldSimp
/-! # Lemmas: snapping coordinates -/
namespace Verif
open Spec

/-! ### The coordinates sorted -/

theorem sortRelated_others {m : CM} {dim : String} {x : Indexer} : ∀ (l : List String) (e e' : Ents), l.foldlM (m.sortRelated dim x) e = .ok e' →
    ∀ n, n ∉ l → Dict.get? e' n = Dict.get? e n
  | [], e, e', h, n, _ => by cases h; rfl
  | a :: l, e, e', h, n, hn => by
    rw [List.foldlM_cons] at h
    cases h1 : m.sortRelated dim x e a with
    | error er => rw [h1] at h; cases h
    | ok e1 =>
      rw [h1] at h
      have h2 := sortRelated_others l e1 e' h n (fun hh => hn (List.mem_cons_of_mem _ hh))
      obtain ⟨ds, c, c', _, _, h3⟩ := sortRelated_rel e a e1 h1
      rw [h2, h3, Dict.get?_set, if_neg]
      rintro rfl; exact hn List.mem_cons_self

theorem sortStep_named {argsort : List ℚ → List ℕ} {m : CM} {reverse : Bool} {st st' : Ents × List (ℕ × Indexer)} {name : String}
    (h : CM.sortStep argsort reverse m st name = .ok st') :
    ∃ d ds k c r, m.ents.get? name = some (d :: ds, .one k c) ∧ CM.sortCoord argsort k c reverse = .ok r ∧
      Dict.get? st'.1 name = some (d :: ds, .one k r.1) ∧
      ∀ n e c', n ≠ name → m.ents.get? n = some (e, c') → d ∉ e → WellFormed m → Dict.get? st'.1 n = Dict.get? st.1 n := by
  unfold CM.sortStep at h
  split at h
  · rename_i d ds k c hent
    simp only [bind, Except.bind] at h
    split at h
    · cases h
    rename_i r hr
    split at h
    · cases h
    rename_i new hnew
    cases h
    refine ⟨d, ds, k, c, r, hent, hr, ?_, ?_⟩
    · show Dict.get? new name = _
      rw [sortRelated_others _ _ _ hnew name, Dict.get?_set, if_pos rfl]
      rw [List.mem_map]
      rintro ⟨q, hq, rfl⟩
      simp [List.mem_filter] at hq
    · intro n e c' hne hc' hed hw
      show Dict.get? new n = _
      rw [sortRelated_others _ _ _ hnew n, Dict.get?_set, if_neg hne]
      rw [List.mem_map]
      rintro ⟨q, hq, rfl⟩
      rw [List.mem_filter] at hq
      have h1 := Dict.get?_of_mem hw.names hq.1
      rw [h1] at hc'
      have h2 : q.2.1 = e := by cases q with | mk a b => cases hc'; rfl
      have h3 := hq.2
      rw [h2] at h3
      simp at h3
      exact hed h3.1
  · cases h
  · cases h

theorem sortFold_named {argsort : List ℚ → List ℕ} {m : CM} (hw : WellFormed m) {reverse : Bool} :
    ∀ (names : List String) (st st' : Ents × List (ℕ × Indexer)),
      names.Pairwise (fun p q => ∀ d c c', m.ents.get? p = some ([d], c) → m.ents.get? q ≠ some ([d], c')) →
      names.foldlM (CM.sortStep argsort reverse m) st = .ok st' →
      (∀ n ds c, m.ents.get? n = some (ds, c) → n ∉ names → (∀ p ∈ names, ∀ d c', m.ents.get? p = some ([d], c') → d ∉ ds) →
        (∀ p ∈ names, ∀ ds c, m.ents.get? p = some (ds, c) → ds.length ≤ 1) → Dict.get? st'.1 n = Dict.get? st.1 n) ∧
      (∀ n ∈ names, names.Nodup → (∀ p ∈ names, ∀ ds c, m.ents.get? p = some (ds, c) → ds.length ≤ 1) → ∃ d k c r, m.ents.get? n = some ([d], .one k c) ∧ CM.sortCoord argsort k c reverse = .ok r ∧
        Dict.get? st'.1 n = some ([d], .one k r.1)) := by
  intro names
  induction names with
  | nil => intro st st' _ h; cases h; exact ⟨fun _ _ _ _ _ _ _ => rfl, by simp⟩
  | cons a names ih =>
    intro st st' hp h
    rw [List.foldlM_cons] at h
    rw [List.pairwise_cons] at hp
    cases h1 : CM.sortStep argsort reverse m st a with
    | error e => rw [h1] at h; cases h
    | ok st1 =>
      rw [h1] at h
      obtain ⟨i1, i2⟩ := ih st1 st' hp.2 h
      obtain ⟨d, ds, k, c, r, j1, j2, j3, j4⟩ := sortStep_named h1
      have hds : (∀ p ∈ a :: names, ∀ ds c, m.ents.get? p = some (ds, c) → ds.length ≤ 1) → ds = [] := by
        intro hone
        have := hone a List.mem_cons_self _ _ j1
        simpa using this
      constructor
      · intro n e c' hn hnn hfree hone
        rw [i1 n e c' hn (fun hh => hnn (List.mem_cons_of_mem _ hh)) (fun p hp' => hfree p (List.mem_cons_of_mem _ hp')) (fun p hp' => hone p (List.mem_cons_of_mem _ hp'))]
        refine j4 n e c' ?_ hn ?_ hw
        · rintro rfl; exact hnn List.mem_cons_self
        · have := hds hone; subst this
          exact hfree a List.mem_cons_self d _ j1
      · intro n hn hnd hone
        have := hds hone; subst this
        rw [List.nodup_cons] at hnd
        rcases List.mem_cons.1 hn with rfl | hn
        · refine ⟨d, k, c, r, j1, j2, ?_⟩
          rw [i1 n [d] _ j1 hnd.1 (fun p hp' d' c' hc' hd' => ?_) (fun p hp' => hone p (List.mem_cons_of_mem _ hp'))]
          · exact j3
          · rw [List.mem_singleton] at hd'; subst hd'
            exact hp.1 p hp' d' _ c' j1 hc'
        · exact i2 n hn hnd.2 (fun p hp' => hone p (List.mem_cons_of_mem _ hp'))

/-- A coordinate in the order asked for. -/
def Directed (reverse : Bool) : Coord → Prop
  | .range r => r.Valid ∧ InOrder reverse r.values
  | .mono vs => StrictMono' vs ∧ vs ≠ [] ∧ InOrder reverse vs
  | .arr vs => ¬ StrictMono' vs ∧ vs ≠ [] ∧ InOrder reverse vs
  | .part _ => True

theorem inOrder_progression {reverse : Bool} {a s : ℚ} {n : ℕ} (hs : if reverse then s ≤ 0 else 0 ≤ s) : InOrder reverse (progression a s n) := by
  unfold InOrder progression
  rw [List.pairwise_map]
  refine List.Pairwise.imp ?_ List.pairwise_lt_range
  intro i j hij
  have hc : (i : ℚ) ≤ j := by exact_mod_cast hij.le
  cases reverse with
  | true => simp only [if_true] at hs ⊢; nlinarith
  | false => simp only [Bool.false_eq_true, if_false] at hs ⊢; nlinarith

theorem strict_inOrder {reverse : Bool} {l : List ℚ} (h : StrictMono' l) (h2 : 2 ≤ l.length) (ho : InOrder reverse l) :
    if reverse then l.Pairwise (· > ·) else l.Pairwise (· < ·) := by
  match l, h2 with
  | a :: b :: t, _ =>
    have hab := (List.pairwise_cons.1 ho).1 b (by simp)
    cases reverse with
    | true =>
      simp only [if_true] at hab ⊢
      rcases h with h | h
      · have := (List.pairwise_cons.1 h).1 b (by simp); exact absurd hab (not_le.2 this)
      · exact h
    | false =>
      simp only [Bool.false_eq_true, if_false] at hab ⊢
      rcases h with h | h
      · exact h
      · have : b < a := (List.pairwise_cons.1 h).1 b (by simp); exact absurd hab (not_le.2 this)

theorem data_directed {k : Kind} {l : List ℚ} {reverse : Bool} (ho : InOrder reverse l) {d : Coord} (h : getCoordData k l = .ok d) : Directed reverse d := by
  match l, h, ho with
  | [], h, _ => cases h; trivial
  | [x], h, _ => cases h; exact ⟨Or.inl (by simp), by simp, by simp [InOrder]⟩
  | a :: b :: t, h, ho =>
    rcases getCoordData_cases k (l := a :: b :: t) (by simp) none with ⟨h1, h2⟩ | ⟨h1, h2⟩ | ⟨h2, _, s, hs, h1 | ⟨_, h1⟩⟩
    · rw [h1] at h; cases h; exact ⟨h2, by simp, ho⟩
    · rw [h1] at h; cases h; exact ⟨h2, by simp, ho⟩
    · rw [h1] at h; cases h
      have hst := strict_inOrder h2 (by simp) ho
      have hsg := diff_sign hs
      have hne : s ≠ 0 := by
        cases reverse with
        | true => exact (hsg.2 (by simpa using hst)).ne
        | false => exact (hsg.1 (by simpa using hst)).ne'
      have hv : (⟨(a :: b :: t).getD 0 0, (a :: b :: t).getD 0 0 + s * ((a :: b :: t).length : ℕ), s, (a :: b :: t).length⟩ : RangeCoord).Valid :=
        ⟨hne, by simp, rfl⟩
      refine ⟨hv, ?_⟩
      rw [hv.values_eq]
      apply inOrder_progression
      cases reverse with
      | true => exact (hsg.2 (by simpa using hst)).le
      | false => exact (hsg.1 (by simpa using hst)).le
    · rw [h1] at h; cases h

theorem range_sort_directed {r : RangeCoord} (hv : r.Valid) {reverse : Bool} {p : Coord × PySlice} (h : r.sort reverse = .ok p) : Directed reverse p.1 := by
  have hone : (1 : ℚ) ≤ r.len := by exact_mod_cast hv.2
  unfold RangeCoord.sort at h
  split at h
  · rename_i hs
    cases h
    refine ⟨hv, ?_⟩
    rw [hv.values_eq]
    apply inOrder_progression
    cases reverse with
    | true => simp [RangeCoord.reverseSorted] at hs; exact hs.le
    | false => simp [RangeCoord.sorted] at hs; exact hs
  · rename_i hs
    have hne : -r.step ≠ 0 := neg_ne_zero.2 hv.1
    have hn : 1 ≤ r.len := by have := hv.2; omega
    simp only [bind, Except.bind] at h
    cases reverse with
    | true =>
      simp only [Bool.not_true, Bool.false_and, Bool.true_and, Bool.false_or, RangeCoord.reverseSorted, decide_eq_true_iff, not_lt] at hs
      simp only [if_true] at h
      have hstop : r.cmin + -r.step = r.cmax + -r.step * r.len := by
        rw [hv.cmin_eq, hv.cmax_eq, min_eq_left (by nlinarith), max_eq_right (by nlinarith)]; ring
      rw [new_canonical hne hn hstop] at h
      cases h
      have hval : (⟨r.cmax, r.cmin + -r.step, -r.step, r.len⟩ : RangeCoord).Valid := ⟨hne, by simpa using hn, hstop⟩
      refine ⟨hval, ?_⟩
      rw [hval.values_eq]
      apply inOrder_progression
      simpa using hs
    | false =>
      simp only [Bool.not_false, Bool.true_and, Bool.false_and, Bool.or_false, RangeCoord.sorted, decide_eq_true_iff, not_le] at hs
      simp only [Bool.false_eq_true, if_false] at h
      have hstop : r.cmax + -r.step = r.cmin + -r.step * r.len := by
        rw [hv.cmin_eq, hv.cmax_eq, min_eq_right (by nlinarith), max_eq_left (by nlinarith)]; ring
      rw [new_canonical hne hn hstop] at h
      cases h
      have hval : (⟨r.cmin, r.cmax + -r.step, -r.step, r.len⟩ : RangeCoord).Valid := ⟨hne, by simpa using hn, hstop⟩
      refine ⟨hval, ?_⟩
      rw [hval.values_eq]
      apply inOrder_progression
      simpa using hs.le

theorem sortCoord_directed {argsort : List ℚ → List ℕ} (ha : IsArgsort argsort) {k : Kind} {c : Coord} (hc : c.Wf) {reverse : Bool} {r : Coord × Indexer}
    (h : CM.sortCoord argsort k c reverse = .ok r) : Directed reverse r.1 := by
  have arr : ∀ vs, ArrCoord.sort argsort k vs reverse = .ok r → Directed reverse r.1 := by
    intro vs h
    obtain ⟨x, l', _, _, hs, h1⟩ := C06_sort_array argsort ha k vs reverse
    rw [h1] at h
    obtain ⟨d, h2, rfl⟩ := except_map_ok h
    exact data_directed hs h2
  cases c with
  | part n => cases h; trivial
  | mono vs => exact arr vs h
  | arr vs => exact arr vs h
  | range r0 =>
    obtain ⟨p, h1, rfl⟩ := except_map_ok h
    exact range_sort_directed hc h1

theorem start_directed {reverse : Bool} {c : Coord} (hc : c.Wf) {k : Kind} (h : CM.isSortedAs reverse (.one k c) = true) : Directed reverse c := by
  have ho : InOrder reverse c.vals := by
    unfold InOrder
    cases reverse with
    | true => simpa using Wf.ge_of_reverse hc (by simpa [CM.isSortedAs] using h)
    | false => simpa using Wf.le_of_sorted hc (by simpa [CM.isSortedAs] using h)
  cases c with
  | part n => trivial
  | range r => exact ⟨hc, ho⟩
  | mono vs => exact ⟨hc.1, hc.2, ho⟩
  | arr vs => cases reverse <;> simp [CM.isSortedAs, Coord.isReverse, Coord.isSorted] at h

theorem sortValid_parts {m : CM} {names : List String} (hv : m.sortValid names = .ok ()) :
    (∀ n ∈ names, ∃ ds c, m.ents.get? n = some (ds, c) ∧ ds.length ≤ 1) := by
  unfold CM.sortValid at hv
  simp only at hv
  split_ifs at hv with h1 h2 h3
  intro n hn
  rw [List.any_eq_true] at h1 h2
  push Not at h1 h2
  have hk : n ∈ Dict.keys m.ents := by simpa using h1 n hn
  obtain ⟨⟨ds, c⟩, hc⟩ := Dict.mem_keys.1 hk
  refine ⟨ds, c, hc, ?_⟩
  have := h2 _ (List.mem_map_of_mem (f := fun n => ((Dict.get? m.ents n).map Prod.fst).getD []) hn)
  simpa [hc] using this

/-- The coordinates asked for are in the order asked for when the patch is sorted. -/
theorem sort_named {α} {argsort : List ℚ → List ℕ} (ha : IsArgsort argsort) {m : CM} (hm : Regular m) {a : Nd α} {names : List String} {reverse : Bool}
    {r : CM × Nd α} (hne : names ≠ []) (hnd : names.Nodup) (h : m.sort argsort a names reverse = .ok r) :
    WellFormed r.1 ∧ r.1.dims = m.dims ∧ ∀ n ∈ names, ∃ ds k c, r.1.ents.get? n = some (ds, .one k c) ∧ Directed reverse c := by
  unfold CM.sort at h
  simp only [bind, Except.bind] at h
  split at h
  · cases h
  rename_i s hs
  split at h
  · cases h
  cases h
  refine ⟨(CM.sortCM_wf hs hm.wf).1, ?_⟩
  unfold CM.sortCM at hs
  have he : names.isEmpty = false := by cases names with | nil => exact absurd rfl hne | cons _ _ => rfl
  simp only [bind, Except.bind, he, Bool.false_eq_true, if_false] at hs
  split at hs
  · cases hs
  rename_i u hv
  have hone := sort_onePerDim hv
  have hval := sortValid_parts hv
  have kept : ∀ n ∈ names, m.needsSort reverse n = false → ∃ ds k c, m.ents.get? n = some (ds, .one k c) ∧ Directed reverse c := by
    intro n hn hns
    obtain ⟨ds, c, hc, _⟩ := hval n hn
    unfold CM.needsSort at hns
    rw [hc] at hns
    simp only [Bool.not_eq_false'] at hns
    cases c with
    | nd b => simp [CM.isSortedAs] at hns
    | one k c => exact ⟨ds, k, c, hc, start_directed (hm.classes _ _ _ _ (Dict.mem_of_get? hc)) hns⟩
  split at hs
  · rename_i ht
    cases hs
    refine ⟨rfl, fun n hn => kept n hn ?_⟩
    rw [List.isEmpty_iff, List.filter_eq_nil_iff] at ht
    simpa using ht n hn
  · split at hs
    · cases hs
    rename_i st hst
    split at hs
    · cases hs
    rename_i cm hcm
    cases hs
    obtain ⟨rfl, _⟩ := CM.mk?_ok hcm
    have hsub : List.Sublist (names.filter (m.needsSort reverse)) names := List.filter_sublist
    have hlen : ∀ p ∈ names.filter (m.needsSort reverse), ∀ ds c, m.ents.get? p = some (ds, c) → ds.length ≤ 1 := by
      intro p hp ds c hc
      obtain ⟨ds', c', h1, h2⟩ := hval p (List.mem_of_mem_filter hp)
      rw [h1] at hc; cases hc; exact h2
    obtain ⟨i1, i2⟩ := sortFold_named hm.wf _ _ _ (hone.sublist hsub) hst
    refine ⟨rfl, fun n hn => ?_⟩
    by_cases hns : m.needsSort reverse n = true
    · obtain ⟨d, k, c, r', h1, h2, h3⟩ := i2 n (List.mem_filter.2 ⟨hn, hns⟩) (hnd.sublist hsub) hlen
      exact ⟨[d], k, r'.1, h3, sortCoord_directed ha (hm.classes _ _ _ _ (Dict.mem_of_get? h1)) h2⟩
    · obtain ⟨ds, k, c, h1, h2⟩ := kept n hn (by simpa using hns)
      refine ⟨ds, k, c, ?_, h2⟩
      show Dict.get? st.1 n = _
      rw [i1 n ds _ h1 (fun hh => hns (List.mem_filter.1 hh).2) ?_ hlen]
      · exact h1
      · intro p hp d c' hc' hd
        obtain ⟨ds', c'', h3, h4⟩ := hval n hn
        rw [h1] at h3; cases h3
        have hds : ds = [d] := by
          match ds, hd, h4 with
          | [x], hd, _ => rw [List.mem_singleton] at hd; rw [hd]
        subst hds
        have hne : p ≠ n := by rintro rfl; exact hns (List.mem_filter.1 hp).2
        have hsym : Std.Symm (fun p' q' => ∀ d c c', m.ents.get? p' = some ([d], c) → m.ents.get? q' ≠ some ([d], c')) :=
          ⟨fun a b hab d c c' h1 h2 => hab d c' c h2 h1⟩
        exact hone.forall (List.mem_of_mem_filter hp) hn hne d c' _ hc' h1

/-! ### Snapping -/

theorem snap_parts {k : Kind} {rev : Bool} {l : List ℚ} (hne : l ≠ []) {c : Coord} (h : ArrCoord.snap k rev l = .ok c) :
    ∃ st, 0 < st ∧ (l.length ≠ 1 → st = (let s := (l.foldl max (l.getD 0 0) - l.foldl min (l.getD 0 0)) / ((l.length : ℚ) - 1); if k = .time then (rint s : ℚ) else s)) ∧
      c = (if rev then .range ⟨l.foldl max (l.getD 0 0), l.foldl max (l.getD 0 0) + -st * l.length, -st, l.length⟩
        else .range ⟨l.foldl min (l.getD 0 0), l.foldl min (l.getD 0 0) + st * l.length, st, l.length⟩) := by
  have hlen : 1 ≤ l.length := by cases l with | nil => exact absurd rfl hne | cons _ _ => simp
  unfold ArrCoord.snap at h
  simp only [hne, if_false, bind, Except.bind] at h
  generalize hs : (if l.length = 1 then if k = Kind.time then (10 : ℚ) ^ 9 else 1
    else if k = Kind.time then ((rint ((l.foldl max (l.getD 0 0) - l.foldl min (l.getD 0 0)) / ((l.length : ℚ) - 1)) : ℤ) : ℚ) else
      (l.foldl max (l.getD 0 0) - l.foldl min (l.getD 0 0)) / ((l.length : ℚ) - 1)) = st at h
  split at h
  · cases h
  rename_i hnot
  have hpos : 0 < st := by
    by_cases h1 : l.length = 1
    · rw [if_pos h1] at hs
      rw [← hs]; split_ifs <;> norm_num
    · by_contra hc; exact hnot ⟨h1, hc⟩
  refine ⟨st, hpos, fun h1 => by rw [if_neg h1] at hs; exact hs.symm, ?_⟩
  have fin : ∀ {a b s : ℚ} {r : RangeCoord}, s ≠ 0 → mkRange a b s = .ok r → r.changeLength (decide (k = Kind.time)) (some (l.length : ℤ)) = .ok c →
      c = .range ⟨a, a + s * l.length, s, l.length⟩ := by
    intro a b s r hs0 hr h
    have hv := mkRange_valid hs0 hr
    rw [mkRange_eq _ _ _ hs0] at hr
    simp only at hr
    split at hr
    · cases hr
      rcases changeLength_cases hv (decide (k = .time)) (n := l.length) hlen with h3 | ⟨_, _, h3⟩
      · rw [h3] at h; cases h; rfl
      · rw [h3] at h; cases h
    · cases hr
  cases rev with
  | true =>
    rw [if_pos rfl] at h ⊢
    cases hr : mkRange (l.foldl max (l.getD 0 0)) (l.foldl min (l.getD 0 0) + -st) (-st) with
    | error e => rw [hr] at h; cases h
    | ok r => rw [hr] at h; exact fin (neg_ne_zero.2 hpos.ne') hr h
  | false =>
    rw [if_neg Bool.false_ne_true] at h ⊢
    cases hr : mkRange (l.foldl min (l.getD 0 0)) (l.foldl max (l.getD 0 0) + st) st with
    | error e => rw [hr] at h; cases h
    | ok r => rw [hr] at h; exact fin hpos.ne' hr h

theorem progression_head {a s : ℚ} {n : ℕ} (hn : 1 ≤ n) : (progression a s n).headD 0 = a := by
  obtain ⟨m, rfl⟩ : ∃ m, n = m + 1 := ⟨n - 1, by omega⟩
  simp [progression, List.range_succ_eq_map]

theorem progression_final {a s : ℚ} {n : ℕ} : (progression a s (n + 1)).getLastD 0 = a + n * s := by
  simp [progression, List.range_succ]

theorem inOrder_ends {reverse : Bool} {l : List ℚ} (hne : l ≠ []) (ho : InOrder reverse l) :
    if reverse then IsMax l (l.headD 0) ∧ IsMin l (l.getLastD 0) else IsMin l (l.headD 0) ∧ IsMax l (l.getLastD 0) := by
  have hh : l.headD 0 ∈ l := by cases l with | nil => exact absurd rfl hne | cons a t => simp
  have hl : l.getLastD 0 = l.getLast hne := by rw [List.getLastD_eq_getLast?, List.getLast?_eq_getLast_of_ne_nil hne]; rfl
  have hlm : l.getLastD 0 ∈ l := by rw [hl]; exact List.getLast_mem hne
  have first : ∀ x ∈ l, x = l.headD 0 ∨ (if reverse then x ≤ l.headD 0 else l.headD 0 ≤ x) := by
    intro x hx
    cases l with
    | nil => exact absurd rfl hne
    | cons a t =>
      rcases List.mem_cons.1 hx with rfl | hx
      · exact Or.inl rfl
      · exact Or.inr ((List.pairwise_cons.1 ho).1 x hx)
  have final : ∀ x ∈ l, x = l.getLastD 0 ∨ (if reverse then l.getLastD 0 ≤ x else x ≤ l.getLastD 0) := by
    intro x hx
    rw [hl]
    have hsplit := List.dropLast_append_getLast hne
    rw [← hsplit] at hx ho
    unfold InOrder at ho
    rw [List.pairwise_append] at ho
    rcases List.mem_append.1 hx with hx | hx
    · exact Or.inr (ho.2.2 x hx _ (by simp))
    · left; simpa using hx
  cases reverse with
  | true =>
    simp only [if_true] at first final ⊢
    exact ⟨⟨hh, fun x hx => (first x hx).elim (fun e => e.le) id⟩, ⟨hlm, fun x hx => (final x hx).elim (fun e => e.ge) id⟩⟩
  | false =>
    simp only [Bool.false_eq_true, if_false] at first final ⊢
    exact ⟨⟨hh, fun x hx => (first x hx).elim (fun e => e.ge) id⟩, ⟨hlm, fun x hx => (final x hx).elim (fun e => e.le) id⟩⟩

/-- From one end to the other in even steps. -/
theorem evened_from {k : Kind} {reverse : Bool} {l : List ℚ} (hne : l ≠ []) {s : ℚ} (hs : if reverse then s < 0 else 0 < s)
    (hnum : l.length ≠ 1 → k ≠ .time → s = (l.getLastD 0 - l.headD 0) / ((l.length : ℚ) - 1))
    (htime : l.length ≠ 1 → |s - (l.getLastD 0 - l.headD 0) / ((l.length : ℚ) - 1)| ≤ 1 / 2) :
    Evened k reverse l (progression (l.headD 0) s l.length) := by
  have hlen : 1 ≤ l.length := by cases l with | nil => exact absurd rfl hne | cons _ _ => simp
  have hs0 : s ≠ 0 := by cases reverse with
    | true => exact hs.ne
    | false => exact hs.ne'
  have hlast : (progression (l.headD 0) s l.length).getLastD 0 = l.headD 0 + ((l.length : ℚ) - 1) * s := by
    obtain ⟨m, hm⟩ : ∃ m, l.length = m + 1 := ⟨l.length - 1, by omega⟩
    rw [hm, progression_final]; push_cast; ring
  have hsingle : l.length = 1 → l.getLastD 0 = l.headD 0 := by
    intro h1
    obtain ⟨x, rfl⟩ := List.length_eq_one_iff.1 h1
    rfl
  have hdiv : l.length ≠ 1 → ((l.length : ℚ) - 1) * ((l.getLastD 0 - l.headD 0) / ((l.length : ℚ) - 1)) = l.getLastD 0 - l.headD 0 ∧ 0 < (l.length : ℚ) - 1 := by
    intro h1
    have : (2 : ℚ) ≤ l.length := by exact_mod_cast (show 2 ≤ l.length by omega)
    exact ⟨mul_div_cancel₀ _ (by linarith), by linarith⟩
  have hcast : ((l.length - 1 : ℕ) : ℚ) = (l.length : ℚ) - 1 := by push_cast [hlen]; ring
  refine ⟨⟨s, hs0, rfl⟩, inOrder_progression ?_, ?_, ?_⟩
  · cases reverse with
    | true => exact le_of_lt hs
    | false => exact le_of_lt hs
  · intro hk
    rw [hlast]
    by_cases h1 : l.length = 1
    · rw [hsingle h1, h1]; simp
    · rw [hnum h1 hk, (hdiv h1).1]; ring
  · rw [hlast, hcast]
    by_cases h1 : l.length = 1
    · rw [hsingle h1, h1]; simp
    · obtain ⟨h2, h3⟩ := hdiv h1
      have h4 := htime h1
      have : l.headD 0 + ((l.length : ℚ) - 1) * s - l.getLastD 0 = ((l.length : ℚ) - 1) * (s - (l.getLastD 0 - l.headD 0) / ((l.length : ℚ) - 1)) := by
        rw [mul_sub, h2]; ring
      rw [this, abs_mul, abs_of_pos h3]
      nlinarith

theorem snapArr_evened {k : Kind} {rev reverse : Bool} {l : List ℚ} (hne : l ≠ []) (ho : InOrder reverse l) (hrev : l.length = 1 ∨ rev = reverse)
    {c : Coord} (h : ArrCoord.snap k rev l = .ok c) : Evened k reverse l c.vals := by
  obtain ⟨st, hst, hval, rfl⟩ := snap_parts hne h
  have hlen : 1 ≤ l.length := by cases l with | nil => exact absurd rfl hne | cons _ _ => simp
  have vals : ∀ {a s : ℚ}, s ≠ 0 → (Coord.range ⟨a, a + s * l.length, s, l.length⟩).vals = progression a s l.length := by
    intro a s hs
    have hv : (⟨a, a + s * l.length, s, l.length⟩ : RangeCoord).Valid := ⟨hs, by simpa using hlen, rfl⟩
    exact hv.values_eq
  have hmin := foldl_min_isMin hne
  have hmax := foldl_max_isMax hne
  by_cases h1 : l.length = 1
  · have key : ∀ s : ℚ, s ≠ 0 → ∀ a, a = l.headD 0 → (if rev then a = l.foldl max (l.getD 0 0) else a = l.foldl min (l.getD 0 0)) → 
        progression a s l.length = progression (l.headD 0) (if reverse then -1 else 1) l.length := by
      intro s _ a ha _
      rw [h1, ha]; simp [progression]
    obtain ⟨x, rfl⟩ := List.length_eq_one_iff.1 h1
    have e1 : (Evened k reverse [x] (progression ([x].headD 0) (if reverse then -1 else 1) [x].length)) := by
      apply evened_from hne
      · cases reverse <;> norm_num
      · intro h; exact absurd rfl h
      · intro h; exact absurd rfl h
    have e2 : progression ([x].headD 0) (if reverse then -1 else 1) [x].length = [x] := by simp [progression]
    rw [e2] at e1
    have e3 : ∀ s : ℚ, progression x s 1 = [x] := by intro s; simp [progression]
    cases rev with
    | true => rw [if_pos rfl, vals (neg_ne_zero.2 hst.ne')]; simpa [e3] using e1
    | false => rw [if_neg Bool.false_ne_true, vals hst.ne']; simpa [e3] using e1
  · have hr : rev = reverse := hrev.resolve_left h1
    subst hr
    have hends := inOrder_ends hne ho
    have hb := rint_bounds ((l.foldl max (l.getD 0 0) - l.foldl min (l.getD 0 0)) / ((l.length : ℚ) - 1))
    have hst' := hval h1
    simp only at hst'
    have hnear : |st - (l.foldl max (l.getD 0 0) - l.foldl min (l.getD 0 0)) / ((l.length : ℚ) - 1)| ≤ 1 / 2 := by
      by_cases hk : k = .time
      · rw [if_pos hk] at hst'
        rw [hst', abs_le]; constructor <;> linarith [hb.1, hb.2]
      · rw [if_neg hk] at hst'
        rw [hst']; simp
    cases rev with
    | true =>
      rw [if_pos rfl] at hends ⊢
      rw [vals (neg_ne_zero.2 hst.ne')]
      have eM : l.foldl max (l.getD 0 0) = l.headD 0 := le_antisymm (hends.1.2 _ hmax.1) (hmax.2 _ hends.1.1)
      have em : l.foldl min (l.getD 0 0) = l.getLastD 0 := isMin_unique hmin hends.2
      rw [eM, em] at hst' hnear
      rw [eM]
      have hneg : (l.getLastD 0 - l.headD 0) / ((l.length : ℚ) - 1) = -((l.headD 0 - l.getLastD 0) / ((l.length : ℚ) - 1)) := by ring
      apply evened_from hne
      · simpa using hst
      · intro _ hk
        rw [if_neg hk] at hst'
        rw [hneg, ← hst']
      · intro _
        rw [hneg, show -st - -((l.headD 0 - l.getLastD 0) / ((l.length : ℚ) - 1)) = -(st - (l.headD 0 - l.getLastD 0) / ((l.length : ℚ) - 1)) by ring, abs_neg]
        exact hnear
    | false =>
      rw [if_neg Bool.false_ne_true] at hends ⊢
      rw [vals hst.ne']
      have em : l.foldl min (l.getD 0 0) = l.headD 0 := isMin_unique hmin hends.1
      have eM : l.foldl max (l.getD 0 0) = l.getLastD 0 := le_antisymm (hends.2.2 _ hmax.1) (hmax.2 _ hends.2.1)
      rw [eM, em] at hst' hnear
      rw [em]
      apply evened_from hne
      · simpa using hst
      · intro _ hk
        rw [if_neg hk] at hst'
        exact hst'
      · intro _; exact hnear

theorem strict_of_nodup {reverse : Bool} {l : List ℚ} (ho : InOrder reverse l) (hn : l.Nodup) : StrictMono' l := by
  have h := ho.and hn
  cases reverse with
  | true => exact Or.inr (h.imp fun hab => lt_of_le_of_ne (by simpa using hab.1) (Ne.symm hab.2))
  | false => exact Or.inl (h.imp fun hab => lt_of_le_of_ne (by simpa using hab.1) hab.2)

theorem isReverse_iff {l : List ℚ} (h2 : 2 ≤ l.length) :
    (l.Pairwise (· > ·) → MonoCoord.isReverse l = true) ∧ (l.Pairwise (· < ·) → MonoCoord.isReverse l = false) := by
  constructor
  · intro h
    match l, h2 with
    | a :: b :: t, _ =>
      have : b < a := (List.pairwise_cons.1 h).1 b (by simp)
      simp [MonoCoord.isReverse, this]
  · intro ha
    unfold MonoCoord.isReverse
    rw [← Bool.not_eq_true, List.any_eq_true]
    rintro ⟨⟨u, v⟩, h1, h2⟩
    simp only [decide_eq_true_iff] at h2
    obtain ⟨i, hi⟩ := List.mem_iff_getElem?.1 h1
    rw [List.getElem?_zip_eq_some] at hi
    obtain ⟨h3, h4⟩ := hi
    rw [List.getElem?_tail] at h4
    obtain ⟨p1, p2⟩ := List.getElem?_eq_some_iff.1 h3
    obtain ⟨q1, q2⟩ := List.getElem?_eq_some_iff.1 h4
    have := List.pairwise_iff_getElem.1 ha i (i + 1) p1 q1 (by omega)
    simp only at p2 q2
    rw [p2, q2] at this
    linarith

theorem snap_evened {k : Kind} {reverse : Bool} {c : Coord} (hd : Directed reverse c) (hdup : reverse = false ∨ c.vals.Nodup) {x : MCoord}
    (h : snapCoord (.one k c) = .ok x) : ∃ c', x = .one k c' ∧ Evened k reverse c.vals c'.vals := by
  cases c with
  | part n =>
    cases h
    refine ⟨_, rfl, ⟨1, one_ne_zero, rfl⟩, ?_, fun _ => rfl, ?_⟩
    · simp [InOrder, Coord.vals]
    · simp [Coord.vals]
  | range r =>
    cases h
    obtain ⟨hv, ho⟩ := hd
    refine ⟨_, rfl, ⟨r.step, hv.1, ?_⟩, ho, fun _ => rfl, ?_⟩
    · show r.values = progression (r.values.headD 0) r.step r.values.length
      rw [hv.values_eq, progression_head (by have := hv.2; omega)]
      simp [progression]
    · rw [sub_self, abs_zero]; positivity
  | mono vs =>
    obtain ⟨hs, hne, ho⟩ := hd
    obtain ⟨c', h1, rfl⟩ := except_map_ok h
    refine ⟨c', rfl, snapArr_evened hne ho ?_ h1⟩
    by_cases hl : vs.length = 1
    · exact Or.inl hl
    · right
      have h2 : 2 ≤ vs.length := by
        have : vs.length ≠ 0 := by simpa using hne
        omega
      have hst := strict_inOrder hs h2 ho
      cases reverse with
      | true => exact (isReverse_iff h2).1 (by simpa using hst)
      | false => exact (isReverse_iff h2).2 (by simpa using hst)
  | arr vs =>
    obtain ⟨hs, hne, ho⟩ := hd
    obtain ⟨c', h1, rfl⟩ := except_map_ok h
    refine ⟨c', rfl, snapArr_evened hne ho (Or.inr ?_) h1⟩
    rcases hdup with rfl | hn
    · rfl
    · exact absurd (strict_of_nodup ho hn) hs

theorem snapFold_spec : ∀ (names : List String) (e e' : Ents), names.Nodup → names.foldlM CM.snapEntry e = .ok e' →
    (∀ n, n ∉ names → Dict.get? e' n = Dict.get? e n) ∧
    (∀ n ∈ names, ∃ ds c c', Dict.get? e n = some (ds, c) ∧ snapCoord c = .ok c' ∧ Dict.get? e' n = some (ds, c'))
  | [], e, e', _, h => by cases h; exact ⟨fun _ _ => rfl, by simp⟩
  | a :: names, e, e', hn, h => by
    rw [List.foldlM_cons] at h
    rw [List.nodup_cons] at hn
    cases h1 : CM.snapEntry e a with
    | error er => rw [h1] at h; cases h
    | ok e1 =>
      rw [h1] at h
      obtain ⟨i1, i2⟩ := snapFold_spec names e1 e' hn.2 h
      unfold CM.snapEntry at h1
      split at h1
      · cases h1
      rename_i ds c hc
      obtain ⟨c', h2, rfl⟩ := except_map_ok h1
      constructor
      · intro n hnn
        rw [i1 n (fun hh => hnn (List.mem_cons_of_mem _ hh)), Dict.get?_set, if_neg]
        rintro rfl; exact hnn List.mem_cons_self
      · intro n hnn
        rcases List.mem_cons.1 hnn with rfl | h5
        · exact ⟨ds, c, c', hc, h2, by rw [i1 n hn.1, Dict.get?_set, if_pos rfl]⟩
        · obtain ⟨ds', c1, c1', g1, g2, g3⟩ := i2 n h5
          refine ⟨ds', c1, c1', ?_, g2, g3⟩
          rw [← g1, Dict.get?_set, if_neg]
          rintro rfl; exact hn.1 h5

theorem snapKeeps_self {c : MCoord} (h : CM.snapKeeps c = true) : snapCoord c = .ok c := by
  unfold CM.snapKeeps at h
  split at h
  · cases h
  · cases h
  · rename_i h1 h2
    cases c with
    | nd a => rfl
    | one k c =>
      cases c with
      | range r => rfl
      | part n => rfl
      | mono vs => exact absurd rfl (h1 k vs)
      | arr vs => exact absurd rfl (h2 k vs)

theorem snapNamed_spec {m cm out : CM} {names : List String} (hn : names.Nodup) (hk : ∀ n ∈ names, ∃ v, cm.ents.get? n = some v)
    (h : m.snapNamed cm names = .ok out) :
    out.dims = cm.dims ∧ (∀ n, n ∉ names → out.ents.get? n = cm.ents.get? n) ∧
    (∀ n ∈ names, ∃ ds c c', cm.ents.get? n = some (ds, c) ∧ snapCoord c = .ok c' ∧ out.ents.get? n = some (ds, c')) := by
  unfold CM.snapNamed at h
  split at h
  · rename_i hall
    cases h
    refine ⟨rfl, fun _ _ => rfl, fun n hnn => ?_⟩
    obtain ⟨⟨ds, c⟩, hc⟩ := hk n hnn
    rw [List.all_eq_true] at hall
    have := hall n hnn
    unfold CM.snapKept at this
    rw [hc] at this
    exact ⟨ds, c, c, hc, snapKeeps_self this, hc⟩
  · simp only [bind, Except.bind] at h
    split at h
    · cases h
    rename_i e he
    split at h
    · cases h
    rename_i o ho
    split_ifs at h
    cases h
    obtain ⟨rfl, _⟩ := CM.mk?_ok ho
    obtain ⟨h1, h2⟩ := snapFold_spec names _ _ hn he
    exact ⟨rfl, h1, h2⟩

end Verif
