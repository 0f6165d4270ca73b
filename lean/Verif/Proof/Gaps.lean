import Mathlib.Tactic.Linarith
import Mathlib.Tactic.Ring
import Mathlib.Tactic.NormNum
import Mathlib.Tactic.FieldSimp
import Mathlib.Algebra.Order.Floor.Ring
import Verif.Proof.GetCoord
import Verif.Model.Gaps
import Verif.Spec.Gaps
namespace Verif
open Spec

theorem cellOf_zero (mask : List Bool) : cellOf mask 0 = 0 := by simp [cellOf]

theorem cellOf_succ_false (mask : List Bool) (i : ℕ) : cellOf (false :: mask) (i + 1) = cellOf mask i + 1 := by
  simp [cellOf]; omega

theorem cellOf_succ_true (mask : List Bool) (i : ℕ) : cellOf (true :: mask) (i + 1) = cellOf mask i + 2 := by
  simp [cellOf]; omega

theorem inCell_shift {d : ℚ} {es : List ℚ} {c : ℕ} {x : ℚ} (h : InCell d es c x) (l : ℚ) : InCell d (l :: es) (c + 1) x := by
  obtain ⟨a, b, ha, hb, h1, h2⟩ := h
  exact ⟨a, b, by simpa using ha, by simpa using hb, h1, h2⟩

theorem runs_cons {d l e : ℚ} {es : List ℚ} (h : Runs d (e :: es)) (hl : 0 < d * (e - l)) : Runs d (l :: e :: es) := by
  refine List.pairwise_cons.2 ⟨?_, h⟩
  intro b hb
  rcases List.mem_cons.1 hb with rfl | hb
  · exact hl
  · have := (List.pairwise_cons.1 h).1 b hb
    have h3 : d * (b - l) = d * (b - e) + d * (e - l) := by ring
    rw [h3]; linarith

theorem cells_single {d x l z : ℚ} (h1 : 0 < d * (x - l)) (h2 : 0 < d * (z - x)) : Cells d [x] [l, z] [] where
  runs := by
    refine runs_cons (by simp [Runs]) ?_
    have h3 : d * (z - l) = d * (z - x) + d * (x - l) := by ring
    rw [h3]; linarith
  count := by simp
  holds := by
    intro i y hy
    cases i with
    | zero =>
      simp at hy; subst hy
      exact ⟨l, z, rfl, rfl, h1, h2⟩
    | succ i => simp at hy

theorem cells_cons_false {d a l e : ℚ} {v es : List ℚ} {gs : List Bool} (h : Cells d v (e :: es) gs) (h1 : 0 < d * (a - l))
    (h2 : 0 < d * (e - a)) : Cells d (a :: v) (l :: e :: es) (false :: gs) where
  runs := by
    refine runs_cons h.runs ?_
    have h3 : d * (e - l) = d * (e - a) + d * (a - l) := by ring
    rw [h3]; linarith
  count := by
    have := h.count
    simp only [List.length_cons, List.count_cons] at this ⊢
    simp; omega
  holds := by
    intro i y hy
    cases i with
    | zero =>
      simp at hy; subst hy
      rw [cellOf_zero]
      exact ⟨l, e, rfl, rfl, h1, h2⟩
    | succ i =>
      rw [cellOf_succ_false]
      exact inCell_shift (h.holds i y (by simpa using hy)) l

theorem cells_cons_true {d a l r e : ℚ} {v es : List ℚ} {gs : List Bool} (h : Cells d v (e :: es) gs) (h1 : 0 < d * (a - l))
    (h2 : 0 < d * (r - a)) (h3 : 0 < d * (e - r)) : Cells d (a :: v) (l :: r :: e :: es) (true :: gs) where
  runs := by
    refine runs_cons (runs_cons h.runs h3) ?_
    have h3 : d * (r - l) = d * (r - a) + d * (a - l) := by ring
    rw [h3]; linarith
  count := by
    have := h.count
    simp only [List.length_cons, List.count_cons] at this ⊢
    simp; omega
  holds := by
    intro i y hy
    cases i with
    | zero =>
      simp at hy; subst hy
      rw [cellOf_zero]
      exact ⟨l, r, rfl, rfl, h1, h2⟩
    | succ i =>
      rw [cellOf_succ_true]
      exact inCell_shift (inCell_shift (h.holds i y (by simpa using hy)) r) l

/-! ### Halving -/

theorem truncZ_neg (q : ℚ) : truncZ (-q) = - truncZ q := by
  unfold truncZ
  by_cases h0 : q = 0
  · subst h0; simp
  by_cases h : 0 ≤ q
  · have : ¬ 0 ≤ -q := by intro h'; exact h0 (le_antisymm (by linarith) h)
    rw [if_neg this, if_pos h, Int.ceil_neg]
  · rw [if_pos (by linarith), if_neg h, Int.floor_neg]

theorem divBy_neg (t : Bool) (x n : ℚ) : divBy t (-x) n = - divBy t x n := by
  cases t
  · simp [divBy, neg_div]
  · simp [divBy, neg_div, truncZ_neg]

theorem divBy_le (t : Bool) (x : ℚ) (h : 0 ≤ x) : divBy t x 2 ≤ x / 2 := by
  cases t
  · simp [divBy]
  · have h' : 0 ≤ x / 2 := by linarith
    simp only [divBy, if_true, truncZ, if_pos h']
    exact Int.floor_le _

theorem divBy_nonneg (t : Bool) (x : ℚ) (h : 0 ≤ x) : 0 ≤ divBy t x 2 := by
  have h' : 0 ≤ x / 2 := by linarith
  cases t
  · simpa [divBy] using h'
  · simp only [divBy, if_true, truncZ, if_pos h']
    exact_mod_cast Int.floor_nonneg.2 h'

/-- What is needed of a step for its half not to vanish. -/
def Wide (t : Bool) (x : ℚ) : Prop := if t then 2 ≤ x else 0 < x

theorem Wide.pos {t : Bool} {x : ℚ} (h : Wide t x) : 0 < x := by
  cases t <;> simp [Wide] at h <;> linarith

theorem Wide.half_pos {t : Bool} {x : ℚ} (h : Wide t x) : 0 < divBy t x 2 := by
  have hp := h.pos
  have h' : 0 ≤ x / 2 := by linarith
  cases t
  · simp [divBy]; linarith
  · simp only [divBy, if_true, truncZ, if_pos h']
    simp only [Wide, if_true] at h
    have : (1 : ℤ) ≤ ⌊x / 2⌋ := Int.le_floor.2 (by push_cast; linarith)
    have : (1 : ℚ) ≤ (⌊x / 2⌋ : ℚ) := by exact_mod_cast this
    linarith

theorem divBy_sign {d : ℚ} (hd : d = 1 ∨ d = -1) (t : Bool) (x : ℚ) : d * divBy t x 2 = divBy t (d * x) 2 := by
  rcases hd with rfl | rfl
  · simp
  · simp [divBy_neg]

/-! ### The median -/

theorem sorted_unique {s s' : List ℚ} (hp : s.Perm s') (h : s.Pairwise (· ≤ ·)) (h' : s'.Pairwise (· ≤ ·)) : s = s' :=
  hp.eq_of_pairwise (fun _ _ _ _ => le_antisymm) h h'

theorem sort_perm (l : List ℚ) : (l.insertionSort (· ≤ ·)).Perm l := List.perm_insertionSort _ l

theorem sort_sorted (l : List ℚ) : (l.insertionSort (· ≤ ·)).Pairwise (· ≤ ·) := List.pairwise_insertionSort (· ≤ ·) l

theorem npMedian_isMedian (l : List ℚ) : IsMedian l (npMedian false l) := by
  intro s hp hs
  have := sorted_unique (hp.trans (sort_perm l).symm) hs (sort_sorted l)
  subst this
  unfold npMedian
  by_cases h : l.length % 2 = 1
  · rw [if_pos h]
    have : (l.length - 1) / 2 = l.length / 2 := by omega
    rw [this]; ring
  · rw [if_neg h]
    have : (l.length - 1) / 2 = l.length / 2 - 1 := by omega
    rw [this]; simp [divBy]

theorem isMedian_unique {l : List ℚ} {m m' : ℚ} (h : IsMedian l m) (h' : IsMedian l m') : m = m' := by
  rw [h _ (sort_perm l) (sort_sorted l), h' _ (sort_perm l) (sort_sorted l)]

theorem sort_getD_mem {l : List ℚ} {i : ℕ} (h : i < l.length) : (l.insertionSort (· ≤ ·)).getD i 0 ∈ l := by
  have hl : i < (l.insertionSort (· ≤ ·)).length := by rw [(sort_perm l).length_eq]; exact h
  have : (l.insertionSort (· ≤ ·)).getD i 0 = (l.insertionSort (· ≤ ·))[i] := by rw [List.getD, List.getElem?_eq_getElem hl]; rfl
  rw [this]
  exact (sort_perm l).mem_iff.1 (List.getElem_mem hl)

theorem npMedian_wide {t : Bool} {l : List ℚ} (h0 : l ≠ []) (h : ∀ x ∈ l, Wide t x) : Wide t (npMedian t l) := by
  have hl : 0 < l.length := List.length_pos_iff.2 h0
  unfold npMedian
  by_cases h1 : l.length % 2 = 1
  · rw [if_pos h1]
    exact h _ (sort_getD_mem (by omega))
  · rw [if_neg h1]
    have ha := h _ (sort_getD_mem (l := l) (i := l.length / 2 - 1) (by omega))
    have hb := h _ (sort_getD_mem (l := l) (i := l.length / 2) (by omega))
    generalize (List.insertionSort (· ≤ ·) l).getD (l.length / 2 - 1) 0 = a at ha
    generalize (List.insertionSort (· ≤ ·) l).getD (l.length / 2) 0 = b at hb
    cases t
    · simp only [Wide, divBy] at *
      simp at *
      linarith
    · simp only [Wide, divBy, if_true] at *
      have h' : 0 ≤ (a + b) / 2 := by linarith
      rw [truncZ, if_pos h']
      have : (2 : ℤ) ≤ ⌊(a + b) / 2⌋ := Int.le_floor.2 (by push_cast; linarith)
      exact_mod_cast this

theorem npMedian_le {t : Bool} {l : List ℚ} (h0 : l ≠ []) (h : ∀ x ∈ l, 0 ≤ x) : npMedian t l ≤ npMedian false l := by
  have hl : 0 < l.length := List.length_pos_iff.2 h0
  unfold npMedian
  by_cases h1 : l.length % 2 = 1
  · rw [if_pos h1, if_pos h1]
  · rw [if_neg h1, if_neg h1]
    have ha := h _ (sort_getD_mem (l := l) (i := l.length / 2 - 1) (by omega))
    have hb := h _ (sort_getD_mem (l := l) (i := l.length / 2) (by omega))
    exact le_trans (divBy_le t _ (by linarith)) (by simp [divBy])

/-! ### The loop -/

/-- What is needed of neighbouring samples. -/
def GoodEdges (t : Bool) (d s : ℚ) : List ℚ → List Bool → Prop
  | a :: b :: v, g :: gs =>
    (if g then 0 < d * divBy t s 2 ∧ 2 * (d * divBy t s 2) < d * (b - a)
     else 0 < d * divBy t (b - a) 2 ∧ d * divBy t (b - a) 2 < d * (b - a)) ∧ GoodEdges t d s (b :: v) gs
  | [_], [] => True
  | _, _ => False

theorem edgeLoop_cells (t : Bool) (d s : ℚ) (v : List ℚ) : ∀ (a : ℚ) (gs : List Bool) (l z : ℚ), GoodEdges t d s (a :: v) gs →
    0 < d * (a - l) → 0 < d * (z - (a :: v).getLastD 0) → Cells d (a :: v) (l :: (edgeLoop t s (a :: v) gs ++ [z])) gs := by
  induction v with
  | nil =>
    intro a gs l z hg h1 h2
    cases gs with
    | nil => exact cells_single h1 (by simpa using h2)
    | cons g gs => exact absurd hg (by simp [GoodEdges])
  | cons b v ih =>
    intro a gs l z hg h1 h2
    cases gs with
    | nil => exact absurd hg (by simp [GoodEdges])
    | cons g gs =>
      obtain ⟨hab, hg⟩ := hg
      have h2' : 0 < d * (z - (b :: v).getLastD 0) := by simpa using h2
      cases g with
      | true =>
        simp only [if_true] at hab
        have := cells_cons_true (a := a) (l := l) (r := a + divBy t s 2) (ih b gs (b - divBy t s 2) z hg
          (by ring_nf; linarith [hab.1]) h2') h1 (by ring_nf; linarith [hab.1]) (by
            have : d * (b - divBy t s 2 - (a + divBy t s 2)) = d * (b - a) - 2 * (d * divBy t s 2) := by ring
            rw [this]; linarith [hab.2])
        simpa [edgeLoop] using this
      | false =>
        simp only [Bool.false_eq_true, if_false] at hab
        have := cells_cons_false (a := a) (l := l) (ih b gs (a + divBy t (b - a) 2) z hg (by
            have : d * (b - (a + divBy t (b - a) 2)) = d * (b - a) - (d * divBy t (b - a) 2) := by ring
            rw [this]; linarith [hab.2]) h2') h1 (by rw [add_sub_cancel_left]; exact hab.1)
        simpa [edgeLoop] using this

theorem edgeLoop_nogap (t : Bool) (s : ℚ) (v : List ℚ) : ∀ (a : ℚ) (gs : List Bool), gs.length = v.length → gs.any id = false →
    List.zipWith (fun a d => a + divBy t d 2) (a :: v) (diffs (a :: v)) = edgeLoop t s (a :: v) gs := by
  induction v with
  | nil => intro a gs h _; cases gs <;> simp [diffs, edgeLoop] at *
  | cons b v ih =>
    intro a gs h hn
    cases gs with
    | nil => simp at h
    | cons g gs =>
      simp at hn h
      obtain ⟨rfl, hn⟩ := hn
      have := ih b gs h (by simpa using hn)
      simp only [diffs, edgeLoop, List.zipWith_cons_cons]
      rw [this]; simp

theorem good_of (t : Bool) (d s : ℚ) (hd : d = 1 ∨ d = -1) (G : ℚ → Bool) (hs : 0 < d * divBy t s 2) (v : List ℚ) : ∀ a : ℚ,
    (∀ x ∈ diffs (a :: v), Wide t (d * x) ∧ (G x = true → 2 * (d * divBy t s 2) < d * x)) →
    GoodEdges t d s (a :: v) ((diffs (a :: v)).map G) := by
  induction v with
  | nil => intro a _; simp [diffs, GoodEdges]
  | cons b v ih =>
    intro a h
    have hb := ih b fun x hx => h x (by simp [diffs, hx])
    obtain ⟨h1, h2⟩ := h (b - a) (by simp [diffs])
    simp only [diffs, List.map_cons, GoodEdges]
    refine ⟨?_, hb⟩
    by_cases hg : G (b - a) = true
    · rw [if_pos hg]; exact ⟨hs, h2 hg⟩
    · rw [if_neg hg, divBy_sign hd]
      have hp := h1.pos
      exact ⟨h1.half_pos, by have := divBy_le t _ hp.le; linarith⟩

theorem edgeLoop_placed (s : ℚ) (v : List ℚ) : ∀ (a : ℚ) (gs : List Bool) (l z : ℚ), gs.length = v.length →
    Placed 1 s (a :: v) (l :: (edgeLoop false s (a :: v) gs ++ [z])) gs := by
  induction v with
  | nil => intro a gs l z _ i x y _ hy; simp at hy
  | cons b v ih =>
    intro a gs l z hl i x y hx hy
    cases gs with
    | nil => simp at hl
    | cons g gs =>
      cases i with
      | zero =>
        simp at hx hy; subst hx; subst hy
        rw [cellOf_zero]
        refine ⟨?_, ?_⟩
        · intro hm; simp at hm; subst hm
          simp [edgeLoop, divBy]; ring
        · intro hm; simp at hm; subst hm
          simp [edgeLoop, divBy]
      | succ i =>
        simp only [List.getElem?_cons_succ] at hx hy
        cases g with
        | true =>
          have := ih b gs (b - divBy false s 2) z (by simpa using hl) i x y hx hy
          rw [cellOf_succ_true]
          simpa [edgeLoop] using this
        | false =>
          have := ih b gs (a + divBy false (b - a) 2) z (by simpa using hl) i x y hx hy
          rw [cellOf_succ_false]
          simpa [edgeLoop] using this

/-! ### The whole function -/

theorem absQ_abs (q : ℚ) : absQ q = |q| := by
  unfold absQ
  split
  · rw [abs_of_neg (by assumption)]
  · rw [abs_of_nonneg (by linarith)]

theorem diffs_abs (v : List ℚ) : (diffs v).map absQ = spacings v := by
  unfold spacings
  induction v with
  | nil => rfl
  | cons a v ih =>
    cases v with
    | nil => rfl
    | cons b v =>
      simp only [diffs, List.map_cons, List.tail_cons, List.zipWith_cons_cons, absQ_abs] at ih ⊢
      rw [ih]

theorem runs_diffs {d : ℚ} {v : List ℚ} (h : Runs d v) : ∀ x ∈ diffs v, 0 < d * x := by
  intro x hx
  obtain ⟨i, a, b, ha, hb, rfl⟩ := mem_diffs.1 hx
  obtain ⟨h1, rfl⟩ := List.getElem?_eq_some_iff.1 ha
  obtain ⟨h2, rfl⟩ := List.getElem?_eq_some_iff.1 hb
  exact List.pairwise_iff_getElem.1 h i (i + 1) h1 h2 (by omega)

theorem abs_dir {d x : ℚ} (hd : d = 1 ∨ d = -1) (h : 0 < d * x) : |x| = d * x := by
  rcases hd with rfl | rfl
  · rw [abs_of_pos (by linarith)]; ring
  · rw [abs_of_neg (by linarith)]; ring

theorem gapMask_map (v : List ℚ) (f : Option ℚ) : ∃ G : ℚ → Bool, gapMask v f = (diffs v).map G ∧
    ∀ x, G x = true ↔ gapRule v f |x| := by
  cases f with
  | none => exact ⟨fun _ => false, rfl, fun x => by simp [gapRule]⟩
  | some f =>
    refine ⟨_, rfl, fun x => ?_⟩
    rw [diffs_abs, decide_eq_true_iff, absQ_abs]
    constructor
    · intro h; exact ⟨f, _, rfl, npMedian_isMedian _, by rw [mul_comm]; exact h⟩
    · rintro ⟨f', m, hf, hm, h⟩
      cases hf
      rw [isMedian_unique (npMedian_isMedian _) hm]
      rw [mul_comm] at h; exact h

theorem marksGaps (v : List ℚ) (f : Option ℚ) : MarksGaps v (gapMask v f) (gapRule v f) := by
  obtain ⟨G, hG, h⟩ := gapMask_map v f
  rw [hG]
  refine ⟨by simp [diffs_length], ?_⟩
  intro i x y hx hy
  have hi : i < (diffs v).length := by
    have := (List.getElem?_eq_some_iff.1 hy).1
    rw [diffs_length]; omega
  obtain ⟨h1, rfl⟩ := List.getElem?_eq_some_iff.1 hx
  obtain ⟨h2, rfl⟩ := List.getElem?_eq_some_iff.1 hy
  rw [← diffs_getElem v i hi]
  simp [hi, h]

theorem getLastD_mem {v : List ℚ} (h : v ≠ []) : v.getLastD 0 ∈ v := by
  rw [List.getLastD_eq_getLast?, List.getLast?_eq_getLast_of_ne_nil h]
  exact List.getLast_mem h

theorem map_getLastD {v : List ℚ} (G : ℚ → Bool) (h : v ≠ []) : (v.map G).getLastD false = G (v.getLastD 0) := by
  rw [List.getLastD_eq_getLast?, List.getLastD_eq_getLast?, List.getLast?_map, List.getLast?_eq_getLast_of_ne_nil h]
  simp

/-- The result of the function in one form. -/
theorem getGapEdges_form (t : Bool) (x y : ℚ) (v : List ℚ) (f : Option ℚ) (d : ℚ) (hd : d = 1 ∨ d = -1) (hv : Runs d (x :: y :: v)) :
    let w := x :: y :: v
    let mask := gapMask w f
    let s := d * npMedian t ((diffs w).map absQ)
    getGapEdges t w f = .ok ((x - divBy t (if mask.headD false then s else y - x) 2) ::
      (edgeLoop t s w mask ++ [w.getLastD 0 + divBy t (if mask.getLastD false then s else (diffs w).getLastD 0) 2]), mask) := by
  intro w mask s
  have hfirst : 0 < d * (y - x) := runs_diffs hv _ (by simp [diffs])
  show getGapEdges t (x :: y :: v) f = _
  unfold getGapEdges
  simp only
  by_cases hm : mask.any id = true
  · have : (!(gapMask (x :: y :: v) f).any id) = false := by rw [hm]; rfl
    rw [if_neg (by rw [this]; simp)]
    have hs : (if 0 < y - x then npMedian t ((diffs (x :: y :: v)).map absQ) else -npMedian t ((diffs (x :: y :: v)).map absQ)) = s := by
      rcases hd with rfl | rfl
      · rw [if_pos (by linarith)]; simp [s, w]
      · rw [if_neg (by linarith)]; simp [s, w]
    rw [hs]; rfl
  · have hm' : mask.any id = false := by simpa using hm
    have : (!(gapMask (x :: y :: v) f).any id) = true := by rw [hm']; rfl
    rw [if_pos this]
    have hl : mask.length = (y :: v).length := by
      obtain ⟨G, hG, _⟩ := gapMask_map w f
      simp only [mask, hG, List.length_map, diffs_length, w]; simp
    rw [edgeLoop_nogap t s (y :: v) x mask hl hm']
    have h1 : mask.headD false = false := by
      cases hmm : mask with
      | nil => rfl
      | cons g gs => rw [hmm] at hm'; simp at hm'; simp [hm'.1]
    have h2 : mask.getLastD false = false := by
      by_contra hc
      have hne : mask ≠ [] := by intro h0; rw [h0] at hl; simp at hl
      rw [List.getLastD_eq_getLast?, List.getLast?_eq_getLast_of_ne_nil hne] at hc
      have := List.getLast_mem hne
      simp at hc
      rw [hc] at this
      simp at hm'
      exact hm' this
    rw [h1, h2]; rfl

theorem getGapEdges_cells (t : Bool) (v : List ℚ) (f : Option ℚ) (d : ℚ) (hd : d = 1 ∨ d = -1) (h0 : v ≠ []) (h1 : v.length = 1 → d = 1)
    (hv : Runs d v)
    (hw : ∀ x ∈ spacings v, Wide t x) (hf : ∀ q, f = some q → 1 ≤ q) :
    ∃ edges, getGapEdges t v f = .ok (edges, gapMask v f) ∧ Cells d v edges (gapMask v f) := by
  match v, h0 with
  | [x], _ =>
    have hm : gapMask [x] f = [] := by cases f <;> simp [gapMask, diffs]
    rw [hm]
    refine ⟨_, rfl, ?_⟩
    have := h1 rfl; subst this
    have hw : 0 < divBy t (if t then 86400000000000 else 1) 2 := Wide.half_pos (by cases t <;> norm_num [Wide])
    exact cells_single (by linarith) (by linarith)
  | x :: y :: v, _ =>
    have hform := getGapEdges_form t x y v f d hd hv
    have hpos := runs_diffs hv
    rw [← diffs_abs] at hw
    have hwd : ∀ δ ∈ diffs (x :: y :: v), Wide t (d * δ) := by
      intro δ hδ
      have := hw (absQ δ) (List.mem_map_of_mem hδ)
      rwa [absQ_abs, abs_dir hd (hpos δ hδ)] at this
    have hne : (diffs (x :: y :: v)).map absQ ≠ [] := by simp [diffs]
    have hmw := npMedian_wide hne hw
    have hle := npMedian_le (t := t) hne fun x hx => (hw x hx).pos.le
    have hs : 0 < d * divBy t (d * npMedian t ((diffs (x :: y :: v)).map absQ)) 2 := by
      rw [divBy_sign hd]
      have : d * (d * npMedian t ((diffs (x :: y :: v)).map absQ)) = npMedian t ((diffs (x :: y :: v)).map absQ) := by
        rcases hd with rfl | rfl <;> ring
      rw [this]; exact hmw.half_pos
    have hs2 : d * divBy t (d * npMedian t ((diffs (x :: y :: v)).map absQ)) 2 ≤ npMedian t ((diffs (x :: y :: v)).map absQ) / 2 := by
      rw [divBy_sign hd]
      have : d * (d * npMedian t ((diffs (x :: y :: v)).map absQ)) = npMedian t ((diffs (x :: y :: v)).map absQ) := by
        rcases hd with rfl | rfl <;> ring
      rw [this]; exact divBy_le t _ hmw.pos.le
    obtain ⟨G, hG, hrule⟩ := gapMask_map (x :: y :: v) f
    have hgood := good_of t d _ hd G hs (y :: v) x (by
      intro δ hδ
      refine ⟨hwd δ hδ, fun hg => ?_⟩
      obtain ⟨q, m, hq, hm, hlt⟩ := (hrule δ).1 hg
      rw [abs_dir hd (hpos δ hδ)] at hlt
      have hmm := isMedian_unique hm (by rw [← diffs_abs]; exact npMedian_isMedian _)
      have h1 := hf q hq
      have hmp : 0 ≤ m := by rw [hmm]; exact le_trans hmw.pos.le hle
      have : m ≤ q * m := by nlinarith
      rw [← hmm] at hle
      linarith)
    rw [← hG] at hgood
    refine ⟨_, hform, ?_⟩
    have hne' : diffs (x :: y :: v) ≠ [] := by simp [diffs]
    refine edgeLoop_cells t d _ (y :: v) x _ _ _ hgood ?_ ?_
    · rw [sub_sub_cancel]
      split
      · exact hs
      · rw [divBy_sign hd]; exact (hwd _ (by simp [diffs])).half_pos
    · rw [add_sub_cancel_left]
      split
      · exact hs
      · rw [divBy_sign hd]; exact (hwd _ (getLastD_mem hne')).half_pos

theorem edgeLoop_last (s : ℚ) (v : List ℚ) : ∀ (a b : ℚ) (gs : List Bool), gs.length = v.length + 1 →
    (edgeLoop false s (a :: b :: v) gs).getLast? =
      some ((a :: b :: v).getLastD 0 - divBy false (if gs.getLastD false then s else (diffs (a :: b :: v)).getLastD 0) 2) := by
  induction v with
  | nil =>
    intro a b gs hl
    match gs, hl with
    | [g], _ =>
      cases g
      · simp [edgeLoop, diffs, divBy]; ring
      · simp [edgeLoop]
  | cons c v ih =>
    intro a b gs hl
    match gs, hl with
    | g :: g' :: gs, hl =>
      have := ih b c (g' :: gs) (by simpa using hl)
      have e : edgeLoop false s (a :: b :: c :: v) (g :: g' :: gs) =
        (if g then [a + divBy false s 2, b - divBy false s 2] else [a + divBy false (b - a) 2]) ++ edgeLoop false s (b :: c :: v) (g' :: gs) := rfl
      rw [e, List.getLast?_append, this]
      simp [diffs]

/-! ### Consequences of `Cells` -/

theorem runs_le {d : ℚ} {es : List ℚ} (h : Runs d es) {i j : ℕ} {a b : ℚ} (hi : es[i]? = some a) (hj : es[j]? = some b) (hij : i ≤ j) :
    0 ≤ d * (b - a) := by
  obtain ⟨h1, rfl⟩ := List.getElem?_eq_some_iff.1 hi
  obtain ⟨h2, rfl⟩ := List.getElem?_eq_some_iff.1 hj
  rcases Nat.eq_or_lt_of_le hij with rfl | hij
  · simp
  · exact (List.pairwise_iff_getElem.1 h i j h1 h2 hij).le

theorem inCell_lt {d : ℚ} {es : List ℚ} (h : Runs d es) {c c' : ℕ} {x x' : ℚ} (hx : InCell d es c x) (hx' : InCell d es c' x') (hc : c < c') :
    0 < d * (x' - x) := by
  obtain ⟨a, b, ha, hb, h1, h2⟩ := hx
  obtain ⟨a', b', ha', hb', h1', h2'⟩ := hx'
  have := runs_le h hb ha' (by omega)
  have e : d * (x' - x) = d * (x' - a') + d * (a' - b) + d * (b - x) := by ring
  rw [e]; linarith

theorem inCell_unique {d : ℚ} {es : List ℚ} (h : Runs d es) {c c' : ℕ} {x : ℚ} (hx : InCell d es c x) (hx' : InCell d es c' x) : c = c' := by
  rcases Nat.lt_trichotomy c c' with hc | hc | hc
  · have := inCell_lt h hx hx' hc; simp at this
  · exact hc
  · have := inCell_lt h hx' hx hc; simp at this

theorem cellOf_cover (mask : List Bool) : ∀ c, c < mask.length + 1 + mask.count true →
    (∃ i, i < mask.length + 1 ∧ c = cellOf mask i) ∨ ∃ i, mask[i]? = some true ∧ c = cellOf mask i + 1 := by
  induction mask with
  | nil => intro c hc; left; exact ⟨0, by simp, by simp [cellOf] at *; omega⟩
  | cons g gs ih =>
    intro c hc
    cases g with
    | false =>
      cases c with
      | zero => left; exact ⟨0, by simp, by simp [cellOf]⟩
      | succ c =>
        rcases ih c (by simp at hc; omega) with ⟨i, hi, rfl⟩ | ⟨i, hi, rfl⟩
        · left; exact ⟨i + 1, by simp; omega, by rw [cellOf_succ_false]⟩
        · right; exact ⟨i + 1, by simpa using hi, by rw [cellOf_succ_false]⟩
    | true =>
      match c with
      | 0 => left; exact ⟨0, by simp, by simp [cellOf]⟩
      | 1 => right; exact ⟨0, by simp, by simp [cellOf]⟩
      | c + 2 =>
        rcases ih c (by simp at hc; omega) with ⟨i, hi, rfl⟩ | ⟨i, hi, rfl⟩
        · left; exact ⟨i + 1, by simp; omega, by rw [cellOf_succ_true]⟩
        · right; exact ⟨i + 1, by simpa using hi, by rw [cellOf_succ_true]⟩

theorem cellOf_strict (mask : List Bool) {i j : ℕ} (h : i < j) : cellOf mask i < cellOf mask j := by
  unfold cellOf
  have : (mask.take i).count true ≤ (mask.take j).count true := (List.take_sublist_take_left (by omega)).count_le _
  omega

theorem cellOf_gap {mask : List Bool} {i : ℕ} (h : mask[i]? = some true) : cellOf mask (i + 1) = cellOf mask i + 2 := by
  unfold cellOf
  rw [List.take_add_one, h]; simp; omega

end Verif
