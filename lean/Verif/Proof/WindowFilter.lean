import Verif.Spec.WindowFilter
import Verif.Props.PassFilter
import Verif.Props.Window
import Verif.Proof.Hampel
/-! # Filters with windows: lemmas -/
namespace Verif
open Spec

theorem sampleCount_asks {c : RangeCoord} (hs : 0 < c.step) {samples : Bool} {r : WinReq} {n : ℤ} (h : AsksFor c.step samples r n) :
    c.sampleCount samples false r = .ok n := by
  cases h with
  | count n => rw [C42_samples]; simp
  | value v n h0 h1 h2 =>
    obtain ⟨n', ⟨f1, f2⟩, e⟩ := C42_count_partial c hs v h0 false
    rw [e, le_antisymm (h2 _ f1) (f2 _ h1)]
    simp

theorem filterWindows_ok {m : CM} {samples : Bool} {kw : Dict WinReq} {ns : List ℤ} (h : Windows m samples kw ns) (hne : kw ≠ []) :
    filterWindows m kw samples = .ok (List.zipWith (fun (q : String × WinReq) n => (m.dims.idxOf q.1, n)) kw ns) := by
  have hin : ∀ v ∈ kw, v.1 ∈ m.dims := by
    intro v hv
    obtain ⟨i, hi, rfl⟩ := List.getElem_of_mem hv
    obtain ⟨k, s₀, s, len, e, -⟩ := h.get hi (h.length_eq ▸ hi)
    exact e.1
  unfold filterWindows
  rw [if_neg, if_neg]
  · unfold Windows at h
    clear hin hne
    induction h with
    | nil => rfl
    | @cons q n kw ns h1 _ ih =>
      obtain ⟨k, s₀, s, len, ⟨hd, stop, e⟩, hs, ha⟩ := h1
      have : filterWindow m samples q = .ok (m.dims.idxOf q.1, n) := by
        unfold filterWindow
        rw [e]
        simp only [Coord.sampleCount]
        rw [sampleCount_asks hs ha]
        rfl
      rw [List.mapM_cons, this]
      simp only [bind, Except.bind, ih]
      rfl
  · simp only [List.any_eq_true, not_exists, not_and, Bool.not_eq_true, Bool.not_eq_false', List.contains_iff_mem]
    exact hin
  · obtain ⟨w, kw', rfl⟩ := List.exists_cons_of_ne_nil hne
    simp [hin w (by simp)]

theorem filterWindows_mem {m : CM} {samples : Bool} {kw : Dict WinReq} {ws : List (ℕ × ℤ)} (h : filterWindows m kw samples = .ok ws) :
    ∀ v ∈ kw, v.1 ∈ m.dims := by
  unfold filterWindows at h
  split_ifs at h with h1 h2
  simpa using h2

/-! ### Blocks -/

theorem reflects_pos {n : ℕ} (hn : 0 < n) (j : ℤ) : Reflects n j (reflectPos n j) := by
  refine ⟨reflectPos_lt hn j, ?_⟩
  unfold reflectPos
  have h0 : (0 : ℤ) < 2 * n := by omega
  have h1 := Int.emod_nonneg j h0.ne'
  have h2 := Int.emod_lt_of_pos j h0
  have h3 : (2 * n : ℤ) ∣ j - j % (2 * n) := Int.dvd_self_sub_emod
  split_ifs with c
  · left
    rw [Int.toNat_of_nonneg h1]
    exact h3
  · right
    rw [Int.toNat_of_nonneg (by omega)]
    have : j + (2 * n - 1 - j % (2 * n)) + 1 = (j - j % (2 * n)) + 2 * n := by ring
    rw [this]
    exact dvd_add h3 (dvd_refl _)

theorem reflect_block : ∀ (sh h i : List ℕ), InRange sh i → h.length = sh.length →
    List.Forall₂ (fun (j : List ℤ) (x : List (Option ℕ)) => ∃ k, ReflectsAll sh j k ∧ x = k.map some) (boxAround h i)
      (blockPositions .reflect sh (h.map fun h => 2 * h + 1) i)
  | [], [], [], _, _ => .cons ⟨[], .nil, rfl⟩ .nil
  | n :: sh, h :: hs, j :: i, hi, hl => by
    cases hi with
    | cons hj hi =>
      have ih := reflect_block sh hs i hi (by simpa using hl)
      simp only [boxAround, blockPositions, List.map_cons]
      have hw : (2 * h + 1) / 2 = h := by omega
      rw [hw]
      generalize (2 * h + 1) = w
      induction List.range w with
      | nil => exact .nil
      | cons t l iht =>
        rw [List.flatMap_cons, List.flatMap_cons]
        refine List.rel_append ?_ iht
        rw [List.forall₂_map_left_iff, List.forall₂_map_right_iff]
        refine ih.imp ?_
        rintro js x ⟨k, h1, rfl⟩
        exact ⟨_, .cons (reflects_pos (by omega) _) h1, rfl⟩
  | [], _ :: _, _, _, hl => by simp at hl
  | _ :: _, [], _, _, hl => by simp at hl
  | [], [], _ :: _, hi, _ => by cases hi
  | _ :: _, _ :: _, [], hi, _ => by cases hi

theorem reflectsAll_inRange {sh : List ℕ} {j : List ℤ} {k : List ℕ} (h : ReflectsAll sh j k) : InRange sh k := by
  induction h with
  | nil => exact .nil
  | cons h _ ih => exact .cons h.1 ih

theorem extendPos_lt {mode : BoundaryMode} {n : ℕ} (hn : 0 < n) {j : ℤ} {k : ℕ} (h : extendPos mode n j = some k) : k < n := by
  cases mode with
  | reflect =>
    simp only [extendPos, Option.some.injEq] at h
    exact h ▸ reflectPos_lt hn j
  | constant c =>
    simp only [extendPos] at h
    split_ifs at h with c
    cases h
    omega
  | nearest =>
    simp only [extendPos, Option.some.injEq] at h
    subst h
    have : min (max j 0) ((n : ℤ) - 1) ≤ n - 1 := min_le_right _ _
    omega
  | mirror =>
    simp only [extendPos, Option.some.injEq] at h
    exact h ▸ mirror_lt hn j
  | wrap =>
    simp only [extendPos, Option.some.injEq] at h
    have := Int.emod_lt_of_pos j (show (0 : ℤ) < n by omega)
    have := Int.emod_nonneg j (show (n : ℤ) ≠ 0 by omega)
    omega

theorem extendPos_some {mode : BoundaryMode} (hm : ∀ c, mode ≠ .constant c) (n : ℕ) (j : ℤ) : (extendPos mode n j).isSome = true := by
  cases mode with
  | constant c => exact absurd rfl (hm c)
  | _ => rfl

theorem block_forall {mode : BoundaryMode} : ∀ {sh size i : List ℕ}, InRange sh i → size.length = sh.length → ∀ x ∈ blockPositions mode sh size i,
    List.Forall₂ (fun n o => ∃ j, o = extendPos mode n j) sh x
  | [], [], [], _, _, x, hx => by
    simp only [blockPositions, List.mem_singleton] at hx
    subst hx
    exact .nil
  | n :: sh, w :: size, j :: i, hi, hl, x, hx => by
    cases hi with
    | cons hj hi =>
      simp only [blockPositions, List.mem_flatMap, List.mem_map] at hx
      obtain ⟨t, -, y, hy, rfl⟩ := hx
      exact .cons ⟨_, rfl⟩ (block_forall hi (by simpa using hl) y hy)
  | [], _ :: _, _, _, hl, _, _ => by simp at hl
  | _ :: _, [], _, _, hl, _, _ => by simp at hl
  | [], [], _ :: _, hi, _, _, _ => by cases hi
  | _ :: _, _ :: _, [], hi, _, _, _ => by cases hi

theorem block_ne_nil (mode : BoundaryMode) : ∀ (sh size i : List ℕ), (∀ w ∈ size, 0 < w) → blockPositions mode sh size i ≠ []
  | n :: sh, w :: size, j :: i, h => by
    simp only [blockPositions]
    intro h0
    rw [List.flatMap_eq_nil_iff] at h0
    have := h0 0 (List.mem_range.2 (h w (by simp)))
    exact block_ne_nil mode sh size i (fun w hw => h w (List.mem_cons_of_mem _ hw)) (List.map_eq_nil_iff.1 this)
  | [], _, _, _ => by simp [blockPositions]
  | _ :: _, [], _, _ => by simp [blockPositions]
  | _ :: _, _ :: _, [], _ => by simp [blockPositions]

theorem forall₂_positions {mode : BoundaryMode} {sh : List ℕ} {x : List (Option ℕ)} (hp : ∀ n ∈ sh, 0 < n) (h : List.Forall₂ (fun n o => ∃ j, o = extendPos mode n j) sh x)
    (hs : x.all Option.isSome = true) : InRange sh (x.map fun o => o.getD 0) := by
  induction h with
  | nil => exact .nil
  | @cons n o sh x h1 _ ih =>
    obtain ⟨j, rfl⟩ := h1
    simp only [List.all_cons, Bool.and_eq_true] at hs
    obtain ⟨k, hk⟩ := Option.isSome_iff_exists.1 hs.1
    refine .cons ?_ (ih (fun n hn => hp n (List.mem_cons_of_mem _ hn)) hs.2)
    rw [hk]
    exact extendPos_lt (hp n (by simp)) hk

theorem inRange_pos {sh i : List ℕ} (h : InRange sh i) : ∀ n ∈ sh, 0 < n := by
  induction h with
  | nil => simp
  | cons h _ ih =>
    intro n hn
    rcases List.mem_cons.1 hn with rfl | hn
    · omega
    · exact ih n hn

/-- Every value in a block is a sample, or the fill value. -/
theorem block_sample {mode : BoundaryMode} {a : Nd ℚ} {size i : List ℕ} (hi : InRange a.shape i) (hl : size.length = a.shape.length) {x : List (Option ℕ)}
    (hx : x ∈ blockPositions mode a.shape size i) :
    (∃ j, InRange a.shape j ∧ ∀ b : Nd ℚ, sampleAt mode b x = b.get j) ∨ (∃ c, mode = .constant c ∧ ∀ b : Nd ℚ, sampleAt mode b x = c) := by
  have hf := block_forall hi hl x hx
  unfold sampleAt
  by_cases hs : x.all Option.isSome = true
  · left
    refine ⟨_, forall₂_positions (inRange_pos hi) hf hs, fun b => by rw [if_pos hs]⟩
  · right
    have : ∃ c, mode = .constant c := by
      by_contra hc
      push Not at hc
      refine hs ?_
      clear hs hx hl hi
      generalize a.shape = sh at hf
      induction hf with
      | nil => rfl
      | cons h1 _ ih =>
        obtain ⟨j, rfl⟩ := h1
        rw [List.all_cons, extendPos_some hc, ih]
        rfl
    obtain ⟨c, rfl⟩ := this
    exact ⟨c, rfl, fun b => by rw [if_neg hs]; rfl⟩

/-! ### Sizes -/

theorem foldl_set_length : ∀ (ws : List (ℕ × ℤ)) (s : List ℤ), (ws.foldl (fun s w => s.set w.1 w.2) s).length = s.length
  | [], s => rfl
  | w :: ws, s => by rw [List.foldl_cons, foldl_set_length ws, List.length_set]

theorem foldl_set_not : ∀ (ws : List (ℕ × ℤ)) (s : List ℤ) {a : ℕ}, a ∉ ws.map Prod.fst → (ws.foldl (fun s w => s.set w.1 w.2) s)[a]? = s[a]?
  | [], s, a, _ => rfl
  | w :: ws, s, a, h => by
    rw [List.map_cons, List.mem_cons, not_or] at h
    rw [List.foldl_cons, foldl_set_not ws _ h.2, List.getElem?_set_ne (Ne.symm h.1)]

theorem foldl_set_mem : ∀ (ws : List (ℕ × ℤ)) (s : List ℤ) {a : ℕ} {n : ℤ}, (ws.map Prod.fst).Nodup → (a, n) ∈ ws → a < s.length →
    (ws.foldl (fun s w => s.set w.1 w.2) s)[a]? = some n
  | w :: ws, s, a, n, hn, h, ha => by
    rw [List.map_cons, List.nodup_cons] at hn
    rw [List.foldl_cons]
    rcases List.mem_cons.1 h with rfl | h
    · rw [foldl_set_not ws _ hn.1, List.getElem?_set_self ha]
    · exact foldl_set_mem ws _ hn.2 h (by rw [List.length_set]; exact ha)

theorem zipWith_fst {dims : List String} : ∀ {kw : Dict WinReq} {ns : List ℤ}, kw.length = ns.length →
    (List.zipWith (fun (q : String × WinReq) n => (dims.idxOf q.1, n)) kw ns).map Prod.fst = kw.map fun q => dims.idxOf q.1
  | [], [], _ => rfl
  | q :: kw, n :: ns, h => by
    simp only [List.zipWith_cons_cons, List.map_cons]
    rw [zipWith_fst (by simpa using h)]
  | [], _ :: _, h => by simp at h
  | _ :: _, [], h => by simp at h

theorem blockSize_half {m : CM} {samples : Bool} {kw : Dict WinReq} {ns : List ℤ} {hw : List ℕ} (hw1 : Windows m samples kw ns) (hk : (kw.map Prod.fst).Nodup)
    (hd : m.dims.Nodup) (hh : HalfWidths kw ns m.dims hw) :
    blockSize m.dims.length (List.zipWith (fun (q : String × WinReq) n => (m.dims.idxOf q.1, n)) kw ns) = hw.map fun h : ℕ => 2 * (h : ℤ) + 1 := by
  have hin : ∀ v ∈ kw, v.1 ∈ m.dims := by
    intro v hv
    obtain ⟨i, hi, rfl⟩ := List.getElem_of_mem hv
    obtain ⟨k, s₀, s, len, e, -⟩ := hw1.get hi (hw1.length_eq ▸ hi)
    exact e.1
  have hax : (kw.map fun q => m.dims.idxOf q.1).Nodup := by
    have : (kw.map fun q => m.dims.idxOf q.1) = (kw.map Prod.fst).map m.dims.idxOf := by rw [List.map_map]; rfl
    rw [this]
    refine hk.map_on fun x hx y hy h => ?_
    obtain ⟨v, hv, rfl⟩ := List.mem_map.1 hx
    exact (List.idxOf_inj (hin v hv)).1 h
  unfold blockSize
  refine List.ext_getElem? fun a => ?_
  by_cases ha : a < m.dims.length
  · have hah : a < hw.length := hh.length_eq ▸ ha
    rw [List.getElem?_map, List.getElem?_eq_getElem hah, Option.map_some]
    have h := hh.get ha hah
    simp only [List.get_eq_getElem] at h
    rcases h with ⟨r, n, h1, h2⟩ | ⟨h1, h2⟩
    · refine (foldl_set_mem _ _ (n := n) ?_ ?_ (by simpa using ha)).trans (by rw [h2])
      · rw [zipWith_fst hw1.length_eq]
        exact hax
      · have : List.zipWith (fun (q : String × WinReq) n => (m.dims.idxOf q.1, n)) kw ns =
            (kw.zip ns).map fun z => (m.dims.idxOf z.1.1, z.2) := by rw [List.zip, List.map_zipWith]
        rw [this]
        refine List.mem_map.2 ⟨_, h1, ?_⟩
        simp only
        rw [hd.idxOf_getElem]
    · refine (foldl_set_not _ _ ?_).trans ?_
      · rw [zipWith_fst hw1.length_eq]
        intro hc
        obtain ⟨v, hv, e⟩ := List.mem_map.1 hc
        refine h1 (List.mem_map.2 ⟨v, hv, ?_⟩)
        have : m.dims[m.dims.idxOf v.1]'(List.idxOf_lt_length_of_mem (hin v hv)) = v.1 := List.getElem_idxOf _
        rw [← this]
        simp only [e]
      · rw [h2, List.getElem?_replicate, if_pos ha]
        rfl
  · rw [List.getElem?_eq_none (by rw [foldl_set_length]; simpa using ha), List.getElem?_eq_none (by rw [List.length_map, ← hh.length_eq]; omega)]

/-! ### Ranks -/

theorem insertionSort_map {φ : ℚ → ℚ} (hφ : Monotone φ) (l : List ℚ) : (l.map φ).insertionSort (· ≤ ·) = (l.insertionSort (· ≤ ·)).map φ := by
  have h1 : ((l.map φ).insertionSort (· ≤ ·)).Pairwise (· ≤ ·) := List.pairwise_insertionSort _ _
  have h2 : ((l.insertionSort (· ≤ ·)).map φ).Pairwise (· ≤ ·) := (List.pairwise_insertionSort (· ≤ ·) l).map φ fun a b h => hφ h
  refine List.Perm.eq_of_pairwise (fun _ _ _ _ => le_antisymm) h1 h2 ?_
  exact (List.perm_insertionSort _ _).trans ((List.perm_insertionSort _ _).map φ).symm

theorem scipyMedian_map {φ : ℚ → ℚ} (hφ : Monotone φ) {l : List ℚ} (h : l ≠ []) : MoveOp.ofScipy .median (l.map φ) = φ (MoveOp.ofScipy .median l) := by
  have hl : l.length / 2 < (l.insertionSort (· ≤ ·)).length := by
    rw [List.length_insertionSort]
    have := List.length_pos_iff.2 h
    omega
  simp only [MoveOp.ofScipy, insertionSort_map hφ, List.length_map, List.getD_eq_getElem?_getD, List.getElem?_map]
  rw [List.getElem?_eq_getElem hl]
  rfl

end Verif
