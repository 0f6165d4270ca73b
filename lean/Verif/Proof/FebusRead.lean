import Verif.Proof.Febus
import Verif.Props.CoordRange
/-! # Reading a Febus zone -/
namespace Verif
open Spec

theorem foldl_min_mem_le (l : List ℚ) (a : ℚ) : (l.foldl min a ∈ a :: l) ∧ ∀ y ∈ a :: l, l.foldl min a ≤ y := by
  induction l generalizing a with
  | nil => simp
  | cons x l ih =>
    obtain ⟨h1, h2⟩ := ih (min a x)
    simp only [List.foldl_cons]
    constructor
    · rcases List.mem_cons.1 h1 with h | h
      · rw [h]
        rcases min_choice a x with e | e <;> rw [e] <;> simp
      · simp [h]
    · intro y hy
      have h0 := h2 (min a x) (by simp)
      rcases List.mem_cons.1 hy with rfl | hy
      · exact h0.trans (min_le_left _ _)
      · rcases List.mem_cons.1 hy with rfl | hy
        · exact h0.trans (min_le_right _ _)
        · exact h2 y (by simp [hy])

theorem foldl_max_mem_le (l : List ℚ) (a : ℚ) : (l.foldl max a ∈ a :: l) ∧ ∀ y ∈ a :: l, y ≤ l.foldl max a := by
  induction l generalizing a with
  | nil => simp
  | cons x l ih =>
    obtain ⟨h1, h2⟩ := ih (max a x)
    simp only [List.foldl_cons]
    constructor
    · rcases List.mem_cons.1 h1 with h | h
      · rw [h]
        rcases max_choice a x with e | e <;> rw [e] <;> simp
      · simp [h]
    · intro y hy
      have h0 := h2 (max a x) (by simp)
      rcases List.mem_cons.1 hy with rfl | hy
      · exact (le_max_left _ _).trans h0
      · rcases List.mem_cons.1 hy with rfl | hy
        · exact (le_max_right _ _).trans h0
        · exact h2 y (by simp [hy])

theorem earliestOf_eq {l : List ℚ} {x : ℚ} (hx : x ∈ l) (h : ∀ y ∈ l, x ≤ y) : earliestOf l = x := by
  cases l with
  | nil => simp at hx
  | cons a l =>
    unfold earliestOf
    obtain ⟨h1, h2⟩ := foldl_min_mem_le (a :: l) a
    simp only [List.headD_cons]
    apply le_antisymm
    · exact h2 x (by simp [List.mem_cons.1 hx])
    · rcases List.mem_cons.1 h1 with e | e
      · rw [e]; exact h a (by simp)
      · exact h _ e

theorem latestOf_eq {l : List ℚ} {x : ℚ} (hx : x ∈ l) (h : ∀ y ∈ l, y ≤ x) : latestOf l = x := by
  cases l with
  | nil => simp at hx
  | cons a l =>
    unfold latestOf
    obtain ⟨h1, h2⟩ := foldl_max_mem_le (a :: l) a
    simp only [List.headD_cons]
    apply le_antisymm
    · rcases List.mem_cons.1 h1 with e | e
      · rw [e]; exact h a (by simp)
      · exact h _ e
    · exact h2 x (by simp [List.mem_cons.1 hx])

theorem firstTrue_spec {m : List Bool} (h : true ∈ m) : m[firstTrue m]? = some true ∧ ∀ k, k < firstTrue m → m[k]? ≠ some true := by
  unfold firstTrue
  rw [if_pos h]
  have hlt := List.idxOf_lt_length_of_mem h
  constructor
  · rw [List.getElem?_eq_getElem hlt, List.getElem_idxOf]
  · intro k hk e
    obtain ⟨hk', e⟩ := List.getElem?_eq_some_iff.1 e
    have := List.not_of_lt_findIdx (p := (· == true)) (xs := m) hk
    simp [e] at this

theorem count_take_mono {m : List Bool} {i j : ℕ} (h : i ≤ j) : (m.take i).count true ≤ (m.take j).count true := by
  apply List.Sublist.count_le
  have : m.take i = (m.take j).take i := by rw [List.take_take, min_eq_left h]
  rw [this]
  exact List.take_sublist _ _

theorem count_take_succ {m : List Bool} {k : ℕ} (h : m[k]? = some true) : (m.take (k + 1)).count true = (m.take k).count true + 1 := by
  rw [List.take_add_one, h]
  simp

theorem count_take_stay {m : List Bool} {k : ℕ} (h : m[k]? ≠ some true) : (m.take (k + 1)).count true = (m.take k).count true := by
  rw [List.take_add_one]
  cases hk : m[k]? with
  | none => simp
  | some b => cases b with
    | true => exact absurd hk h
    | false => simp

theorem lastTrue_spec {m : List Bool} (h : true ∈ m) : m[lastTrue m]? = some true ∧ ∀ k, lastTrue m < k → m[k]? ≠ some true := by
  have hpos : 0 < m.count true := List.count_pos_iff.2 h
  have hne : m ≠ [] := by rintro rfl; simp at h
  have hlen : 0 < m.length := List.length_pos_iff.2 hne
  set sums := (List.range m.length).map fun k : ℕ => (m.take (k + 1)).count true with hsums
  have hmem : m.count true ∈ sums := by
    rw [hsums, List.mem_map]
    refine ⟨m.length - 1, by simp; omega, ?_⟩
    rw [Nat.sub_add_cancel hlen, List.take_length]
  have hl : lastTrue m = sums.idxOf (m.count true) := by
    unfold lastTrue
    simp only
    rw [if_pos hmem]
  have hlt := List.idxOf_lt_length_of_mem hmem
  rw [← hl] at hlt
  have hlt' : lastTrue m < m.length := by simpa [hsums] using hlt
  have hval : (m.take (lastTrue m + 1)).count true = m.count true := by
    have := List.getElem_idxOf (hl ▸ hlt)
    have e : sums[lastTrue m]'hlt = m.count true := by
      simp only [hl]; exact this
    rw [← e]
    simp only [hsums, List.getElem_map, List.getElem_range]
  have hbefore : ∀ k, k < lastTrue m → (m.take (k + 1)).count true ≠ m.count true := by
    intro k hk e
    have hk' : k < sums.idxOf (m.count true) := by rw [← hl]; exact hk
    have := List.not_of_lt_findIdx (p := (· == m.count true)) (xs := sums) hk'
    have e2 : sums[k]'(by omega) = m.count true := by rw [← e]; simp only [hsums, List.getElem_map, List.getElem_range]
    simp [e2] at this
  constructor
  · by_contra hc
    rw [count_take_stay hc] at hval
    by_cases h0 : lastTrue m = 0
    · rw [h0] at hval; simp at hval; omega
    · have := hbefore (lastTrue m - 1) (by omega)
      rw [Nat.sub_add_cancel (by omega)] at this
      exact this hval
  · intro k hk e
    have h1 := count_take_succ e
    have h2 := count_take_mono (m := m) (i := lastTrue m + 1) (j := k) hk
    have h3 : (m.take (k + 1)).count true ≤ m.count true := (List.take_sublist _ _).count_le _
    omega

theorem lastTrue_none {m : List Bool} (h : true ∉ m) : lastTrue m = 0 := by
  have hc : m.count true = 0 := List.count_eq_zero.2 h
  unfold lastTrue
  simp only [hc]
  split_ifs with h1
  · cases m with
    | nil => simp at h1
    | cons a m =>
      have : (List.map (fun k : ℕ => List.count true (List.take (k + 1) (a :: m))) (List.range (a :: m).length)).head? = some 0 := by
        simp only [List.length_cons, List.range_succ_eq_map, List.map_cons, List.head?_cons]
        cases a with
        | true => simp at h
        | false => simp
      generalize List.map (fun k : ℕ => List.count true (List.take (k + 1) (a :: m))) (List.range (a :: m).length) = l at *
      cases l with
      | nil => simp at this
      | cons x l => simp at this; simp [this]
  · rfl

theorem pickedBy_append {α} {tol : ℚ} {a b : Option ℚ} {t1 t2 : List ℚ} {l1 l2 : List α} (h : t1.length = l1.length) :
    pickedBy tol a b (t1 ++ t2) (l1 ++ l2) = pickedBy tol a b t1 l1 ++ pickedBy tol a b t2 l2 := by
  unfold pickedBy
  rw [List.zip_append h, List.filter_append, List.map_append]

theorem pickedBy_none {α} {tol : ℚ} {a b : Option ℚ} {ts : List ℚ} {l : List α} (h : ∀ t ∈ ts, ¬ Between tol a b t) : pickedBy tol a b ts l = [] := by
  unfold pickedBy
  rw [List.map_eq_nil_iff, List.filter_eq_nil_iff]
  intro p hp
  simpa using h _ (List.of_mem_zip hp).1

theorem pickedBy_congr {α} {tol tol' : ℚ} {a b : Option ℚ} {ts : List ℚ} {l : List α} (h : ∀ t ∈ ts, (Between tol a b t ↔ Between tol' a b t)) :
    pickedBy tol a b ts l = pickedBy tol' a b ts l := by
  unfold pickedBy
  congr 1
  apply List.filter_congr
  intro p hp
  rw [decide_eq_decide]
  exact h _ (List.of_mem_zip hp).1

theorem samplesBetween_congr {tol tol' : ℚ} {a b : Option ℚ} {ts : List ℚ} (h : ∀ t ∈ ts, (Between tol a b t ↔ Between tol' a b t)) :
    samplesBetween tol a b ts = samplesBetween tol' a b ts := by
  unfold samplesBetween
  apply List.filter_congr
  intro p hp
  rw [decide_eq_decide]
  exact h _ hp

theorem samplesBetween_eq_pickedBy (tol : ℚ) (a b : Option ℚ) (ts : List ℚ) : samplesBetween tol a b ts = pickedBy tol a b ts ts := by
  unfold samplesBetween pickedBy
  induction ts with
  | nil => rfl
  | cons t ts ih =>
    simp only [List.zip_cons_cons, List.filter_cons]
    split_ifs <;> simp_all

/-- Only a window of the labels lies between the limits. -/
theorem pickedBy_window {α} {tol : ℚ} {a b : Option ℚ} {ts : List ℚ} {l : List α} (hl : ts.length = l.length) (x y : ℕ)
    (h : ∀ i t, ts[i]? = some t → Between tol a b t → x ≤ i ∧ i < x + y) :
    pickedBy tol a b ts l = pickedBy tol a b ((ts.drop x).take y) ((l.drop x).take y) := by
  have e1 : ts = ts.take x ++ ((ts.drop x).take y ++ (ts.drop x).drop y) := by simp
  have e2 : l = l.take x ++ ((l.drop x).take y ++ (l.drop x).drop y) := by simp
  conv_lhs => rw [e1, e2]
  rw [pickedBy_append (by simp [hl]), pickedBy_append (by simp [hl])]
  rw [pickedBy_none, pickedBy_none (ts := (ts.drop x).drop y)]
  · simp
  · intro t ht hb
    obtain ⟨i, hi⟩ := List.mem_iff_getElem?.1 ht
    rw [List.getElem?_drop, List.getElem?_drop] at hi
    have := (h _ t hi hb).2
    omega
  · intro t ht hb
    obtain ⟨i, hi⟩ := List.mem_iff_getElem?.1 ht
    rw [List.getElem?_take] at hi
    split_ifs at hi with hx
    have := (h i t hi hb).1
    omega

namespace Zone
variable {α : Type} {z : Zone α} {dt : ℚ} {pad kept : ℕ}

/-- The slice of rows the reader takes of each block. -/
def rowSlice (pad kept : ℕ) : PySlice := ⟨some (((pad - kept) / 2 : ℕ) : ℤ), some ((((pad - kept) / 2 : ℕ) : ℤ) + kept - 1 + 1), none⟩

/-- Reading, once the coordinates are known. -/
theorem read_eq (h : FebusLayout z dt pad kept) (time distance : Option (Option ℚ × Option ℚ)) :
    z.read time distance = (do
      let (dist, chanSlice) ← channelsIn (.range z.cable) distance
      let (table, tnew) ← z.dataAndTime (.range (z.clock dt pad kept)) kept (rowSlice pad kept) chanSlice (cutLength chanSlice z.nchan) time
      if table.size = 0 then return none
      else do
        let r ← Recording.new tnew dist table
        return some r) := by
  unfold read
  rw [zoneTime_spec h]
  simp only [bind, Except.bind]
  rw [timeCoord_spec h]
  simp only
  rw [distance_spec h]
  simp only
  have hrows : ((((pad - kept) / 2 : ℕ) : ℤ) + (kept : ℤ) - 1 - (((pad - kept) / 2 : ℕ) : ℤ) + 1) = (kept : ℤ) := by omega
  rw [hrows]
  rfl

theorem scan_eq (h : FebusLayout z dt pad kept) : z.scan = .ok (.range (z.clock dt pad kept), .range z.cable) := by
  unfold scan
  rw [zoneTime_spec h]
  simp only [bind, Except.bind]
  rw [timeCoord_spec h]
  simp only
  rw [distance_spec h]
  rfl

theorem cutLength_all (n : ℕ) : cutLength {} n = n := by
  unfold cutLength; rw [cutList_all]; simp

theorem read_whole (h : FebusLayout z dt pad kept) :
    z.read none none = .ok (some ⟨.range (z.clock dt pad kept), .range z.cable, zoneRows z pad kept⟩) := by
  rw [read_eq h]
  have hc := h.some_channels
  have hn := count_pos h
  simp only [channelsIn, dataAndTime, bind, Except.bind, cutLength_all]
  have hnch : z.nchan ≠ 0 := by omega
  simp only [if_neg hnch]
  have hcube : cube z.blocks (rowSlice pad kept) {} = zoneRows z pad kept := by
    rw [rowSlice, cube_spec h z.blocks (fun _ hb => hb)]
    have : (cutList ({} : PySlice) : List α → List α) = id := by funext l; exact cutList_all l
    rw [this, List.map_id]
    rfl
  rw [hcube]
  have hsize : (⟨z.nchan, zoneRows z pad kept⟩ : Sheet α).size ≠ 0 := by
    simp only [Sheet.size, zoneRows_length h]
    exact (Nat.mul_pos hn hc).ne'
  rw [if_neg hsize]
  unfold Recording.new
  rw [if_pos ⟨by simp only [Coord.length]; rw [zoneRows_length h]; rfl, rfl⟩]
  rfl

theorem read_distance (h : FebusLayout z dt pad kept) (a b : Option ℚ) :
    ∃ d : Coord, d.labels = (samplesBetween (z.spacing.1 / (2 * 10 ^ 10)) a b z.cable.values).map some ∧
    z.read none (some (a, b)) = .ok (if samplesBetween (z.spacing.1 / (2 * 10 ^ 10)) a b z.cable.values = [] then none
      else some ⟨.range (z.clock dt pad kept), d,
        (zoneRows z pad kept).map (pickedBy (z.spacing.1 / (2 * 10 ^ 10)) a b z.cable.values)⟩) := by
  obtain ⟨d, sl, h1, h2, h3, h4, h5⟩ := select_parallel (cable_valid h) a b
  have habs : |z.cable.step| = z.spacing.1 := abs_of_pos h.outwards
  rw [habs] at h2 h3 h4 h5
  refine ⟨d, h2, ?_⟩
  rw [read_eq h]
  have hc := h.some_channels
  have hn := count_pos h
  simp only [channelsIn, h1, dataAndTime, bind, Except.bind]
  have h3' : cutLength sl z.nchan = (samplesBetween (z.spacing.1 / (2 * 10 ^ 10)) a b z.cable.values).length := h3
  by_cases he : samplesBetween (z.spacing.1 / (2 * 10 ^ 10)) a b z.cable.values = []
  · rw [if_pos he]
    rw [h3', he]
    simp [Sheet.size, pure, Except.pure]
  · have hpos : 0 < (samplesBetween (z.spacing.1 / (2 * 10 ^ 10)) a b z.cable.values).length := List.length_pos_iff.2 he
    have hcut : cutLength sl z.nchan ≠ 0 := by rw [h3']; omega
    rw [if_neg he]
    simp only [if_neg hcut]
    have hcube : cube z.blocks (rowSlice pad kept) sl = (zoneRows z pad kept).map (pickedBy (z.spacing.1 / (2 * 10 ^ 10)) a b z.cable.values) := by
      rw [rowSlice, cube_spec h z.blocks (fun _ hb => hb)]
      apply List.map_congr_left
      intro r hr
      exact h4 r (zoneRows_width h r hr)
    rw [hcube]
    have hsize : (⟨cutLength sl z.nchan, (zoneRows z pad kept).map (pickedBy (z.spacing.1 / (2 * 10 ^ 10)) a b z.cable.values)⟩ : Sheet α).size ≠ 0 := by
      simp only [Sheet.size, List.length_map, zoneRows_length h, h3']
      exact (Nat.mul_pos hn hpos).ne'
    rw [if_neg hsize]
    unfold Recording.new
    rw [if_pos ⟨by simp only [Coord.length, List.length_map]; rw [zoneRows_length h]; rfl, by rw [h5, h3']⟩]
    rfl

/-- The blocks of a zone: block `k` starts one step after its first label, and lasts `kept` steps. -/
theorem blockTimes_eq (h : FebusLayout z dt pad kept) (n : ℕ) :
    blockTimes (z.clock dt pad kept) kept n = (List.range n).map fun k : ℕ =>
      ((z.clock dt pad kept).start + nanos dt + (k * kept : ℕ) * nanos dt,
       (z.clock dt pad kept).start + nanos dt + ((k + 1) * kept : ℕ) * nanos dt) := by
  unfold blockTimes
  have hmin : (z.clock dt pad kept).cmin = (z.clock dt pad kept).start := by
    rw [(clock_valid h).cmin_eq]
    apply min_eq_left
    have h1 : (1 : ℚ) ≤ (z.clock dt pad kept).len := by exact_mod_cast count_pos h
    have h2 : 0 < (z.clock dt pad kept).step := nanos_pos h
    nlinarith
  apply List.map_congr_left
  intro k _
  rw [hmin]
  have hstep : (z.clock dt pad kept).step = nanos dt := rfl
  rw [hstep]
  simp only [Prod.mk.injEq]
  constructor <;> push_cast <;> ring

end Zone
end Verif
