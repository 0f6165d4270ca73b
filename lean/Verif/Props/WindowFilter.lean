import Verif.Proof.WindowFilter
/-! # C78: median, Savitzky-Golay and Gaussian filters -/
namespace Verif
open Spec

theorem boxAround_odd : ∀ (h i : List ℕ), (boxAround h i).length % 2 = 1
  | h :: hs, j :: i => by
    have ih := boxAround_odd hs i
    simp only [boxAround, List.length_flatMap, List.length_map, List.map_const', List.length_range, List.sum_replicate, smul_eq_mul]
    rw [Nat.mul_mod, ih]
    omega
  | [], _ => by simp [boxAround]
  | _ :: _, [] => by simp [boxAround]

theorem data_dims {α : Type} {p : PatchM α} {d : String} (hsh : p.cm.shape = p.data.shape) (hd : d ∈ p.cm.dims) : p.data.shape.length = p.cm.dims.length := by
  rw [shape_dims hsh hd, List.length_map]

theorem windows_dims {m : CM} {samples : Bool} {kw : Dict WinReq} {ns : List ℤ} (h : Windows m samples kw ns) : ∀ v ∈ kw, v.1 ∈ m.dims := by
  intro v hv
  obtain ⟨i, hi, rfl⟩ := List.getElem_of_mem hv
  obtain ⟨k, s₀, s, len, e, -⟩ := h.get hi (h.length_eq ▸ hi)
  exact e.1

section
variable {p : PatchM ℚ} {samples : Bool} {kw : Dict WinReq} {ns : List ℤ}

/-- With odd windows, every sample becomes the median of the samples in the box around it, the data being reflected at the ends; and nothing else changes. The
box has one sample along the dimensions that are not given. Missing: even windows, see `C78_even_violated`. -/
theorem C78_median_partial (hm : Regular p.cm) (hsh : p.cm.shape = p.data.shape) (hne : kw ≠ []) (hk : (kw.map Prod.fst).Nodup) (hw : Windows p.cm samples kw ns)
    {hs : List ℕ} (hh : HalfWidths kw ns p.cm.dims hs) :
    ∃ q, p.medianFilter .reflect kw samples = .ok q ∧ q.cm = p.cm ∧ q.data.shape = p.data.shape ∧ ∀ i, InRange p.data.shape i →
      ∃ ws, List.Forall₂ (fun j v => ∃ k, ReflectsAll p.data.shape j k ∧ v = p.data.get k) (boxAround hs i) ws ∧ IsMedian ws (q.data.get i) := by
  have hb := blockSize_half hw hk hm.distinct hh
  refine ⟨⟨p.cm, medianData .reflect p.data (hs.map fun h => 2 * h + 1)⟩, ?_, rfl, rfl, fun i hi => ?_⟩
  · unfold PatchM.medianFilter
    rw [filterWindows_ok hw hne]
    simp only [bind, Except.bind]
    rw [hb, if_neg]
    · congr 3
      rw [List.map_map]
      refine List.map_congr_left fun h _ => ?_
      simp only [Function.comp]
      omega
    · simp only [List.any_map, List.any_eq_true, Function.comp, decide_eq_true_eq, not_exists, not_and, not_le]
      intro h _
      omega
  · obtain ⟨v, hv⟩ := List.exists_mem_of_ne_nil _ hne
    have hlen := data_dims hsh (windows_dims hw v hv)
    have hf := reflect_block p.data.shape hs i hi (by rw [← hh.length_eq, hlen])
    refine ⟨(blockPositions .reflect p.data.shape (hs.map fun h => 2 * h + 1) i).map (sampleAt .reflect p.data), ?_, ?_⟩
    · rw [List.forall₂_map_right_iff]
      refine hf.imp ?_
      rintro j x ⟨k, h1, rfl⟩
      refine ⟨k, h1, ?_⟩
      unfold sampleAt
      rw [if_pos (by simp)]
      simp
    · have ho : ((blockPositions .reflect p.data.shape (hs.map fun h => 2 * h + 1) i).map (sampleAt .reflect p.data)).length % 2 = 1 := by
        rw [List.length_map, ← hf.length_eq]
        exact boxAround_odd hs i
      exact windowValue_scipy (sd := fun _ => 0) (op := .median) (by rintro h; rw [h] at ho; simp at ho) (by decide) fun _ => ho

theorem medianFilter_split {mode : BoundaryMode} {q : PatchM ℚ} (h : p.medianFilter mode kw samples = .ok q) :
    ∃ ws, filterWindows p.cm kw samples = .ok ws ∧ (∀ s ∈ blockSize p.cm.dims.length ws, 0 < s) ∧
      q = ⟨p.cm, medianData mode p.data ((blockSize p.cm.dims.length ws).map Int.toNat)⟩ := by
  unfold PatchM.medianFilter at h
  obtain ⟨ws, h1, h⟩ := bind_split h
  split_ifs at h with c
  refine ⟨ws, h1, ?_, by cases h; rfl⟩
  simpa only [List.any_eq_true, decide_eq_true_eq, not_exists, not_and, not_le] using c

/-- Whatever is done at the ends, a median filter that succeeds keeps the coordinates and the shape of the data, and gives no value below or above all samples
(and the fill value, if there is one). In particular constant data are not changed. -/
theorem C78_median_within (hsh : p.cm.shape = p.data.shape) {mode : BoundaryMode} {q : PatchM ℚ} (h : p.medianFilter mode kw samples = .ok q) {lo hi : ℚ}
    (hc : ∀ c, mode = .constant c → lo ≤ c ∧ c ≤ hi) (hb : ∀ i, InRange p.data.shape i → lo ≤ p.data.get i ∧ p.data.get i ≤ hi) :
    q.cm = p.cm ∧ q.data.shape = p.data.shape ∧ ∀ i, InRange p.data.shape i → lo ≤ q.data.get i ∧ q.data.get i ≤ hi := by
  obtain ⟨ws, h1, h2, rfl⟩ := medianFilter_split h
  refine ⟨rfl, rfl, fun i hi' => ?_⟩
  have hd : ∃ d, d ∈ p.cm.dims := by
    cases kw with
    | nil => cases h1
    | cons v kw => exact ⟨_, filterWindows_mem h1 v (by simp)⟩
  obtain ⟨d, hd⟩ := hd
  have hlen := data_dims hsh hd
  refine ofScipy_bounds (by decide) (by decide) ?_ ?_
  · rw [Ne, List.map_eq_nil_iff]
    refine block_ne_nil _ _ _ _ fun w hw => ?_
    obtain ⟨s, hs, rfl⟩ := List.mem_map.1 hw
    have := h2 s hs
    omega
  · intro x hx
    obtain ⟨y, hy, rfl⟩ := List.mem_map.1 hx
    rcases block_sample hi' (by rw [List.length_map, blockSize, foldl_set_length, List.length_replicate, hlen]) hy with ⟨j, hj, e⟩ | ⟨c, e1, e⟩
    · rw [e]
      exact hb j hj
    · rw [e]
      exact hc c e1

/-- Median filters depend on the order of the samples only: filtering commutes with every function that keeps it, unless samples beyond the ends are replaced
by a constant. -/
theorem C78_median_monotone {mode : BoundaryMode} (hmode : ∀ c, mode ≠ .constant c) {φ : ℚ → ℚ} (hφ : Monotone φ) {q : PatchM ℚ}
    (hsh : p.cm.shape = p.data.shape) (h : p.medianFilter mode kw samples = .ok q) :
    ∃ r, (⟨p.cm, p.data.shape, fun i => φ (p.data.get i)⟩ : PatchM ℚ).medianFilter mode kw samples = .ok r ∧ r.cm = q.cm ∧ r.data.shape = q.data.shape ∧
      ∀ i, InRange q.data.shape i → r.data.get i = φ (q.data.get i) := by
  obtain ⟨ws, h1, h2, rfl⟩ := medianFilter_split h
  have hd : ∃ d, d ∈ p.cm.dims := by
    cases kw with
    | nil => cases h1
    | cons v kw => exact ⟨_, filterWindows_mem h1 v (by simp)⟩
  obtain ⟨d, hd⟩ := hd
  have hlen := data_dims hsh hd
  refine ⟨⟨p.cm, medianData mode ⟨p.data.shape, fun i => φ (p.data.get i)⟩ ((blockSize p.cm.dims.length ws).map Int.toNat)⟩, ?_, rfl, rfl, fun i hi' => ?_⟩
  · unfold PatchM.medianFilter
    simp only [h1, bind, Except.bind]
    rw [if_neg]
    simpa only [List.any_eq_true, decide_eq_true_eq, not_exists, not_and, not_le] using h2
  · simp only [medianData]
    rw [← scipyMedian_map hφ, List.map_map]
    · congr 1
      refine List.map_congr_left fun y hy => ?_
      rcases block_sample (a := p.data) hi' (by rw [List.length_map, blockSize, foldl_set_length, List.length_replicate, hlen]) hy with ⟨j, hj, e⟩ | ⟨c, e1, e⟩
      · rw [Function.comp, e, e]
      · exact absurd e1 (hmode c)
    · rw [Ne, List.map_eq_nil_iff]
      refine block_ne_nil _ _ _ _ fun w hw => ?_
      obtain ⟨s, hs, rfl⟩ := List.mem_map.1 hw
      have := h2 s hs
      omega

/-- A median filter with ascending, evenly spaced labels succeeds if, and only if, all windows have samples. -/
theorem C78_median_accepts (mode : BoundaryMode) (hne : kw ≠ []) (hk : (kw.map Prod.fst).Nodup) (hw : Windows p.cm samples kw ns) :
    (∃ q, p.medianFilter mode kw samples = .ok q) ↔ ∀ n ∈ ns, 0 < n := by
  have hax : ((List.zipWith (fun (q : String × WinReq) n => (p.cm.dims.idxOf q.1, n)) kw ns).map Prod.fst).Nodup := by
    rw [zipWith_fst hw.length_eq]
    have : (kw.map fun q => p.cm.dims.idxOf q.1) = (kw.map Prod.fst).map p.cm.dims.idxOf := by rw [List.map_map]; rfl
    rw [this]
    refine hk.map_on fun x hx y hy h => ?_
    obtain ⟨v, hv, rfl⟩ := List.mem_map.1 hx
    exact (List.idxOf_inj (windows_dims hw v hv)).1 h
  constructor
  · rintro ⟨q, h⟩ n hn
    obtain ⟨ws, h1, h2, -⟩ := medianFilter_split h
    rw [filterWindows_ok hw hne] at h1
    cases h1
    obtain ⟨i, hi, rfl⟩ := List.getElem_of_mem hn
    have hi' : i < kw.length := hw.length_eq ▸ hi
    refine h2 _ (List.mem_of_getElem? (foldl_set_mem _ _ hax ?_ ?_ (a := p.cm.dims.idxOf kw[i].1)))
    · exact List.mem_of_getElem (i := i) (h := by simp [hi, hi']) (by rw [List.getElem_zipWith])
    · rw [List.length_replicate]
      exact List.idxOf_lt_length_of_mem (windows_dims hw _ (List.getElem_mem hi'))
  · intro h
    unfold PatchM.medianFilter
    rw [filterWindows_ok hw hne]
    simp only [bind, Except.bind]
    rw [if_neg]
    · exact ⟨_, rfl⟩
    · simp only [List.any_eq_true, decide_eq_true_eq, not_exists, not_and, not_le]
      have : ∀ (ws : List (ℕ × ℤ)) (s : List ℤ), (∀ w ∈ ws, 0 < w.2) → (∀ x ∈ s, 0 < x) → ∀ x ∈ ws.foldl (fun s w => s.set w.1 w.2) s, 0 < x := by
        intro ws
        induction ws with
        | nil => intro s _ h; exact h
        | cons w ws ih =>
          intro s h1 h2
          refine ih _ (fun w hw => h1 w (List.mem_cons_of_mem _ hw)) fun x hx => ?_
          rcases List.mem_or_eq_of_mem_set hx with hx | rfl
          · exact h2 x hx
          · exact h1 w (by simp)
      refine this _ _ (fun w hw' => ?_) (fun x hx => by rw [List.eq_of_mem_replicate hx]; norm_num)
      obtain ⟨i, hi, rfl⟩ := List.getElem_of_mem hw'
      rw [List.getElem_zipWith]
      exact h _ (List.getElem_mem _)

end

/-! ### Savitzky-Golay and Gaussian filters -/

section
variable {K : Type} [Inhabited K] {p : PatchM K} {samples : Bool}

theorem savgol_one {savgol : ℕ → ℕ → List K → List K} {d : String} {k : Kind} {s₀ s : ℚ} {n : ℕ} (hd : EvenAlong p.cm d k s₀ s n) (hs : 0 < s) {r : WinReq} {w : ℤ}
    (hw : AsksFor s samples r w) (interp : Bool) (polyorder : ℕ) :
    p.savgolFilter savgol interp polyorder [(d, r)] samples =
      (savgolAxis savgol interp polyorder p.data (p.cm.dims.idxOf d, w)).map fun data => ⟨p.cm, data⟩ := by
  unfold PatchM.savgolFilter
  rw [filterWindows_ok (ns := [w]) (.cons ⟨k, s₀, s, n, hd, hs, hw⟩ .nil) (by simp)]
  simp only [bind, Except.bind, List.zipWith_cons_cons, List.zipWith_nil_left, List.foldlM_cons, List.foldlM_nil]
  cases savgolAxis savgol interp polyorder p.data (p.cm.dims.idxOf d, w) <;> rfl

/-- Along one dimension, the filter with the window asked for is applied to every line, and nothing else changes. Missing: several dimensions, see
`C78_savgol_violated`. -/
theorem C78_savgol_partial {savgol : ℕ → ℕ → List K → List K} (hlen : ∀ w o l, (savgol w o l).length = l.length) (hm : Regular p.cm)
    (hsh : p.cm.shape = p.data.shape) {d : String} {k : Kind} {s₀ s : ℚ} {n : ℕ} (hd : EvenAlong p.cm d k s₀ s n) (hs : 0 < s) {r : WinReq} {w : ℤ}
    (hw : AsksFor s samples r w) {interp : Bool} {polyorder : ℕ} (ho : polyorder < w) (hi : interp = true → w ≤ n) :
    ∃ q, p.savgolFilter savgol interp polyorder [(d, r)] samples = .ok q ∧ LinesBy (savgol w.toNat polyorder) p q d := by
  refine ⟨_, ?_, linesBy_eachLine (hlen _ _) hsh hd.1⟩
  rw [savgol_one hd hs hw, savgolAxis, if_neg (not_le.2 ho), if_neg]
  · rfl
  · rw [even_shape hm hsh hd]
    simp only [Bool.and_eq_true, decide_eq_true_eq, not_and, not_lt]
    exact hi

/-- Windows that do not have more samples than the order of the polynomials, or (with `mode="interp"`) have more than the line, are refused. -/
theorem C78_savgol_refused {savgol : ℕ → ℕ → List K → List K} (hm : Regular p.cm)
    (hsh : p.cm.shape = p.data.shape) {d : String} {k : Kind} {s₀ s : ℚ} {n : ℕ} (hd : EvenAlong p.cm d k s₀ s n) (hs : 0 < s) {r : WinReq} {w : ℤ}
    (hw : AsksFor s samples r w) {interp : Bool} {polyorder : ℕ} (h : w ≤ polyorder ∨ (interp = true ∧ (n : ℤ) < w)) :
    p.savgolFilter savgol interp polyorder [(d, r)] samples = .error .valueError := by
  rw [savgol_one hd hs hw, savgolAxis]
  split_ifs with c1 c2
  · rfl
  · rfl
  · exfalso
    rw [even_shape hm hsh hd] at c2
    rcases h with h | h
    · exact c1 h
    · exact c2 (by simpa using h)

/-- With several dimensions, only the filter along the last one has an effect: the result is what this filter makes of the data. -/
theorem C78_savgol_last {savgol : ℕ → ℕ → List K → List K} (hlen : ∀ w o l, (savgol w o l).length = l.length) (hsh : p.cm.shape = p.data.shape) {kw : Dict WinReq}
    {ns : List ℤ} {d : String} {r : WinReq} {w : ℤ} (hw : Windows p.cm samples (kw ++ [(d, r)]) (ns ++ [w])) {interp : Bool} {polyorder : ℕ} {q : PatchM K}
    (h : p.savgolFilter savgol interp polyorder (kw ++ [(d, r)]) samples = .ok q) : LinesBy (savgol w.toNat polyorder) p q d := by
  have hl : kw.length = ns.length := by simpa using hw.length_eq
  have hd : d ∈ p.cm.dims := windows_dims hw (d, r) (by simp)
  unfold PatchM.savgolFilter at h
  rw [filterWindows_ok hw (by simp), List.zipWith_append hl] at h
  simp only [bind, Except.bind, List.zipWith_cons_cons, List.zipWith_nil_left, List.foldlM_append, List.foldlM_cons, List.foldlM_nil] at h
  split at h
  · cases h
  · rename_i data e
    split at e
    · cases e
    · split at e
      · cases e
      · rename_i data' e'
        cases e
        cases h
        unfold savgolAxis at e'
        split_ifs at e'
        cases e'
        exact linesBy_eachLine (hlen _ _) hsh hd

theorem gauss_fold {gauss : ℕ → List K → List K} (hlen : ∀ w l, (gauss w l).length = l.length) :
    ∀ (kw : Dict WinReq) (ns : List ℤ) (p : PatchM K), p.cm.shape = p.data.shape → (∀ v ∈ kw, v.1 ∈ p.cm.dims) → kw.length = ns.length → (∀ n ∈ ns, 0 < n) →
      InTurn (List.zipWith (fun (v : String × WinReq) n => (v.1, gauss n.toNat)) kw ns) p
        ⟨p.cm, (List.zipWith (fun (q : String × WinReq) n => (p.cm.dims.idxOf q.1, n)) kw ns).foldl (gaussAxis gauss) p.data⟩
  | [], [], p, _, _, _, _ => .nil p
  | v :: kw, n :: ns, p, hsh, hd, hl, hn => by
    have h0 : ¬ n ≤ 0 := not_le.2 (hn n (by simp))
    simp only [List.zipWith_cons_cons, List.foldl_cons]
    rw [gaussAxis, if_neg h0]
    exact .cons (linesBy_eachLine (hlen _) hsh (hd v (by simp)))
      (gauss_fold hlen kw ns ⟨p.cm, p.data.eachLine (gauss n.toNat) (p.cm.dims.idxOf v.1)⟩ hsh (fun v hv => hd v (List.mem_cons_of_mem _ hv)) (by simpa using hl)
        fun n hn' => hn n (List.mem_cons_of_mem _ hn'))
  | [], _ :: _, _, _, _, hl, _ => by simp at hl
  | _ :: _, [], _, _, _, hl, _ => by simp at hl

/-- Gaussian filters are applied to all lines along the dimensions given, one dimension after the other, and nothing else changes. Missing: the standard
deviation is that number of whole samples, see `C78_sigma_violated`, and ascending labels, see `C78_descending_violated`. -/
theorem C78_gaussian_partial {gauss : ℕ → List K → List K} (hlen : ∀ w l, (gauss w l).length = l.length) (hsh : p.cm.shape = p.data.shape) {kw : Dict WinReq}
    {ns : List ℤ} (hne : kw ≠ []) (hw : Windows p.cm samples kw ns) (hn : ∀ n ∈ ns, 0 < n) :
    ∃ q, p.gaussianFilter gauss kw samples = .ok q ∧ InTurn (List.zipWith (fun (v : String × WinReq) n => (v.1, gauss n.toNat)) kw ns) p q := by
  refine ⟨_, ?_, gauss_fold hlen kw ns p hsh (windows_dims hw) hw.length_eq hn⟩
  unfold PatchM.gaussianFilter
  rw [filterWindows_ok hw hne]
  rfl

/-- All three filters refuse to be called without a dimension, with one that is not there, and with one whose labels are not evenly spaced. -/
theorem C78_refused (p : PatchM ℚ) (samples : Bool) {kw : Dict WinReq}
    (h : kw = [] ∨ (∃ v ∈ kw, v.1 ∉ p.cm.dims) ∨ ∃ v ∈ kw, ∀ ds k c, p.cm.ents.get? v.1 ≠ some (ds, .one k (.range c))) :
    (∀ mode, ∃ e, p.medianFilter mode kw samples = .error e) ∧ (∀ savgol interp polyorder, ∃ e, p.savgolFilter savgol interp polyorder kw samples = .error e) ∧
      ∀ gauss, ∃ e, p.gaussianFilter gauss kw samples = .error e := by
  have key : ∃ e, filterWindows p.cm kw samples = .error e := by
    cases hq : filterWindows p.cm kw samples with
    | error e => exact ⟨e, rfl⟩
    | ok ws =>
      exfalso
      have hin := filterWindows_mem hq
      rcases h with rfl | ⟨v, hv, h⟩ | ⟨v, hv, h⟩
      · cases hq
      · exact h (hin v hv)
      · unfold filterWindows at hq
        split_ifs at hq
        obtain ⟨y, -, hy⟩ := mapM_mem_in hq hv
        unfold filterWindow at hy
        split at hy
        · rename_i ds k c e
          cases c with
          | range c => exact h _ _ _ e
          | _ => cases hy
        · cases hy
  obtain ⟨e, he⟩ := key
  refine ⟨fun mode => ⟨e, ?_⟩, fun savgol interp polyorder => ⟨e, ?_⟩, fun gauss => ⟨e, ?_⟩⟩
  · unfold PatchM.medianFilter; rw [he]; rfl
  · unfold PatchM.savgolFilter; rw [he]; rfl
  · unfold PatchM.gaussianFilter; rw [he]; rfl

/-- **Violated**: a standard deviation in the units of the dimension should be used as it is, but it is rounded up to whole samples. All deviations up to the
step give the same result. -/
theorem C78_sigma_violated (gauss : ℕ → List K → List K) {d : String} {k : Kind} {s₀ s : ℚ} {n : ℕ} (hd : EvenAlong p.cm d k s₀ s n) (hs : 0 < s) {v : ℚ}
    (h0 : 0 < v) (h1 : v ≤ s) : p.gaussianFilter gauss [(d, .value v)] false = p.gaussianFilter gauss [(d, .value s)] false := by
  have key : ∀ v : ℚ, 0 < v → v ≤ s → AsksFor s false (.value v) 1 := by
    intro v h0 h1
    refine .value v 1 h0.le (by simpa using h1) fun m hm => ?_
    by_contra hc
    have : (m : ℚ) ≤ 0 := by exact_mod_cast (show m ≤ 0 by omega)
    nlinarith
  unfold PatchM.gaussianFilter
  rw [filterWindows_ok (ns := [1]) (.cons ⟨k, s₀, s, n, hd, hs, key v h0 h1⟩ .nil) (by simp),
    filterWindows_ok (ns := [1]) (.cons ⟨k, s₀, s, n, hd, hs, key s hs le_rfl⟩ .nil) (by simp)]
  rfl

/-- **Violated**: along a dimension with descending labels no filter at all is applied, and no error is raised. -/
theorem C78_descending_violated (gauss : ℕ → List K → List K) {d : String} {k : Kind} {s₀ s : ℚ} {n : ℕ} (hd : EvenAlong p.cm d k s₀ s n) (hs : s < 0) {v : ℚ}
    (h0 : 0 < v) : p.gaussianFilter gauss [(d, .value v)] false = .ok p := by
  obtain ⟨hdd, stop, e⟩ := hd
  have hneg : ¬ (0 : ℤ) < ⌈v / s⌉ := by
    rw [not_lt, Int.ceil_le]
    push_cast
    exact (div_neg_of_pos_of_neg h0 hs).le
  have hcount : (⟨s₀, stop, s, n⟩ : RangeCoord).sampleCount false false (.value v) = .ok ⌈v / s⌉ := by
    have hrel : ∀ c : RangeCoord, c.relative (WinReq.amount c (.value v)) = c.cmin + v := fun c => if_pos h0.le
    simp only [RangeCoord.sampleCount, RangeCoord.rawCount, hrel, Bool.false_eq_true, if_false, hs.ne, Bool.false_and, bind, Except.bind, add_sub_cancel_left]
  unfold PatchM.gaussianFilter filterWindows
  rw [if_neg (by simpa using hdd), if_neg (by simpa using hdd)]
  simp only [List.mapM_cons, List.mapM_nil, filterWindow, e, Coord.sampleCount, hcount, bind, Except.bind, pure, Except.pure, Except.map, List.foldl_cons,
    List.foldl_nil, gaussAxis]
  rw [if_pos (not_lt.1 hneg)]

end

/-! ### Cases -/

/-- Three channels, four samples each. -/
def exTable : PatchM ℚ :=
  ⟨⟨["x", "t"], [("x", ["x"], .one .float (.range ⟨0, 6, 2, 3⟩)), ("t", ["t"], .one .float (.range ⟨0, 4, 1, 4⟩))]⟩, [3, 4],
    fun i => ([[4, 1, 7, 0], [2, 9, 3, 5], [8, 6, 1, 1]].getD (i.getD 0 0) []).getD (i.getD 1 0) 0⟩

theorem exTable_x : EvenAlong exTable.cm "x" .float 0 2 3 := ⟨by decide, _, rfl⟩
theorem exTable_t : EvenAlong exTable.cm "t" .float 0 1 4 := ⟨by decide, _, rfl⟩

theorem exTable_windows : Windows exTable.cm true [("x", .count 3), ("t", .count 3)] [3, 3] :=
  .cons ⟨_, _, _, _, exTable_x, by norm_num, .count 3⟩ (.cons ⟨_, _, _, _, exTable_t, by norm_num, .count 3⟩ .nil)

theorem exTable_regular : Regular exTable.cm := by
  have hmem : ∀ name ds c, (name, ds, c) ∈ exTable.cm.ents → (name = "x" ∧ ds = ["x"] ∧ c = .one .float (.range ⟨0, 6, 2, 3⟩)) ∨
      (name = "t" ∧ ds = ["t"] ∧ c = .one .float (.range ⟨0, 4, 1, 4⟩)) := by
    intro name ds c h
    simpa only [exTable, List.mem_cons, Prod.mk.injEq, List.not_mem_nil, or_false] using h
  refine ⟨CM.mk?_wf (m := exTable.cm) (if_pos (by decide +kernel)) (by decide +kernel), by unfold DistinctDims; decide +kernel, ?_, ?_, ?_⟩
  · intro name ds c h
    rcases hmem _ _ _ h with ⟨_, rfl, _⟩ | ⟨_, rfl, _⟩ <;> decide
  · intro name ds k c h
    rcases hmem _ _ _ h with ⟨_, _, h⟩ | ⟨_, _, h⟩ <;> cases h
    · exact ⟨by norm_num, by norm_num, by norm_num⟩
    · exact ⟨by norm_num, by norm_num, by norm_num⟩
  · intro name h
    have : name = "x" ∨ name = "t" := by simpa [exTable, Dict.keys] using h
    rcases this with rfl | rfl <;> decide +kernel

/- The hypotheses of `C78_median_partial` and of `C78_median_accepts`; a window in the units of the dimension. -/
example : Regular exTable.cm ∧ exTable.cm.shape = exTable.data.shape ∧ Windows exTable.cm true [("x", .count 3), ("t", .count 3)] [3, 3] ∧
    HalfWidths [("x", .count 3), ("t", .count 3)] [3, 3] exTable.cm.dims [1, 1] ∧ Windows exTable.cm false [("x", .value 5)] [3] ∧
    HalfWidths [("x", .value 5)] [3] exTable.cm.dims [1, 0] := by
  refine ⟨exTable_regular, by decide +kernel, exTable_windows, .cons (.inl ⟨.count 3, 3, by simp, by norm_num⟩) (.cons (.inl ⟨.count 3, 3, by simp, by norm_num⟩) .nil),
    .cons ⟨_, _, _, _, exTable_x, by norm_num, .value 5 3 (by norm_num) (by norm_num) fun m hm => ?_⟩ .nil,
    .cons (.inl ⟨.value 5, 3, by simp, by norm_num⟩) (.cons (.inr ⟨by decide, rfl⟩) .nil)⟩
  by_contra hc
  have : (m : ℚ) ≤ 2 := by exact_mod_cast (show m ≤ 2 by omega)
  linarith

/- A corner and the middle of the table: `4, 4, 1, 4, 4, 1, 2, 2, 9` has the median 4. The filter with a window of 5 along x is that with three samples. -/
example : (exTable.medianFilter .reflect [("x", .count 3), ("t", .count 3)] true).map (fun q => (q.data.get [0, 0], q.data.get [1, 1])) = .ok (4, 4) ∧
    (exTable.medianFilter .reflect [("x", .value 5)] false).map (fun q => [0, 1, 2].map fun x => q.data.get [x, 0]) = .ok [4, 4, 8] ∧
    (exTable.medianFilter (.constant 0) [("x", .count 3)] true).map (fun q => [0, 1, 2].map fun x => q.data.get [x, 0]) = .ok [2, 4, 2] ∧
    (exTable.medianFilter .reflect [("x", .count 0)] true).map (fun q => q.data.get [0, 0]) = .error .valueError ∧
    (exTable.medianFilter .reflect [("y", .count 3)] true).map (fun q => q.data.get [0, 0]) = .error .parameterError :=
  ⟨by decide +kernel, by decide +kernel, by decide +kernel, by decide +kernel, by decide +kernel⟩

/- The hypotheses of `C78_median_within` and `C78_median_monotone`. -/
example : Monotone (fun x : ℚ => if x < 4 then 0 else 1) := by
  intro x y h
  simp only
  split_ifs <;> linarith

/-- **Violated**: with an even window the result is not the median, but the larger of the two middle values. -/
theorem C78_even_violated : ∃ q, exTable.medianFilter .nearest [("t", .count 2)] true = .ok q ∧ q.data.get [0, 1] = 4 ∧ ¬ IsMedian [4, 1] 4 := by
  refine ⟨_, rfl, by decide +kernel, fun h => ?_⟩
  have := h [1, 4] (List.Perm.swap _ _ _) (by norm_num)
  norm_num at this

/-- The mean of three samples, the ends being continued: the Savitzky-Golay filter of order one with a window of three. -/
def exSmooth (_ _ : ℕ) (l : List ℚ) : List ℚ :=
  (List.range l.length).map fun i : ℕ => (l.getD (i - 1) 0 + l.getD i 0 + l.getD (min (i + 1) (l.length - 1)) 0) / 3

/-- **Violated**: filtering along two dimensions should be filtering along the one and then along the other. It is filtering along the second only. -/
theorem C78_savgol_violated :
    (exTable.savgolFilter exSmooth false 1 [("x", .count 3), ("t", .count 3)] true).map (fun q => q.data.get [1, 1]) = .ok (14 / 3) ∧
    (exTable.savgolFilter exSmooth false 1 [("t", .count 3)] true).map (fun q => q.data.get [1, 1]) = .ok (14 / 3) ∧
    ((exTable.savgolFilter exSmooth false 1 [("x", .count 3)] true).bind fun r => r.savgolFilter exSmooth false 1 [("t", .count 3)] true).map
      (fun q => q.data.get [1, 1]) = .ok (41 / 9) :=
  ⟨by decide +kernel, by decide +kernel, by decide +kernel⟩

/- The hypotheses of `C78_savgol_partial`, `C78_savgol_refused`, `C78_savgol_last`, `C78_gaussian_partial` and `C78_sigma_violated`. -/
example : (∀ w o l, (exSmooth w o l).length = l.length) ∧ AsksFor 1 true (.count 3) 3 ∧ Windows exTable.cm true ([("x", .count 3)] ++ [("t", .count 3)]) ([3] ++ [3]) ∧
    EvenAlong exTable.cm "x" .float 0 2 3 :=
  ⟨fun w o l => by simp [exSmooth], .count 3, exTable_windows, exTable_x⟩

example : (exTable.savgolFilter exSmooth true 1 [("t", .count 5)] true).map (fun q => q.data.get [1, 1]) = .error .valueError ∧
    (exTable.savgolFilter exSmooth true 3 [("t", .count 3)] true).map (fun q => q.data.get [1, 1]) = .error .valueError ∧
    (exTable.gaussianFilter (exSmooth 0) [("x", .count 3), ("t", .count 3)] true).map (fun q => q.data.get [1, 1]) = .ok (41 / 9) :=
  ⟨by decide +kernel, by decide +kernel, by decide +kernel⟩

/- Those of `C78_refused` and of `C78_descending_violated`. -/
example : (∃ v ∈ [("x", WinReq.count 3), ("y", .count 3)], v.1 ∉ exTable.cm.dims) ∧ EvenAlong (exRow .float 0 (-1) 5).cm "x" .float 0 (-1) 5 :=
  ⟨⟨("y", .count 3), by simp, by decide⟩, by decide, _, rfl⟩

end Verif
