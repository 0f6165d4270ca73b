import Verif.Proof.Pad
import Verif.Spec.Window
/-! # Lemmas: rolling windows -/
namespace Verif
open Spec

theorem ceil_div_lt {x s m : ℕ} (hs : 0 < s) : m < (x + s - 1) / s ↔ m * s < x := by
  rw [Nat.lt_iff_add_one_le, Nat.le_div_iff_mul_le hs, Nat.add_mul]
  omega

theorem everyNth_eq {n s : ℕ} (hs : 0 < s) : everyNth n s = (List.range ((n + s - 1) / s)).map fun j => j * s := by
  unfold everyNth
  symm
  refine List.Pairwise.eq_of_mem_iff (r := (· < ·)) ?_ (List.Pairwise.filter _ (List.pairwise_lt_range)) ?_
  · rw [List.pairwise_map]
    refine List.Pairwise.imp_of_mem ?_ List.pairwise_lt_range
    intro a b _ _ hab
    exact Nat.mul_lt_mul_of_pos_right hab hs
  · intro j
    rw [List.mem_map, List.mem_filter, List.mem_range, decide_eq_true_iff]
    constructor
    · rintro ⟨i, hi, rfl⟩
      exact ⟨(ceil_div_lt hs).1 (List.mem_range.1 hi), Dvd.intro_left i rfl⟩
    · rintro ⟨hj, ⟨k, rfl⟩⟩
      exact ⟨k, List.mem_range.2 ((ceil_div_lt hs).2 (by rw [mul_comm]; exact hj)), mul_comm _ _⟩

theorem everyNth_length {n s : ℕ} (hs : 0 < s) : (everyNth n s).length = (n + s - 1) / s := by
  rw [everyNth_eq hs]; simp

theorem everyNth_getD {n s j : ℕ} (hs : 0 < s) (hj : j < (everyNth n s).length) : (everyNth n s).getD j 0 = j * s := by
  rw [everyNth_length hs] at hj
  rw [everyNth_eq hs, List.getD_eq_getElem?_getD, List.getElem?_map, List.getElem?_range hj]; rfl

theorem everyNth_one (n : ℕ) : everyNth n 1 = List.range n := by
  unfold everyNth
  rw [List.filter_eq_self]
  intro a _
  simp

theorem numNans_spec {w s : ℕ} (hw : 1 ≤ w) (hs : 0 < s) : w ≤ numNans w s * s + 1 ∧ numNans w s * s < w + s - 1 := by
  unfold numNans
  have hs' : (0 : ℤ) < s := by exact_mod_cast hs
  have h1 : ((w : ℤ) - 2) / (s : ℤ) * s ≤ w - 2 := Int.ediv_mul_le _ hs'.ne'
  have h2 : (w : ℤ) - 2 < (((w : ℤ) - 2) / (s : ℤ) + 1) * s := Int.lt_ediv_add_one_mul_self _ hs'
  have h3 : 0 ≤ 1 + ((w : ℤ) - 2) / (s : ℤ) := by
    have : (-1 : ℤ) ≤ ((w : ℤ) - 2) / (s : ℤ) := by
      rw [Int.le_ediv_iff_mul_le hs']; omega
    omega
  have h4 : (((1 + ((w : ℤ) - 2) / (s : ℤ)).toNat : ℕ) : ℤ) = 1 + ((w : ℤ) - 2) / (s : ℤ) := Int.toNat_of_nonneg h3
  generalize (1 + ((w : ℤ) - 2) / (s : ℤ)).toNat = k at h4
  generalize ((w : ℤ) - 2) / (s : ℤ) = q at *
  have h5 : (k : ℤ) * s = (1 + q) * s := by rw [h4]
  constructor
  · zify; rw [h5]; linarith
  · have : (k : ℤ) * s < w + s - 1 := by rw [h5]; linarith
    have h6 : ((k * s : ℕ) : ℤ) < w + s - 1 := by push_cast; exact this
    omega

theorem startIndex_eq {w s : ℕ} (hw : 1 ≤ w) (hs : 0 < s) : startIndex w s = numNans w s * s + 1 - w := by
  obtain ⟨h1, h2⟩ := numNans_spec hw hs
  unfold startIndex
  have hs' : (0 : ℚ) < s := by exact_mod_cast hs
  have : ⌈(((w : ℤ) - 1 : ℤ) : ℚ) / (s : ℚ)⌉ = (numNans w s : ℤ) := by
    rw [Int.ceil_eq_iff]
    rw [lt_div_iff₀ hs', div_le_iff₀ hs']
    constructor
    · have : (((numNans w s : ℤ) - 1) * s : ℤ) < (w : ℤ) - 1 := by
        have h6 : ((numNans w s * s : ℕ) : ℤ) < w + s - 1 := by omega
        push_cast at h6
        linarith
      exact_mod_cast this
    · have : ((w : ℤ) - 1) ≤ (numNans w s : ℤ) * s := by
        have h6 : (w : ℤ) ≤ ((numNans w s * s : ℕ) : ℤ) + 1 := by omega
        push_cast at h6
        linarith
      exact_mod_cast this
  rw [this]
  have h7 : (numNans w s : ℤ) * s = ((numNans w s * s : ℕ) : ℤ) := by push_cast; rfl
  rw [h7]
  omega

theorem origin_set {m : CM} (hn : m.dims.Nodup) {dim : String} (hd : dim ∈ m.dims) {ps : List ℕ} {i : List ℕ}
    (hi : InRange (m.dims.map fun d => (keepAlong m dim ps d).length) i) :
    origin m.dims (keepAlong m dim ps) i = i.set (m.dims.idxOf dim) (ps.getD (i.getD (m.dims.idxOf dim) 0) 0) := by
  have hlen : i.length = m.dims.length := by simpa using inRange_length hi
  unfold origin
  apply List.ext_getElem
  · simp [hlen]
  · intro k h1 h2
    simp only [List.length_set] at h2
    have hk : k < m.dims.length := by omega
    rw [List.getElem_zipWith, List.getElem_map, List.getElem_set]
    have hb := List.Forall₂.get hi h2 (by simpa using hk)
    simp only [List.get_eq_getElem, List.getElem_map] at hb
    have hidx : m.dims.idxOf m.dims[k] = k := hn.idxOf_getElem k hk
    unfold keepAlong at hb ⊢
    by_cases he : m.dims[k] = dim
    · have : m.dims.idxOf dim = k := by rw [← he]; exact hidx
      rw [if_pos he, if_pos this, this, List.getD_eq_getElem?_getD (l := i), List.getElem?_eq_getElem h2]; rfl
    · rw [if_neg he] at hb ⊢
      rw [if_neg (by rintro h; apply he; rw [← List.getElem_idxOf (List.idxOf_lt_length_of_mem hd)]; simp [h])]
      rw [List.length_range] at hb
      generalize i[k] = x at hb ⊢
      rw [List.getD_eq_getElem?_getD, List.getElem?_range hb]; rfl

theorem thin_all {α} {p : PatchM α} (hm : Regular p.cm) (hd : p.cm.dims ≠ []) (hsh : p.cm.shape = p.data.shape)
    {dim : String} (hdim : dim ∈ p.cm.dims) {a : Nd α} (d1 : a.shape = p.data.shape)
    (d2 : ∀ i, InRange a.shape i → a.get i = p.data.get i) : Thinned p ⟨p.cm, a⟩ dim (List.range (lenDim p.cm dim)) := by
  have hshape : p.data.shape = p.cm.dims.map p.cm.ents.lenOf := by
    rw [← hsh]; unfold CM.shape; rw [if_neg hd]
  have hk : ∀ d, keepAlong p.cm dim (List.range (lenDim p.cm dim)) d = List.range (lenDim p.cm d) := by
    intro d; unfold keepAlong; split_ifs with h
    · rw [h]
    · rfl
  have hor : ∀ i, InRange a.shape i → origin p.cm.dims (keepAlong p.cm dim (List.range (lenDim p.cm dim))) i = i := by
    intro i hi
    rw [d1, hshape] at hi
    rw [origin_set hm.distinct hdim]
    · have hb : i.getD (p.cm.dims.idxOf dim) 0 < lenDim p.cm dim := inRange_getD hi hdim
      rw [List.getD_eq_getElem?_getD (l := List.range _), List.getElem?_range hb]
      have hl : p.cm.dims.idxOf dim < i.length := by
        have := inRange_length hi
        rw [this]; simpa using List.idxOf_lt_length_of_mem hdim
      simp [List.getD_eq_getElem?_getD, List.getElem?_eq_getElem hl]
    · simp only [hk, List.length_range]; exact hi
  refine ⟨rfl, ?_, ?_, ?_, ?_, ?_⟩
  · simp only [d1, hshape, hk, List.length_range]; rfl
  · intro i hi
    rw [hor i hi]
    exact ⟨by rw [← d1]; exact hi, d2 i hi⟩
  · intro name ds c hc _ _ i hi
    rw [hor i hi]
    rfl
  · intro name ds c _ _ _ hlen
    simp at hlen
  · intro name h; exact h

theorem rollApply_spec {α β} {f : List α → β} {nan : β} {p : PatchM α} {q : PatchM β} (hm : Regular p.cm) (hd : p.cm.dims ≠ [])
    (hsh : p.cm.shape = p.data.shape) {dim : String} (hdim : dim ∈ p.cm.dims) {w : ℤ} (hw : 1 ≤ w) {s : ℕ} (hs : 0 < s) {center : Bool}
    (h : p.rollApply f nan dim w s center = .ok q) :
    w ≤ lenDim p.cm dim ∧
      Thinned (windowed f nan p dim w.toNat (if center then numNans w.toNat s / 2 * s else 0)) q dim (everyNth (lenDim p.cm dim) s) ∧
      Regular q.cm ∧ q.cm.shape = q.data.shape := by
  have hshape : p.data.shape = p.cm.dims.map p.cm.ents.lenOf := by
    rw [← hsh]; unfold CM.shape; rw [if_neg hd]
  have hax : p.cm.dims.idxOf dim < p.data.shape.length := by
    rw [hshape]; simpa using List.idxOf_lt_length_of_mem hdim
  have hn : p.data.shape.getD (p.cm.dims.idxOf dim) 0 = lenDim p.cm dim := by
    rw [List.getD_eq_getElem?_getD, hshape, List.getElem?_map, List.getElem?_eq_getElem (List.idxOf_lt_length_of_mem hdim)]
    simp [lenDim]
  unfold PatchM.rollApply at h
  simp only [hn] at h
  by_cases hbad : w < 0 ∨ ((lenDim p.cm dim : ℕ) : ℤ) < w
  · rw [if_pos hbad] at h; cases h
  rw [if_neg hbad] at h
  push Not at hbad
  refine ⟨hbad.2, ?_⟩
  obtain ⟨wn, rfl⟩ := Int.eq_ofNat_of_zero_le (by omega : 0 ≤ w)
  have hw' : 1 ≤ wn := by exact_mod_cast hw
  have hwn : wn ≤ lenDim p.cm dim := by exact_mod_cast hbad.2
  simp only [Int.toNat_natCast] at h ⊢
  set axis := p.cm.dims.idxOf dim with haxis
  set n := lenDim p.cm dim with hnn
  obtain ⟨k1, k2⟩ := numNans_spec hw' hs
  have hst := startIndex_eq hw' hs
  simp only [bind, Except.bind] at h
  split at h
  · cases h
  rename_i cm hcm
  obtain ⟨rfl, hs2⟩ := new_ok h
  set k := numNans wn s with hk
  set raw := p.data.slideReduce f axis wn (startIndex wn s) s with hraw
  set out := if k = 0 then raw else raw.padAxis axis k (firstWindow wn s center) nan with hout
  have hL : raw.shape.getD axis 0 = ((n - k * s) + s - 1) / s := by
    rw [hraw]
    simp only [Nd.slideReduce]
    rw [List.getD_eq_getElem?_getD, List.getElem?_set, if_pos rfl, if_pos hax]
    simp only [Option.getD_some, hn, hst]
    congr 2
    omega
  have hLs : raw.shape = p.data.shape.set axis (((n - k * s) + s - 1) / s) := by
    have e : raw.shape = p.data.shape.set axis (raw.shape.getD axis 0) := by
      have e1 : raw.shape = p.data.shape.set axis ((p.data.shape.getD axis 0 + 1 - wn - startIndex wn s + s - 1) / s) := rfl
      have e2 : raw.shape.getD axis 0 = (p.data.shape.getD axis 0 + 1 - wn - startIndex wn s + s - 1) / s := by
        rw [e1, List.getD_eq_getElem?_getD, List.getElem?_set, if_pos rfl, if_pos hax]; rfl
      rw [e2]; exact e1
    rw [e, hL]
  have hcnt : ((n - k * s) + s - 1) / s + k = (n + s - 1) / s := by
    apply eq_of_forall_lt_iff
    intro m
    rw [ceil_div_lt hs]
    by_cases hmk : m < k
    · have : m * s + s ≤ k * s := by
        calc m * s + s = (m + 1) * s := by ring
          _ ≤ k * s := Nat.mul_le_mul_right s hmk
      constructor
      · intro _; omega
      · intro _; omega
    · obtain ⟨j, rfl⟩ := Nat.exists_eq_add_of_le (Nat.le_of_not_lt hmk)
      have h1 := ceil_div_lt (x := n - k * s) (m := j) hs
      have h2 : (k + j) * s = k * s + j * s := by ring
      rw [h2]
      constructor
      · intro h; have := h1.1 (by omega); omega
      · intro h; have := h1.2 (by omega); omega
  have houts : out.shape = p.data.shape.set axis ((n + s - 1) / s) := by
    rw [hout]
    by_cases hk0 : k = 0
    · rw [if_pos hk0, hLs, ← hcnt, hk0]; simp
    · rw [if_neg hk0]
      simp only [Nd.padAxis]
      rw [hL, hLs, List.set_set, hcnt]
  have hd1 : out.shape = p.cm.dims.map fun d => (keepAlong p.cm dim (everyNth n s) d).length := by
    rw [houts, hshape]
    apply List.ext_getElem (by simp)
    intro j h1 h2
    simp only [List.length_set, List.length_map] at h1
    rw [List.getElem_set, List.getElem_map, List.getElem_map]
    have hidx : p.cm.dims.idxOf p.cm.dims[j] = j := hm.distinct.idxOf_getElem j h1
    unfold keepAlong
    by_cases he : p.cm.dims[j] = dim
    · rw [if_pos he, if_pos (by rw [haxis, ← he]; exact hidx), everyNth_length hs]
    · rw [if_neg he, if_neg (by
        intro h; apply he; rw [← List.getElem_idxOf (List.idxOf_lt_length_of_mem hdim)]; simp [← h, haxis])]
      simp [lenDim]
  have hd2 : ∀ i, InRange out.shape i → out.get i =
      (windowed f nan p dim wn (if center then k / 2 * s else 0)).data.get (origin p.cm.dims (keepAlong p.cm dim (everyNth n s)) i) := by
    intro i hi
    rw [hd1] at hi
    have hil : axis < i.length := by
      have := inRange_length hi
      rw [this]; simpa using List.idxOf_lt_length_of_mem hdim
    rw [origin_set hm.distinct hdim hi]
    have hj := inRange_getD hi hdim
    have hj' : i.getD axis 0 < (everyNth n s).length := by
      have e : keepAlong p.cm dim (everyNth n s) dim = everyNth n s := by unfold keepAlong; rw [if_pos rfl]
      rw [e] at hj
      exact hj
    rw [everyNth_getD hs hj']
    rw [everyNth_length hs] at hj'
    have hjn := (ceil_div_lt hs).1 hj'
    set j := i.getD axis 0 with hjdef
    unfold windowed posAlong windowEnding
    simp only
    rw [← haxis, show (i.set axis (j * s)).getD axis 0 = j * s by
      rw [List.getD_eq_getElem?_getD, List.getElem?_set, if_pos rfl, if_pos hil]; rfl]
    simp only [List.set_set]
    -- the value at any position where a window is written
    have hrawget : ∀ m i', i'.length = i.length → i'.getD axis 0 = m → (∀ x, i'.set axis x = i.set axis x) →
        raw.get i' = f ((List.range wn).map fun x => p.data.get (i.set axis (k * s + 1 - wn + m * s + x))) := by
      intro m i' _ h1 h2
      rw [hraw]
      simp only [Nd.slideReduce, Nd.windowAt, h1, h2, hst]
    by_cases hk0 : k = 0
    · have ho : out = raw := by rw [hout, if_pos hk0]
      have hw1 : wn = 1 := by rw [hk0] at k1; omega
      rw [ho, hrawget j i rfl rfl (fun _ => rfl)]
      have hoff : (if center then k / 2 * s else 0) = 0 := by rw [hk0]; simp
      rw [hoff, if_pos (by omega)]
      simp only [hk0, hw1]
      congr 2
      funext x
      congr 2
      omega
    · have ho : out = raw.padAxis axis k (firstWindow wn s center) nan := by rw [hout, if_neg hk0]
      rw [ho]
      simp only [Nd.padAxis, hL, ← hjdef]
      set c2 := (if center then k / 2 else 0) with hc2
      have hfw : firstWindow wn s center = k - c2 := by
        unfold firstWindow
        rw [hc2, ← hk]; cases center <;> simp
      have hoff : (if center then k / 2 * s else 0) = c2 * s := by rw [hc2]; split_ifs <;> simp
      have hck : c2 ≤ k := by
        rw [hc2]; split_ifs
        · exact Nat.div_le_self _ _
        · omega
      rw [hoff, hfw]
      have hiff : (k - c2 ≤ j ∧ j < k - c2 + ((n - k * s) + s - 1) / s) ↔ (wn ≤ j * s + c2 * s + 1 ∧ j * s + c2 * s < n) := by
        constructor
        · rintro ⟨h1, h2⟩
          obtain ⟨m, hm'⟩ := Nat.exists_eq_add_of_le h1
          have h3 := (ceil_div_lt (x := n - k * s) (m := m) hs).1 (by omega)
          have h4 : j * s + c2 * s = k * s + m * s := by
            rw [← Nat.add_mul, ← Nat.add_mul]; congr 1; omega
          omega
        · rintro ⟨h1, h2⟩
          have h5 : k ≤ j + c2 := by
            by_contra hlt
            have : (j + c2 + 1) * s ≤ k * s := Nat.mul_le_mul_right s (by omega)
            have e : (j + c2 + 1) * s = j * s + c2 * s + s := by ring
            omega
          obtain ⟨m, hm'⟩ := Nat.exists_eq_add_of_le h5
          have h4 : j * s + c2 * s = k * s + m * s := by
            rw [← Nat.add_mul, ← Nat.add_mul, hm']
          have := (ceil_div_lt (x := n - k * s) (m := m) hs).2 (by omega)
          omega
      by_cases hc : k - c2 ≤ j ∧ j < k - c2 + ((n - k * s) + s - 1) / s
      · rw [if_pos hc, if_pos (hiff.1 hc)]
        obtain ⟨h1, h2⟩ := hc
        obtain ⟨m, hm'⟩ := Nat.exists_eq_add_of_le h1
        have h4 : j * s + c2 * s = k * s + m * s := by
          rw [← Nat.add_mul, ← Nat.add_mul]; congr 1; omega
        rw [hrawget m _ (by simp) (by
          rw [List.getD_eq_getElem?_getD, List.getElem?_set, if_pos rfl, if_pos hil]; simp; omega) (by intro x; simp)]
        congr 2
        funext x
        congr 2
        omega
      · rw [if_neg hc, if_neg (fun h => hc (hiff.2 h))]
  unfold CM.rollCoords at hcm
  by_cases hs1 : s = 1
  · rw [if_pos hs1] at hcm
    cases hcm
    refine ⟨?_, hm, hs2⟩
    subst hs1
    have := thin_all (p := windowed f nan p dim wn (if center then k / 2 * 1 else 0)) hm hd hsh hdim (a := out) (by
      show out.shape = p.data.shape
      rw [houts, Nat.add_sub_cancel, Nat.div_one]
      apply List.ext_getElem (by simp)
      intro j h1 h2
      rw [List.getElem_set]
      split_ifs with he
      · subst he
        rw [← hn, List.getD_eq_getElem?_getD, List.getElem?_eq_getElem h2]; rfl
      · rfl) (by
      intro i hi
      rw [hd2 i hi]
      congr 1
      rw [hd1] at hi
      rw [origin_set hm.distinct hdim hi]
      have hil : axis < i.length := by
        have := inRange_length hi
        rw [this]; simpa using List.idxOf_lt_length_of_mem hdim
      have hj := inRange_getD hi hdim
      have e : keepAlong p.cm dim (everyNth n 1) dim = everyNth n 1 := by unfold keepAlong; rw [if_pos rfl]
      rw [e] at hj
      rw [everyNth_getD hs hj, Nat.mul_one]
      simp [List.getD_eq_getElem?_getD, List.getElem?_eq_getElem hil, ← haxis])
    rw [everyNth_one]
    exact this
  · rw [if_neg hs1] at hcm
    split at hcm
    · rename_i ds kd c hc
      obtain ⟨hc', hl⟩ := dim_one hm hdim hc
      simp only [bind, Except.bind] at hcm
      split at hcm
      · cases hcm
      rename_i d hgs
      obtain ⟨ps, h1, h2, h3⟩ := getSlice_carries (k := kd) (hm.classes _ _ _ _ (Dict.mem_of_get? hc)) hgs
      have hps : ps = everyNth n s := by
        rw [nth_positions (by exact_mod_cast hs)] at h1
        cases h1
        rw [hl]
        unfold everyNth
        congr 1
        funext i
        simp [Int.natCast_dvd_natCast]
      subst hps
      refine ⟨?_, thin_regular hm hdim hc' h3 hcm, hs2⟩
      refine thin_core (p := windowed f nan p dim wn (if center then k / 2 * s else 0)) hm hd hsh hdim hc' (positions_lt (by
        exact h1)) h2 h3 hd1 hd2 hcm
    · cases hcm

end Verif
