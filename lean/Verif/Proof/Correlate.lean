import Verif.Spec.Correlate
import Verif.Proof.Align
import Verif.Proof.UpdateTotal
import Verif.Props.PatchShape
/-! # Lemmas: shifted correlations -/
namespace Verif
open Spec

theorem ceil_half (n : ℕ) (hn : 1 ≤ n) : ⌈((n : ℚ) - 1) / 2⌉ = ((n / 2 : ℕ) : ℤ) := by
  rw [Int.ceil_eq_iff]
  rcases Nat.even_or_odd' n with ⟨m, rfl | rfl⟩
  · have : 2 * m / 2 = m := by omega
    rw [this]; push_cast; constructor <;> linarith
  · have : (2 * m + 1) / 2 = m := by omega
    rw [this]; push_cast; constructor <;> linarith

theorem lagCoord_spec {k : Kind} {c : RangeCoord} (hs : c.step ≠ 0) (hn : 2 ≤ c.len)
    (hok : k = .time ∨ 2 ∣ c.len ∨ 1 / 10 ^ 8 + 1 / 10 ^ 5 * |((c.len / 2 : ℕ) : ℚ) * c.step| < |c.step|) :
    ∃ e : RangeCoord, lagCoord k c = .ok (.range e) ∧ e.Valid ∧ e.start = -((c.len / 2 : ℕ) : ℚ) * c.step ∧ e.step = c.step ∧ e.len = c.len := by
  set h := c.len / 2 with hh
  have h1 : 1 ≤ h := by omega
  have hmk : getCoordParts false (some (-((h : ℕ) : ℚ) * c.step)) (some ((h : ℚ) * c.step)) (some c.step) none =
      .ok (.range ⟨-(h : ℚ) * c.step, (h : ℚ) * c.step, c.step, 2 * h⟩) := by
    have := mkRange_canonical (start := -(h : ℚ) * c.step) hs (show 1 ≤ 2 * h by omega)
    have e : -(h : ℚ) * c.step + c.step * ((2 * h : ℕ) : ℚ) = h * c.step := by push_cast; ring
    rw [e] at this
    simp [getCoordParts, mkRangeParts]
    simp at this
    rw [this]
  unfold lagCoord
  rw [ceil_half c.len (by omega)]
  simp only [Int.cast_natCast]
  rw [← hh, hmk]
  simp only [bind, Except.bind]
  unfold RangeCoord.changeLength
  simp only
  rw [if_neg (by omega)]
  by_cases he : 2 ∣ c.len
  · have : 2 * h = c.len := by omega
    simp only [this]
    refine ⟨⟨-(h : ℚ) * c.step, (h : ℚ) * c.step, c.step, c.len⟩, ?_, ⟨hs, by simp; omega, ?_⟩, rfl, rfl, rfl⟩
    · simp [Coord.length]
    · simp only
      rw [← this]; push_cast; ring
  · have hlen : c.len = 2 * h + 1 := by omega
    rw [if_neg (by simp; omega), if_neg (by simp; omega)]
    have hstop : (h : ℚ) * c.step + c.step * (((c.len : ℤ) - ((2 * h : ℕ) : ℤ) : ℤ) : ℚ) = (h + 1) * c.step := by
      rw [hlen]; push_cast; ring
    have hcond : (if (decide (k = Kind.time)) = true then decide ((h : ℚ) * c.step + c.step * (((c.len : ℤ) - ((2 * h : ℕ) : ℤ) : ℤ) : ℚ) = (h : ℚ) * c.step)
        else isClose ((h : ℚ) * c.step + c.step * (((c.len : ℤ) - ((2 * h : ℕ) : ℤ) : ℤ) : ℚ)) ((h : ℚ) * c.step)) = false := by
      rw [hstop]
      by_cases hk : k = .time
      · simp only [hk, decide_true, if_true, decide_eq_false_iff_not]
        intro h'; apply hs; linarith
      · simp only [hk, decide_false, Bool.false_eq_true, if_false]
        have h3 := (hok.resolve_left hk).resolve_left he
        unfold isClose
        simp only [decide_eq_false_iff_not, not_le, absQ_eq]
        rw [show ((h : ℚ) + 1) * c.step - h * c.step = c.step by ring]
        have e1 : (1 : ℚ) / 100000000 = 1 / 10 ^ 8 := by norm_num
        have e2 : (1 : ℚ) / 100000 = 1 / 10 ^ 5 := by norm_num
        rw [e1, e2]; exact h3
    rw [hcond]
    simp only [Bool.false_eq_true, if_false]
    rw [new_canonical (start := -(h : ℚ) * c.step) (step := c.step) (n := c.len) hs (by omega) (by rw [hstop, hlen]; push_cast; ring)]
    simp only [if_true]
    refine ⟨⟨-(h : ℚ) * c.step, (h : ℚ) * c.step + c.step * (((c.len : ℤ) - ((2 * h : ℕ) : ℤ) : ℤ) : ℚ), c.step, c.len⟩, ?_, ⟨hs, by simp; omega, ?_⟩, rfl, rfl, rfl⟩
    · simp [Coord.length]
    · simp only
      rw [hstop, hlen]; push_cast; ring

theorem set_getD {i : List ℕ} {k : ℕ} (hk : k < i.length) (x : ℕ) : (i.set k x).getD k 0 = x := by
  rw [List.getD_eq_getElem?_getD, List.getElem?_set, if_pos rfl, if_pos hk]; rfl

theorem inRange_set {sh i : List ℕ} (hi : InRange sh i) {k x : ℕ} (hx : x < sh.getD k 0) : InRange sh (i.set k x) := by
  unfold InRange at hi ⊢
  rw [List.forall₂_iff_get] at hi ⊢
  refine ⟨by simpa using hi.1, fun t t1 t2 => ?_⟩
  simp only [List.length_set] at t1
  have := hi.2 t t1 t2
  simp only [List.get_eq_getElem, List.getElem_set] at this ⊢
  split_ifs with h
  · subst h
    rw [List.getD_eq_getElem?_getD, List.getElem?_eq_getElem t2] at hx
    exact hx
  · exact this

theorem correlateShift_spec {α} {div : α → ℚ → α} {p : PatchM α} (hm : Regular p.cm) (hd : p.cm.dims ≠ []) (hsh : p.cm.shape = p.data.shape)
    (hr : Readable p.cm) {dim : String} (hdim : dim ∈ p.cm.dims) {ds : List String} {k : Kind} {c : RangeCoord}
    (hc : p.cm.ents.get? dim = some (ds, .one k (.range c))) (hn : 2 ≤ c.len)
    (hok : k = .time ∨ 2 ∣ c.len ∨ 1 / 10 ^ 8 + 1 / 10 ^ 5 * |((c.len / 2 : ℕ) : ℚ) * c.step| < |c.step|)
    (hlag : "lag_" ++ dim ∉ p.cm.ents.keys) (undo : Bool) :
    ∃ q, p.correlateShift div dim undo = .ok q ∧
      LagShifted (fun x => if undo then div x (stepFloat k c.step) else x) p q dim ("lag_" ++ dim) c.step := by
  obtain ⟨hc', hl⟩ := dim_one hm hdim hc
  rw [hc] at hc'; cases hc'
  have hv : c.Valid := hm.classes _ _ _ _ (Dict.mem_of_get? hc)
  have hlen : c.len = lenDim p.cm dim := hl
  have hshape : p.data.shape = p.cm.dims.map p.cm.ents.lenOf := by
    rw [← hsh]; unfold CM.shape; rw [if_neg hd]
  obtain ⟨e, he, hev, hes, hest, hel⟩ := lagCoord_spec (k := k) hv.step_ne hn hok
  set lag := "lag_" ++ dim with hlagdef
  set axis := p.cm.dims.idxOf dim with haxis
  have hax : axis < p.data.shape.length := by
    rw [hshape]; simpa using List.idxOf_lt_length_of_mem hdim
  have hnx : p.data.shape.getD axis 0 = c.len := by
    rw [List.getD_eq_getElem?_getD, hshape, List.getElem?_map, List.getElem?_eq_getElem (List.idxOf_lt_length_of_mem hdim)]
    rw [hlen]
    simp [lenDim]
  -- the update
  obtain ⟨m1, hm1⟩ := update_total (kw := [(dim, .simple (.one (lagKind k) (.range e)))]) hm.wf (by simp [Dict.keys]) (by
      intro n hn'
      simp only [Dict.keys, List.map_cons, List.map_nil, List.mem_singleton] at hn'
      subst hn'
      exact hm.plain _ (Dict.mem_keys.2 ⟨_, hc⟩)) (by
      intro name a ha
      have := Dict.mem_of_get? ha
      simp only [List.mem_singleton, Prod.mk.injEq] at this
      obtain ⟨rfl, rfl⟩ := this
      refine ⟨[name], _, _, rfl, rfl, by simpa using hdim, fun _ => rfl, Or.inr ?_⟩
      simp [newLen, Dict.get?, argOf, MCoord.shape, MCoord.len, MCoord.arr]) hr
  obtain ⟨u1, ⟨x, u2, u3⟩, u4, _, u6⟩ := setDim_spec hm hdim hc hm1
  cases u2
  have hw1 := CM.update_wf hm1 hm.wf (by simp [Dict.keys])
  have hdn1 : DistinctDims m1 := hw1.2 hm.distinct
  -- the data
  set f : α → α := fun x => if undo then div x (stepFloat k c.step) else x with hf
  set a := p.data.fftshift axis with ha
  set b : Nd α := if undo then ⟨a.shape, fun i => div (a.get i) (stepFloat k c.step)⟩ else a with hb
  have hbs : b.shape = p.data.shape := by rw [hb]; split_ifs <;> rfl
  have hbg : ∀ i, b.get i = f (p.data.get (i.set axis (((i.getD axis 0 : ℤ) - ((c.len / 2 : ℕ) : ℤ)) % (c.len : ℤ)).toNat)) := by
    intro i
    have : ∀ i, a.get i = p.data.get (i.set axis (((i.getD axis 0 : ℤ) - ((c.len / 2 : ℕ) : ℤ)) % (c.len : ℤ)).toNat) := by
      intro i
      rw [ha]; unfold Nd.fftshift Nd.roll Nd.gather
      simp only [hnx]
    rw [hb, hf]
    cases undo <;> simp [this]
  have hlen1 : ∀ d ∈ p.cm.dims, m1.ents.lenOf d = p.cm.ents.lenOf d := by
    intro d hd'
    by_cases hdd : d = dim
    · subst hdd
      unfold Ents.lenOf; rw [u3, hc]
      simp [MCoord.len, MCoord.shape, MCoord.arr, Coord.length, hel]
    · obtain ⟨c0, n0, g1, g2, _⟩ := CM.WellFormed.get_dim hm.wf hd'
      obtain ⟨x, x1, x2, x3⟩ := u4 d _ _ hdd g1 (Or.inl (by simpa using fun h => hdd h.symm))
      unfold Ents.lenOf; rw [x3, g1]
      exact SameValues.len x2
  have hsh1 : m1.shape = b.shape := by
    rw [hbs, hshape]; unfold CM.shape
    rw [u1, if_neg hd]
    exact List.map_congr_left hlen1
  -- the renaming
  have hfresh : lag ∉ m1.ents.keys := by
    rw [← Dict.get?_eq_none]
    exact u6 _ (Dict.get?_eq_none.2 hlag)
  have hdm1 : dim ∈ m1.ents.keys := Dict.mem_keys.2 ⟨_, u3⟩
  obtain ⟨q, hq, hR, hqd, hqw, hqn, hql⟩ := C19_rename_partial ⟨m1, b⟩ hw1.1 hdn1 hsh1 [(dim, lag)] (by simp) (by simp) (by
    intro r hr'
    simp only [List.mem_singleton] at hr'
    subst hr'
    exact ⟨hdm1, fun _ => hfresh⟩)
  have hnew : ∀ x, newName [(dim, lag)] x = if x = dim then lag else x := by
    intro x
    rw [newName_cons]
    by_cases h : x = dim
    · simp [h]
    · rw [if_neg (by simpa using fun hh => h hh.symm), if_neg h]
      exact newName_not_mem (by simp)
  have hqget : q.cm.ents.get? lag = some ([lag], .one (lagKind k) (.range e)) := by
    have := hR.ents _ _ _ (Dict.mem_of_get? u3)
    rw [hnew, if_pos rfl, List.map_cons, hnew, if_pos rfl, List.map_nil] at this
    exact Dict.get?_of_mem hqw.names this
  have hqlab : ∀ j, InRange p.data.shape j → label q lag j = some (some (((posAlong p dim j : ℤ) - (lenDim p.cm dim / 2 : ℕ)) * c.step)) := by
    intro j hj
    have h0 := hql dim hdm1 j
    rw [hnew, if_pos rfl] at h0
    have hpos : posAlong p dim j < c.len := by
      rw [hshape] at hj; rw [hlen]; exact inRange_getD hj hdim
    rw [h0]
    unfold label
    rw [u3]
    simp only
    rw [labelAt_own (k := lagKind k) hev (by rw [hel, u1]; exact hpos), u1, hes, hest, ← hlen]
    congr 2
    unfold posAlong
    push_cast; ring
  refine ⟨q, ?_, ?_, ?_, ⟨lagKind k, e, hqget, hest, by rw [hel, hlen]⟩, ?_, ?_, ?_⟩
  · unfold PatchM.correlateShift
    rw [hc]
    simp only
    rw [if_neg (not_not.2 hdim), he]
    simp only [bind, Except.bind]
    rw [hm1]
    exact hq
  · rw [hR.dims, u1]
    exact List.map_congr_left fun d _ => hnew d
  · rw [hqd]; exact hbs
  · intro i hi
    have hpos : posAlong p dim i < c.len := by
      rw [hshape] at hi; rw [hlen]; exact inRange_getD hi hdim
    have hil : axis < i.length := by rw [inRange_length hi]; exact hax
    set P := posAlong p dim i with hP
    have hPd : i.getD axis 0 = P := rfl
    set X := if P + c.len / 2 < c.len then P + c.len / 2 else P + c.len / 2 - c.len with hX
    have hXlt : X < c.len := by rw [hX]; split_ifs <;> omega
    set t : ℤ := (X : ℤ) - (c.len / 2 : ℕ) with ht
    have hjr : InRange p.data.shape (i.set axis X) := inRange_set hi (by rw [hnx]; exact hXlt)
    have hjx : (i.set axis X).getD axis 0 = X := set_getD hil X
    have hdvd : (c.len : ℤ) ∣ t - P := by
      rw [ht, hX]
      split_ifs with h
      · exact ⟨0, by push_cast; ring⟩
      · refine ⟨-1, ?_⟩
        rw [Nat.cast_sub (by omega)]; push_cast; ring
    have hmod : t % (c.len : ℤ) = P := by
      have h2 : t = P + (c.len : ℤ) * ((t - P) / c.len) := by rw [Int.mul_ediv_cancel' hdvd]; ring
      rw [h2, Int.add_mul_emod_self_left]
      exact Int.emod_eq_of_lt (by omega) (by exact_mod_cast hpos)
    refine ⟨X, t, by rw [hqd]; exact hbs ▸ hjr, ?_, ?_, ?_, ?_, ?_⟩
    · rw [hqlab _ hjr]
      unfold posAlong
      rw [← haxis, hjx, ht, hlen]
      push_cast; rfl
    · rw [← hlen, ht]; omega
    · rw [← hlen, ht]; omega
    · rw [← hlen]; exact hdvd
    · rw [hqd]
      simp only
      rw [hbg, hjx, ← ht, hmod, List.set_set]
      have : i.set axis ((P : ℤ).toNat) = i := by
        rw [Int.toNat_natCast, ← hPd, List.getD_eq_getElem?_getD, List.getElem?_eq_getElem hil]
        simp
      rw [this]
  · intro j hj
    rw [hqd] at hj
    exact hqlab j (hbs ▸ hj)
  · intro nm ds0 c0 hnm hne hst i hi
    obtain ⟨x, x1, x2, x3⟩ := u4 nm ds0 c0 hne hnm (Or.inr (by simpa [Coord.length] using hel))
    have h0 := hql nm (Dict.mem_keys.2 ⟨_, x3⟩) i
    rw [hnew, if_neg hne] at h0
    rw [h0]
    unfold label
    rw [x3, hnm]
    cases ds0 with
    | nil => rfl
    | cons d0 ds0 =>
      simp only
      rw [x2.2 hst, u1]

end Verif
