import Verif.Proof.CalculusPatch
import Verif.Proof.Aggregate
import Verif.Proof.Dasdae
/-! # Integrals of patches -/
namespace Verif
open Spec

/-- Sums of trapezoids. -/
def trapSum (a : Nd ℚ) (axis : ℕ) (w : ℕ → ℚ) (i : List ℕ) (t : ℕ) : ℚ :=
  ((List.range t).map fun j => (a.get (i.set axis (j + 1)) + a.get (i.set axis j)) * (w j / 2)).sum

theorem trapSum_succ (a : Nd ℚ) (axis : ℕ) (w : ℕ → ℚ) (i : List ℕ) (t : ℕ) :
    trapSum a axis w i (t + 1) = trapSum a axis w i t + (a.get (i.set axis (t + 1)) + a.get (i.set axis t)) * (w t / 2) := by
  unfold trapSum
  rw [List.range_succ, List.map_append, List.sum_append]
  simp

theorem trapSum_set (a : Nd ℚ) (axis : ℕ) (w : ℕ → ℚ) (i : List ℕ) (k t : ℕ) :
    trapSum a axis w (i.set axis k) t = trapSum a axis w i t := by
  unfold trapSum
  simp only [List.set_set]

theorem trapSum_congr {a : Nd ℚ} {axis : ℕ} {w w' : ℕ → ℚ} {i : List ℕ} {t : ℕ} (h : ∀ j < t, w j = w' j) :
    trapSum a axis w i t = trapSum a axis w' i t := by
  unfold trapSum
  congr 1
  apply List.map_congr_left
  intro j hj
  rw [h j (List.mem_range.1 hj)]

/-- What `axis_of` gives about the widths. -/
theorem Spaced.width {s : Spacing} {n : ℕ} {x : ℕ → ℚ} (h : Spaced s n x) {t : ℕ} (ht : t + 1 < n) : (s.widths n).getD t 0 = x (t + 1) - x t := by
  cases s with
  | dx h' =>
    obtain ⟨_, h2⟩ := h
    show (List.replicate (n - 1) h').getD t 0 = _
    rw [List.getD_eq_getElem?_getD, List.getElem?_replicate, if_pos (by omega)]
    have h3 := h2 (t + 1) (by omega)
    have h4 := h2 t (by omega)
    simp only [Option.getD_some]
    rw [h3, h4]
    push_cast
    ring
  | places xs =>
    obtain ⟨rfl, _⟩ := h
    exact diffs_places ht

structure Lined {α} (p : PatchM α) (d : String) (s : Spacing) (x : ℕ → ℚ) : Prop extends Axis p d s x where
  shape : p.data.shape = p.cm.dims.map (lenDim p.cm)
  len : p.data.shape.getD (p.cm.dims.idxOf d) 0 = lenDim p.cm d
  mem : d ∈ p.cm.dims
  nodup : p.cm.dims.Nodup

theorem lined_of {α} {p : PatchM α} (hm : Regular p.cm) (hsh : p.cm.shape = p.data.shape) {d : String} (hd : Sequenced p.cm d) :
    ∃ s x, Lined p d s x := by
  obtain ⟨s, x, hax⟩ := axis_of hm hd
  exact ⟨s, x, hax, shape_dims hsh hd.1, shape_getD hsh hd.1, hd.1, hm.distinct⟩

namespace Lined
variable {α : Type} {p : PatchM α} {d : String} {s : Spacing} {x : ℕ → ℚ}

theorem length (h : Lined p d s x) {i : List ℕ} (hi : InRange p.data.shape i) : i.length = p.cm.dims.length := by
  rw [inRange_length hi, h.shape, List.length_map]

theorem pos_lt (h : Lined p d s x) {i : List ℕ} (hi : InRange p.data.shape i) : posAlong p d i < lenDim p.cm d := by
  rw [h.shape] at hi
  exact inRange_getD hi h.mem

end Lined

theorem trapSum_accumulates {p : PatchM ℚ} {d : String} {s : Spacing} {x : ℕ → ℚ} (h : Lined p d s x) {w : ℕ → ℚ}
    (hw : ∀ t, t + 1 < lenDim p.cm d → w t = x (t + 1) - x t) :
    Accumulates p d fun i => trapSum p.data (p.cm.dims.idxOf d) w i (posAlong p d i) := by
  refine ⟨fun i _ h0 => ?_, fun i j hi hj hij hpos => ?_⟩
  · simp only [h0]; rfl
  · have e := sameLine_eq (h.length hi) (h.length hj) h.nodup hij
    have hlj := h.pos_lt hj
    have hli := h.pos_lt hi
    rw [h.place i hli, h.place j hlj, hpos]
    have e1 : trapSum p.data (p.cm.dims.idxOf d) w j (posAlong p d i + 1) = trapSum p.data (p.cm.dims.idxOf d) w i (posAlong p d i + 1) := by
      rw [e, trapSum_set]
    rw [e1, trapSum_succ, hw _ (by omega)]
    have ei : i.set (p.cm.dims.idxOf d) (posAlong p d i) = i := by
      have := sameLine_eq (h.length hi) (h.length hi) h.nodup (d := d) (fun _ _ _ => rfl)
      exact this.symm
    rw [ei, ← hpos, ← e]
    ring

/-- There is only one such integral. -/
theorem accumulates_unique {p : PatchM ℚ} {d : String} {s : Spacing} {x : ℕ → ℚ} (h : Lined p d s x) {F G : List ℕ → ℚ}
    (hF : Accumulates p d F) (hG : Accumulates p d G) : ∀ t i, InRange p.data.shape i → posAlong p d i = t → F i = G i
  | 0, i, hi, h0 => by rw [hF.first i hi h0, hG.first i hi h0]
  | t + 1, i, hi, ht => by
    have hlt := h.pos_lt hi
    have hir : InRange p.data.shape (i.set (p.cm.dims.idxOf d) t) := inRange_set hi (by rw [h.len]; omega)
    have hp := posAlong_set_self h.mem (h.length hi) t
    have hsl : SameLine p d (i.set (p.cm.dims.idxOf d) t) i := fun e he hne => (sameLine_set i t e he hne).symm
    rw [hF.next _ i hir hi hsl (by omega), hG.next _ i hir hi hsl (by omega), accumulates_unique h hF hG t _ hir hp]

/-- The dimensions along which integration step by step works: those evenly sampled, the last one, and those of two samples. -/
theorem cumulate_accumulates {p : PatchM ℚ} {d : String} {s : Spacing} {x : ℕ → ℚ} (h : Lined p d s x)
    (hu : (∃ v, s = .dx v) ∨ p.cm.dims.idxOf d + 1 = p.cm.dims.length ∨ lenDim p.cm d = 2) :
    ∃ a, p.data.cumulate false s (p.cm.dims.idxOf d) = .ok a ∧ a.shape = p.data.shape ∧ Accumulates p d a.get := by
  have hT := trapSum_accumulates h (w := fun t => (s.widths (lenDim p.cm d)).getD t 0) (fun t ht => h.spaced.width ht)
  have hsl : p.data.shape.length = p.cm.dims.length := by rw [h.shape, List.length_map]
  have key : ∀ w : List ℕ → ℚ, (∀ i, InRange p.data.shape i → ∀ t, t + 1 < lenDim p.cm d →
      w (i.set (p.cm.dims.idxOf d) t) = (s.widths (lenDim p.cm d)).getD t 0) →
      Accumulates p d (p.data.cumulateWith false (p.cm.dims.idxOf d) w).get := by
    intro w hw
    have e : ∀ i, InRange p.data.shape i → (p.data.cumulateWith false (p.cm.dims.idxOf d) w).get i =
        trapSum p.data (p.cm.dims.idxOf d) (fun t => (s.widths (lenDim p.cm d)).getD t 0) i (posAlong p d i) := by
      intro i hi
      unfold trapSum Nd.cumulateWith storeIn
      simp only [Bool.false_eq_true, if_false]
      show ((List.range (posAlong p d i)).map _).sum = _
      congr 1
      apply List.map_congr_left
      intro j hj
      rw [List.mem_range] at hj
      have := h.pos_lt hi
      rw [hw i hi j (by omega)]
    refine ⟨fun i hi h0 => ?_, fun i j hi hj hij hpos => ?_⟩
    · rw [e i hi]; exact hT.first i hi h0
    · rw [e i hi, e j hj]; exact hT.next i j hi hj hij hpos
  cases s with
  | dx v =>
    refine ⟨_, rfl, rfl, key (fun _ => v) ?_⟩
    intro i hi t ht
    show v = (List.replicate _ v).getD t 0
    rw [List.getD_eq_getElem?_getD, List.getElem?_replicate, if_pos (by omega)]
    rfl
  | places xs =>
    have hxs : xs.length = lenDim p.cm d := by obtain ⟨rfl, _⟩ := h.spaced; simp
    by_cases h1 : (diffs xs).length = 1
    · have hrun : p.data.cumulate false (.places xs) (p.cm.dims.idxOf d) =
          .ok (p.data.cumulateWith false (p.cm.dims.idxOf d) fun _ => (diffs xs).getD 0 0) := by
        unfold Nd.cumulate
        simp only
        rw [if_pos h1]
      refine ⟨_, hrun, rfl, key (fun _ => (diffs xs).getD 0 0) ?_⟩
      intro i hi t ht
      show (diffs xs).getD 0 0 = (diffs xs).getD t 0
      rw [diffs_length] at h1
      have : t = 0 := by omega
      rw [this]
    · have hlast : p.cm.dims.idxOf d + 1 = p.cm.dims.length := by
        rcases hu with ⟨v, hv⟩ | hu | hu
        · cases hv
        · exact hu
        · rw [diffs_length, hxs, hu] at h1; omega
      have hrun : p.data.cumulate false (.places xs) (p.cm.dims.idxOf d) =
          .ok (p.data.cumulateWith false (p.cm.dims.idxOf d) fun i => (diffs xs).getD (i.getD (p.data.shape.length - 1) 0) 0) := by
        unfold Nd.cumulate
        simp only
        rw [if_neg h1, if_pos (by rw [if_pos (by omega), diffs_length, hxs, h.len])]
      refine ⟨_, hrun, rfl, key (fun i => (diffs xs).getD (i.getD (p.data.shape.length - 1) 0) 0) ?_⟩
      intro i hi t ht
      show (diffs xs).getD ((i.set (p.cm.dims.idxOf d) t).getD (p.data.shape.length - 1) 0) 0 = (diffs xs).getD t 0
      have : p.data.shape.length - 1 = p.cm.dims.idxOf d := by omega
      rw [this]
      congr 1
      exact posAlong_set_self h.mem (h.length hi) t

theorem indefinite_spec {p : PatchM ℚ} (hm : Regular p.cm) (hsh : p.cm.shape = p.data.shape) {d : String} (hd : Sequenced p.cm d)
    (hu : (∃ k r, p.cm.ents.get? d = some ([d], .one k (.range r))) ∨ p.cm.dims.idxOf d + 1 = p.cm.dims.length ∨ lenDim p.cm d = 2) :
    ∃ q, p.integrateIndefinite false (some [d]) = .ok q ∧ Integral p q d := by
  obtain ⟨s, x, h⟩ := lined_of hm hsh hd
  have hu' : (∃ v, s = .dx v) ∨ p.cm.dims.idxOf d + 1 = p.cm.dims.length ∨ lenDim p.cm d = 2 := by
    rcases hu with ⟨k, r, hr⟩ | hu | hu
    · left
      have := h.run
      unfold PatchM.spacing at this
      rw [hr] at this
      simp only at this
      split_ifs at this
      cases this
      exact ⟨_, rfl⟩
    · exact Or.inr (Or.inl hu)
    · exact Or.inr (Or.inr hu)
  obtain ⟨a, ha, has, hacc⟩ := cumulate_accumulates h hu'
  refine ⟨⟨p.cm, a⟩, ?_, rfl, has, hacc⟩
  unfold PatchM.integrateIndefinite
  simp only [Option.getD_some, List.mapM_cons, List.mapM_nil, bind, Except.bind, pure, Except.pure, h.run, List.foldlM_cons, List.foldlM_nil, ha]
  unfold PatchM.new
  rw [if_pos (by rw [has, hsh])]

/-- The integral of a linear function is exact. -/
theorem accumulates_linear {p : PatchM ℚ} {d : String} {s : Spacing} {x : ℕ → ℚ} (h : Lined p d s x) {F : List ℕ → ℚ}
    (hF : Accumulates p d F) {a b : ℚ} : ∀ t i j, InRange p.data.shape i → InRange p.data.shape j → SameLine p d i j →
      (∀ k, InRange p.data.shape k → SameLine p d i k → p.data.get k = a + b * place p d k) → posAlong p d i = 0 → posAlong p d j = t →
      F j = a * (place p d j - place p d i) + b * (place p d j ^ 2 - place p d i ^ 2) / 2
  | 0, i, j, hi, hj, hij, _, hi0, hj0 => by
    rw [hF.first j hj hj0, h.place i (h.pos_lt hi), h.place j (h.pos_lt hj), hi0, hj0]
    ring
  | t + 1, i, j, hi, hj, hij, hf, hi0, hjt => by
    have hlt := h.pos_lt hj
    have hir : InRange p.data.shape (j.set (p.cm.dims.idxOf d) t) := inRange_set hj (by rw [h.len]; omega)
    have hp := posAlong_set_self h.mem (h.length hj) t
    have hsl : SameLine p d (j.set (p.cm.dims.idxOf d) t) j := fun e he hne => (sameLine_set j t e he hne).symm
    have hsl' : SameLine p d i (j.set (p.cm.dims.idxOf d) t) := fun e he hne => by rw [sameLine_set j t e he hne, hij e he hne]
    rw [hF.next _ j hir hj hsl (by omega), accumulates_linear h hF t i _ hi hir hsl' hf hi0 hp, hf _ hir hsl', hf j hj hij]
    ring

/-! ### Definite integrals -/

theorem trunc_near (q : ℚ) : |(truncZ q : ℚ) - q| < 1 := by
  unfold truncZ
  split
  · rw [abs_lt]
    have h1 := Int.floor_le q
    have h2 := Int.lt_floor_add_one q
    constructor <;> linarith
  · rw [abs_lt]
    have h1 := Int.le_ceil q
    have h2 := Int.ceil_lt_add_one q
    constructor <;> linarith

theorem limitName_ne (d : String) : limitName d "_min" ≠ limitName d "_max" := by
  intro h
  have := congrArg String.toList h
  unfold limitName at this
  rw [String.toList_append, String.toList_append (t := "_max")] at this
  have := List.append_cancel_left this
  revert this
  decide

/-- The arguments that `integrate` gives to `update`. -/
def limitKw (d : String) (k : Kind) (v lo hi : ℚ) : Dict CArg :=
  [(d, .simple (.one k (.mono [v]))), (limitName d "_min", .nested [d] (.one k (.mono [lo]))),
    (limitName d "_max", .nested [d] (.one k (.mono [hi])))]

/-- The coordinates after a definite integral. -/
structure Limited (m cm : CM) (d : String) (k : Kind) (v lo hi : ℚ) : Prop where
  dims : cm.dims = m.dims
  own : cm.ents.get? d = some ([d], .one k (.mono [v]))
  low : cm.ents.get? (limitName d "_min") = some ([d], .one k (.mono [lo]))
  high : cm.ents.get? (limitName d "_max") = some ([d], .one k (.mono [hi]))
  len : ∀ e ∈ m.dims, lenDim cm e = if e = d then 1 else lenDim m e
  kept : ∀ name ds c, m.ents.get? name = some (ds, c) → name ∉ [d, limitName d "_min", limitName d "_max"] → (d ∈ ds → lenDim m d = 1) →
    ∃ c', SameValues c c' ∧ cm.ents.get? name = some (ds, c')
  lost : ∀ name ds c, m.ents.get? name = some (ds, c) → name ∉ [d, limitName d "_min", limitName d "_max"] → d ∈ ds → lenDim m d ≠ 1 →
    cm.ents.get? name = none

theorem limit_update {m : CM} (hm : Regular m) (hr : Readable m) (hl : DimsListed m) {d : String} (hd : d ∈ m.dims) (hfree : LimitsFree m d)
    (k : Kind) (v lo hi : ℚ) : ∃ cm, m.update (limitKw d k v lo hi) = .ok cm ∧ Limited m cm d k v lo hi := by
  have hne1 : d ≠ limitName d "_min" := fun h => (hfree d hd).1 (h ▸ List.prefix_rfl)
  have hne2 : d ≠ limitName d "_max" := fun h => (hfree d hd).2 (h ▸ List.prefix_rfl)
  have hne3 := limitName_ne d
  have hnd1 : limitName d "_min" ∉ m.dims := fun h => (hfree _ h).1 List.prefix_rfl
  have hnd2 : limitName d "_max" ∉ m.dims := fun h => (hfree _ h).2 List.prefix_rfl
  have g1 : (limitKw d k v lo hi).get? d = some (.simple (.one k (.mono [v]))) := by simp [limitKw, Dict.get?]
  have g2 : (limitKw d k v lo hi).get? (limitName d "_min") = some (.nested [d] (.one k (.mono [lo]))) := by
    simp [limitKw, Dict.get?, hne1]
  have g3 : (limitKw d k v lo hi).get? (limitName d "_max") = some (.nested [d] (.one k (.mono [hi]))) := by
    simp [limitKw, Dict.get?, hne2, hne3]
  have hkeys : (limitKw d k v lo hi).keys = [d, limitName d "_min", limitName d "_max"] := rfl
  have hkn : (limitKw d k v lo hi).keys.Nodup := by rw [hkeys]; simp [hne1, hne2, hne3]
  have gn : ∀ name, name ∉ [d, limitName d "_min", limitName d "_max"] → (limitKw d k v lo hi).get? name = none := by
    intro name h
    simp only [List.mem_cons, List.not_mem_nil, or_false, not_or] at h
    simp [limitKw, Dict.get?, Ne.symm h.1, Ne.symm h.2.1, Ne.symm h.2.2]
  have hdne : m.dims ≠ [] := List.ne_nil_of_mem hd
  have hplain : ∀ name ∈ (limitKw d k v lo hi).keys, matchesPrefixSuffix m.dims name = false := by
    intro name hn
    rw [hkeys] at hn
    simp only [List.mem_cons, List.not_mem_nil, or_false] at hn
    have hpre : ∀ name : String, (∀ e ∈ m.dims, ¬ e.toList <+: name.toList) → matchesPrefixSuffix m.dims name = false := by
      intro name h
      unfold matchesPrefixSuffix
      simp only
      rw [if_neg (by simpa using hdne), List.any_eq_false]
      intro e he
      have : e.toList.isPrefixOf name.toList = false := by
        rw [Bool.eq_false_iff]
        intro hc
        exact h e he (List.isPrefixOf_iff_prefix.1 hc)
      simp [this]
    rcases hn with rfl | rfl | rfl
    · exact hm.plain _ (mem_ents_keys hm.wf hd)
    · exact hpre _ fun e he => (hfree e he).1
    · exact hpre _ fun e he => (hfree e he).2
  have hnew : newLen m (limitKw d k v lo hi) d = 1 := by
    unfold newLen
    rw [g1]
    rfl
  obtain ⟨cm, hcm⟩ := update_total hm.wf hkn hplain (by
    intro name a ha
    have hmem : name ∈ [d, limitName d "_min", limitName d "_max"] := by
      by_contra h; rw [gn name h] at ha; cases ha
    simp only [List.mem_cons, List.not_mem_nil, or_false] at hmem
    rcases hmem with rfl | rfl | rfl
    · rw [g1] at ha; cases ha
      exact ⟨_, _, _, rfl, rfl, by simpa using hd, fun _ => rfl, Or.inr (by simp only [List.map_cons, List.map_nil, hnew]; rfl)⟩
    · rw [g2] at ha; cases ha
      exact ⟨_, _, _, rfl, rfl, by simpa using hd, fun h => absurd h hnd1, Or.inr (by simp only [List.map_cons, List.map_nil, hnew]; rfl)⟩
    · rw [g3] at ha; cases ha
      exact ⟨_, _, _, rfl, rfl, by simpa using hd, fun h => absurd h hnd2, Or.inr (by simp only [List.map_cons, List.map_nil, hnew]; rfl)⟩) hr
  have hU := update_spec hm.wf hkn hplain hcm
  have hdrop : dropNames (limitKw d k v lo hi) = [] := rfl
  have hdims : cm.dims = m.dims := by
    rw [hU.dims, hdrop]
    have : ((limitKw d k v lo hi).filter fun p => ((argOf p.1 p.2).map Prod.fst == some [p.1]) && !m.dims.contains p.1) = [] := by
      rw [List.filter_eq_nil_iff]
      intro p hp
      unfold limitKw at hp
      simp only [List.mem_cons, List.not_mem_nil, or_false] at hp
      rcases hp with rfl | rfl | rfl
      · simp [hd]
      · simp [argOf, hne1]
      · simp [argOf, hne2]
    rw [this]; simp
  obtain ⟨k', c, hc⟩ := hl d hd
  have hclen := (dim_one hm hd hc).2
  have hres : ∀ e, Resized m (limitKw d k v lo hi) e ↔ e = d ∧ lenDim m d ≠ 1 := by
    intro e
    constructor
    · rintro ⟨he, a, ds, c1, ds', c', h1, h2, h3, h4⟩
      have hed : e = d := by
        by_contra hne
        have : e ∉ [d, limitName d "_min", limitName d "_max"] := by
          simp only [List.mem_cons, List.not_mem_nil, or_false, not_or]
          exact ⟨hne, fun h => hnd1 (h ▸ he), fun h => hnd2 (h ▸ he)⟩
        rw [gn e this] at h1; cases h1
      subst hed
      refine ⟨rfl, ?_⟩
      rw [g1] at h1; cases h1; cases h2
      rw [hc] at h3; cases h3
      intro h
      apply h4
      show 1 = c.length
      rw [hclen]; exact h.symm
    · rintro ⟨rfl, h⟩
      refine ⟨hd, _, _, _, _, _, g1, rfl, hc, ?_⟩
      show 1 ≠ c.length
      rw [hclen]; exact fun h' => h h'.symm
  have own : cm.ents.get? d = some ([d], .one k (.mono [v])) := by
    obtain ⟨c', h1, h2⟩ := hU.givenC d _ _ _ g1 rfl
    cases h1; exact h2
  have hkept : ∀ name ds c, m.ents.get? name = some (ds, c) → name ∉ [d, limitName d "_min", limitName d "_max"] → (d ∈ ds → lenDim m d = 1) →
      ∃ c', c.canon = .ok c' ∧ cm.ents.get? name = some (ds, c') := by
    intro name ds c hn hnm h1
    refine hU.keptC name ds c (gn name hnm) hn fun e he => ⟨by rw [hdrop]; simp, ?_⟩
    rw [hres]
    rintro ⟨rfl, h⟩
    exact h (h1 he)
  refine ⟨cm, hcm, hdims, own, ?_, ?_, ?_, ?_, ?_⟩
  · obtain ⟨c', h1, h2⟩ := hU.givenC _ _ _ _ g2 rfl
    cases h1; exact h2
  · obtain ⟨c', h1, h2⟩ := hU.givenC _ _ _ _ g3 rfl
    cases h1; exact h2
  · intro e he
    by_cases hed : e = d
    · subst hed
      unfold lenDim Ents.lenOf
      rw [own, if_pos rfl]
      rfl
    · rw [if_neg hed]
      obtain ⟨k2, c2, hc2⟩ := hl e he
      obtain ⟨x, h1, h2⟩ := hkept e [e] _ hc2 (by
        simp only [List.mem_cons, List.not_mem_nil, or_false, not_or]
        exact ⟨hed, fun h => hnd1 (h ▸ he), fun h => hnd2 (h ▸ he)⟩) (by
        intro h; simp only [List.mem_singleton] at h; exact absurd h.symm hed)
      have := canon_length h1
      obtain ⟨y, rfl⟩ := canon_listed h1
      rw [one_shape] at this
      unfold lenDim Ents.lenOf
      rw [h2, hc2]
      exact (List.cons.inj this).1
  · intro name ds c hn hnm h1
    obtain ⟨c', h2, h3⟩ := hkept name ds c hn hnm h1
    exact ⟨c', canon_same h2, h3⟩
  · intro name ds c hn hnm h1 h2
    exact hU.lost name ds c (gn name hnm) hn ⟨d, h1, Or.inr ((hres d).2 ⟨rfl, h2⟩)⟩

theorem trapezoid_get {p : PatchM ℚ} {d : String} {s : Spacing} {x : ℕ → ℚ} (h : Lined p d s x) (i : List ℕ) :
    (p.data.trapezoid s (p.cm.dims.idxOf d)).get i =
      trapSum p.data (p.cm.dims.idxOf d) (fun t => (s.widths (lenDim p.cm d)).getD t 0) i (lenDim p.cm d - 1) := by
  unfold Nd.trapezoid trapSum
  simp only [h.len]
  congr 1
  apply List.map_congr_left
  intro j _
  ring

theorem label_single {α} {p : PatchM α} {name d : String} {k : Kind} {v : ℚ} (h : p.cm.ents.get? name = some ([d], .one k (.mono [v])))
    {i : List ℕ} (h0 : posAlong p d i = 0) : label p name i = some (some v) := by
  unfold label
  rw [h]
  show some (([some v] : List (Option ℚ)).getD (posAlong p d i) none) = _
  rw [h0]
  rfl

theorem definite_spec {p : PatchM ℚ} (hm : Regular p.cm) (hr : Readable p.cm) (hl : DimsListed p.cm) (hsh : p.cm.shape = p.data.shape)
    {d : String} (hd : Sequenced p.cm d) (h0 : 0 < lenDim p.cm d) (hfree : LimitsFree p.cm d) :
    ∃ q, p.integrateDefinite (some [d]) = .ok q ∧ Definite p q d := by
  obtain ⟨s, x, h⟩ := lined_of hm hsh hd
  obtain ⟨hdim, k, c, hc, hrc⟩ := hd
  have hw : c.Wf := hm.classes _ _ _ _ (Dict.mem_of_get? hc)
  have hn : ∀ n, c ≠ .part n := by rcases hrc with ⟨r, rfl⟩ | ⟨vs, rfl⟩ <;> simp
  have hvl : c.vals.length = lenDim p.cm d := by
    unfold lenDim Ents.lenOf
    rw [hc]
    show _ = c.length
    rw [← labels_length hw, labels_vals hn, List.length_map]
  have hv0 : c.vals ≠ [] := by intro h; rw [h] at hvl; simp at hvl; omega
  obtain ⟨cm, hcm, hL⟩ := limit_update hm hr hl hdim hfree k (quasiMean k c.vals) (c.vals.foldl min (c.vals.getD 0 0))
    (c.vals.foldl max (c.vals.getD 0 0))
  have hne1 : d ≠ limitName d "_min" := fun h => (hfree d hdim).1 (h ▸ List.prefix_rfl)
  have hne2 : d ≠ limitName d "_max" := fun h => (hfree d hdim).2 (h ▸ List.prefix_rfl)
  have hts : (p.data.trapezoid s (p.cm.dims.idxOf d)).shape = p.cm.dims.map fun e => if e = d then 1 else lenDim p.cm e := by
    show p.data.shape.set _ 1 = _
    rw [h.shape]
    apply List.ext_getElem
    · simp
    · intro t h1 h2
      simp only [List.length_set, List.length_map] at h1
      rw [List.getElem_set, List.getElem_map, List.getElem_map]
      by_cases he : p.cm.dims.idxOf d = t
      · have : p.cm.dims[t] = d := by
          have := List.getElem_idxOf (xs := p.cm.dims) (List.idxOf_lt_length_of_mem hdim)
          simp only [he] at this
          exact this
        rw [if_pos he, if_pos this]
      · rw [if_neg he, if_neg]
        intro hc
        exact he (by rw [← hc]; exact List.Nodup.idxOf_getElem h.nodup t h1)
  have hcs : cm.shape = (p.data.trapezoid s (p.cm.dims.idxOf d)).shape := by
    rw [hts, cm_shape (by rw [hL.dims]; exact List.ne_nil_of_mem hdim), hL.dims]
    exact List.map_congr_left hL.len
  refine ⟨⟨cm, p.data.trapezoid s (p.cm.dims.idxOf d)⟩, ?_, hL.dims, hts, ?_, ?_, ?_, ?_, ?_⟩
  · unfold PatchM.integrateDefinite
    simp only [Option.getD_some, List.mapM_cons, List.mapM_nil, bind, Except.bind, pure, Except.pure, h.run, meanArg, limitArgs, hc,
      List.foldl_cons, List.foldl_nil, if_neg hv0, List.flatten_cons, List.flatten_nil, List.append_nil]
    rw [update_nil (by simp [Dict.keys]), update_fresh (by
      have := limitName_ne d
      unfold limitName at hne1 hne2 this
      simp [Dict.keys, hne1, hne2, this])]
    have e : ([(d, CArg.simple (MCoord.one k (Coord.mono [quasiMean k c.vals])))] ++
        [("pre_integrate_" ++ d ++ "_min", CArg.nested [d] (MCoord.one k (Coord.mono [c.vals.foldl min (c.vals.getD 0 0)]))),
          ("pre_integrate_" ++ d ++ "_max", CArg.nested [d] (MCoord.one k (Coord.mono [c.vals.foldl max (c.vals.getD 0 0)])))] : Dict CArg) =
        limitKw d k (quasiMean k c.vals) (c.vals.foldl min (c.vals.getD 0 0)) (c.vals.foldl max (c.vals.getD 0 0)) := rfl
    rw [e, hcm]
    show PatchM.new cm _ = _
    unfold PatchM.new
    rw [if_pos hcs]
  · intro F hF i hi j hj hij hpos
    show (p.data.trapezoid s _).get i = _
    rw [trapezoid_get h]
    have hT := trapSum_accumulates h (w := fun t => (s.widths (lenDim p.cm d)).getD t 0) (fun t ht => h.spaced.width ht)
    rw [accumulates_unique h hF hT _ j hj rfl]
    have hil : i.length = p.cm.dims.length := by
      rw [inRange_length hi]
      show (p.data.shape.set _ 1).length = _
      rw [List.length_set, h.shape, List.length_map]
    have e := sameLine_eq hil (h.length hj) h.nodup hij
    rw [show posAlong p d j = lenDim p.cm d - 1 by omega]
    rw [e, trapSum_set]
  all_goals
    have hp0 : ∀ i, InRange (p.data.trapezoid s (p.cm.dims.idxOf d)).shape i →
        posAlong (⟨cm, p.data.trapezoid s (p.cm.dims.idxOf d)⟩ : PatchM ℚ) d i = 0 := by
      intro i hi
      rw [hts] at hi
      have := inRange_getD hi hdim
      rw [if_pos rfl] at this
      unfold posAlong
      rw [hL.dims]
      omega
  · intro k' c' hc' i hi
    rw [hc] at hc'; cases hc'
    refine ⟨_, label_single hL.own (hp0 i hi), ?_, ?_⟩
    · intro hk
      subst hk
      unfold quasiMean storeIn
      simp only [ne_eq, not_true_eq_false, decide_false, Bool.false_eq_true, if_false]
      rw [div_mul_cancel₀]
      rw [hvl]; exact_mod_cast (by omega)
    · unfold quasiMean storeIn
      split
      · exact trunc_near _
      · simp
  · intro k' c' hc' i hi
    rw [hc] at hc'; cases hc'
    obtain ⟨v, vs, hvs⟩ := List.exists_cons_of_ne_nil hv0
    obtain ⟨a3, a1, a2⟩ := foldl_min_spec c.vals (c.vals.getD 0 0)
    obtain ⟨b3, b1, b2⟩ := foldl_max_spec c.vals (c.vals.getD 0 0)
    have hmem : c.vals.getD 0 0 ∈ c.vals := by rw [hvs]; simp
    refine ⟨_, _, label_single hL.low (hp0 i hi), label_single hL.high (hp0 i hi), ?_, ?_, fun v hv => ⟨a2 v hv, b2 v hv⟩⟩
    · rcases a3 with a3 | a3
      · rw [a3]; exact hmem
      · exact a3
    · rcases b3 with b3 | b3
      · rw [b3]; exact hmem
      · exact b3
  · intro name ds c1 hn hnm h1 hs i hi
    obtain ⟨c', h2, h3⟩ := hL.kept name ds c1 hn hnm h1
    unfold label
    simp only
    rw [hn, h3]
    cases ds with
    | nil => rfl
    | cons e ds =>
      simp only
      rw [h2.2 hs, hL.dims]
  · intro name ds c1 hn hnm h1 h2
    exact hL.lost name ds c1 hn hnm h1 h2

end Verif
