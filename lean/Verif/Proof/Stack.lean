import Verif.Spec.Stack
import Verif.Proof.Where
import Verif.Props.Concat
import Verif.Props.Arith
import Verif.Props.CoordLimits
/-! # Proofs about added patches -/
namespace Verif
open Spec
variable {α β : Type}

theorem checkVary_iff {vary : Option String} {p q : HPatch α β} (hw : WellFormed p.cm) : checkVary vary p.cm q.cm = true ↔ Agrees vary p q := by
  unfold checkVary Agrees
  rw [List.all_eq_true]
  constructor
  · intro h name ds c ds' c' h1 h2
    have := h (name, ds, c) (Dict.mem_of_get? h1)
    simp only [h2, Bool.or_eq_true, Bool.and_eq_true, decide_eq_true_eq] at this
    exact this.imp (modelEq_iff _ _).1 id
  · rintro h ⟨name, ds, c⟩ hm
    have h1 := Dict.get?_of_mem hw.names hm
    cases h2 : q.cm.ents.get? name with
    | none => simp
    | some v =>
      obtain ⟨ds', c'⟩ := v
      simp only [Bool.or_eq_true, Bool.and_eq_true, decide_eq_true_eq]
      exact (h name ds c ds' c' h1 h2).imp (modelEq_iff _ _).2 id

theorem castIdx_self {sh : List ℕ} : ∀ {i : List ℕ}, InRange sh i → Nd.castIdx sh i = i := by
  have key : ∀ {sh i : List ℕ}, InRange sh i → Nd.clip sh i = i := by
    intro sh i h
    unfold InRange at h
    induction h with
    | nil => rfl
    | cons h1 _ ih =>
      unfold Nd.clip at ih ⊢
      rw [List.zipWith_cons_cons, ih]
      congr 1
      split_ifs with h
      · omega
      · rfl
  intro i h
  unfold Nd.castIdx
  rw [inRange_length h]
  simpa using key h

theorem plus_same [Add α] {a b : Nd α} (h : b.shape = a.shape) : ∃ r, a.plus b = .ok r ∧ r.shape = a.shape ∧
    ∀ i, InRange a.shape i → r.get i = a.get i + b.get i := by
  refine ⟨⟨a.shape, fun i => a.get (Nd.castIdx a.shape i) + b.get (Nd.castIdx b.shape i)⟩, ?_, rfl, ?_⟩
  · unfold Nd.plus
    rw [broadcastShapes_same (by rw [h]), h, broadcast_self]
    rfl
  · intro i hi
    simp only
    rw [h, castIdx_self hi]

theorem agrees_shape {vary : Option String} {p q : HPatch α β} (hp : Sound p) (hq : Sound q) (hd : q.cm.dims = p.cm.dims) (h : Agrees vary p q) :
    q.data.shape = p.data.shape := by
  rw [hp.shape_eq, hq.shape_eq, hd]
  refine List.map_congr_left fun d hdd => ?_
  obtain ⟨c, n, h1, _⟩ := CM.WellFormed.get_dim hp.reg.wf hdd
  obtain ⟨c', n', h1', _⟩ := CM.WellFormed.get_dim hq.reg.wf (hd ▸ hdd)
  have hs : c.shape = c'.shape := by
    rcases h d _ _ _ _ h1 h1' with h | h
    · exact sameCoord_shape h
    · exact h.2
  unfold lenDim Ents.lenOf
  rw [h1, h1']
  simp only [MCoord.len, hs]

open Classical in
/-- Adding up: what the loop returns if it returns anything. -/
theorem stack_loop [AddCommMonoid α] {raises : Bool} {vary : Option String} {first : HPatch α β} (hf : Sound first) :
    ∀ {ps : List (HPatch α β)} {acc r : Nd α}, (∀ p ∈ ps, Sound p) → (raises = false → ∀ p ∈ ps, Agrees vary first p → p.cm.dims = first.cm.dims) →
      acc.shape = first.data.shape → ps.foldlM (stackStep raises vary first.cm) acc = .ok r →
      r.shape = first.data.shape ∧ (∀ i, InRange first.data.shape i →
        r.get i = acc.get i + ((ps.filter fun p => decide (Agrees vary first p)).map fun p => p.data.get i).sum) ∧
      (raises = true → ∀ p ∈ ps, p.cm.dims = first.cm.dims ∧ Agrees vary first p)
  | [], acc, r, _, _, ha, h => by
    cases h
    exact ⟨ha, fun i _ => by simp, fun _ p hp => absurd hp (by simp)⟩
  | p :: ps, acc, r, hs, hd, ha, h => by
    rw [List.foldlM_cons] at h
    simp only [bind, Except.bind] at h
    split at h
    · cases h
    rename_i acc' hacc
    unfold stackStep at hacc
    by_cases hA : Agrees vary first p
    · have hdim : p.cm.dims = first.cm.dims := by
        cases hr : raises with
        | false => exact hd hr p (by simp) hA
        | true =>
          rw [hr] at hacc
          by_contra hne
          rw [if_pos (by simpa using Ne.symm hne)] at hacc
          cases hacc
      have hc := (checkVary_iff hf.reg.wf).2 hA
      rw [if_neg (by simp [hdim]), if_pos hc] at hacc
      obtain ⟨r', h1, h2, h3⟩ := plus_same (a := acc) (b := p.data) (by rw [ha]; exact agrees_shape hf (hs p (by simp)) hdim hA)
      rw [hacc] at h1; cases h1
      obtain ⟨g1, g2, g3⟩ := stack_loop hf (fun q hq => hs q (by simp [hq])) (fun e q hq => hd e q (by simp [hq])) (h2.trans ha) h
      refine ⟨g1, fun i hi => ?_, fun e q hq => ?_⟩
      · rw [g2 i hi, h3 i (ha ▸ hi), List.filter_cons_of_pos (by simpa using hA)]
        simp [add_assoc]
      · rcases List.mem_cons.1 hq with rfl | hq
        · exact ⟨hdim, hA⟩
        · exact g3 e q hq
    · have hc : checkVary vary first.cm p.cm = false := by
        rw [← Bool.not_eq_true]; exact fun h => hA ((checkVary_iff hf.reg.wf).1 h)
      cases hr : raises with
      | true =>
        rw [hr, hc] at hacc
        split_ifs at hacc <;> simp_all
      | false =>
        rw [hr, hc] at hacc
        simp only [Bool.false_and, Bool.false_eq_true, if_false] at hacc
        cases hacc
        rw [hr] at h hd
        obtain ⟨g1, g2, _⟩ := stack_loop hf (fun q hq => hs q (by simp [hq])) (fun e q hq => hd e q (by simp [hq])) ha h
        refine ⟨g1, fun i hi => ?_, fun e => by simp at e⟩
        rw [g2 i hi, List.filter_cons_of_neg (by simpa using hA)]

theorem stack_total [AddCommMonoid α] {raises : Bool} {vary : Option String} {first : HPatch α β} (hf : Sound first) :
    ∀ {ps : List (HPatch α β)} {acc : Nd α}, (∀ p ∈ ps, Sound p) → (∀ p ∈ ps, Agrees vary first p → p.cm.dims = first.cm.dims) →
      (raises = true → ∀ p ∈ ps, Agrees vary first p) → acc.shape = first.data.shape → ∃ r, ps.foldlM (stackStep raises vary first.cm) acc = .ok r
  | [], acc, _, _, _, _ => ⟨acc, rfl⟩
  | p :: ps, acc, hs, hd, hr, ha => by
    have key : ∃ acc', stackStep raises vary first.cm acc p = .ok acc' ∧ acc'.shape = first.data.shape := by
      unfold stackStep
      by_cases hA : Agrees vary first p
      · have hdim := hd p (by simp) hA
        rw [if_neg (by simp [hdim]), if_pos ((checkVary_iff hf.reg.wf).2 hA)]
        obtain ⟨r', h1, h2, _⟩ := plus_same (a := acc) (b := p.data) (by rw [ha]; exact agrees_shape hf (hs p (by simp)) hdim hA)
        exact ⟨r', h1, h2.trans ha⟩
      · have hc : checkVary vary first.cm p.cm = false := by
          rw [← Bool.not_eq_true]; exact fun h => hA ((checkVary_iff hf.reg.wf).1 h)
        have hf' : raises = false := by
          cases h : raises with
          | false => rfl
          | true => exact absurd (hr h p (by simp)) hA
        rw [hf', hc]
        exact ⟨acc, by simp, ha⟩
    obtain ⟨acc', h1, h2⟩ := key
    obtain ⟨r, h3⟩ := stack_total (ps := ps) (raises := raises) (vary := vary) hf (fun q hq => hs q (by simp [hq])) (fun q hq => hd q (by simp [hq])) (fun e q hq => hr e q (by simp [hq])) h2
    exact ⟨r, by rw [List.foldlM_cons, h1]; exact h3⟩

/-- Moving a coordinate so that it starts at zero. -/
theorem fromZero_spec {c c' : MCoord} (hw : ∀ k x, c = .one k x → x.Wf) (h : c.fromZero = .ok c') :
    ∃ k x y, c = .one k x ∧ c' = .one k y ∧ c'.canon = .ok c' ∧ y.length = x.length ∧ ((∃ n, x = .part n) → y = x) ∧
      ((¬ ∃ n, x = .part n) → ∃ lo, ((∀ r, x = .range r → 0 < r.step) → IsMin x.vals lo) ∧
        (Storable (x.vals.map fun v => v - lo) → y.labels = (x.vals.map fun v => v - lo).map some)) := by
  have harr : ∀ k (x : Coord), (∀ r, x ≠ .range r) → (∀ n, x ≠ .part n) → c = .one k x → x.vals.length = x.length → x.vals ≠ [] →
      (ArrCoord.updateLimits k x (some 0) none none).map (.one k) = .ok c' → ∃ k x y, c = .one k x ∧ c' = .one k y ∧ c'.canon = .ok c' ∧ y.length = x.length ∧ ((∃ n, x = .part n) → y = x) ∧
      ((¬ ∃ n, x = .part n) → ∃ lo, ((∀ r, x = .range r → 0 < r.step) → IsMin x.vals lo) ∧
        (Storable (x.vals.map fun v => v - lo) → y.labels = (x.vals.map fun v => v - lo).map some)) := by
    intro k x hr hp hc hl hne h
    obtain ⟨y, h1, rfl⟩ := except_map_ok h
    have h2 : ArrCoord.updateLimits k x (some 0) none none = ArrCoord.shift k x.vals (x.vals.foldl min (x.vals.getD 0 0)) 0 := rfl
    rw [h2] at h1
    unfold ArrCoord.shift at h1
    have e : (fun v : ℚ => v + (0 - x.vals.foldl min (x.vals.getD 0 0))) = fun v => v - x.vals.foldl min (x.vals.getD 0 0) := by
      funext v; ring
    rw [e] at h1
    refine ⟨k, x, y, hc, rfl, getCoordData_fixed h1, ?_, fun ⟨n, hn⟩ => absurd hn (hp n), fun _ => ⟨_, fun _ => foldl_min_isMin hne, fun hs => getCoordData_labels hs h1⟩⟩
    rw [getCoordData_length h1]; simpa using hl
  cases c with
  | nd a => cases h
  | one k x =>
    have hx := hw k x rfl
    cases x with
    | range r =>
      obtain ⟨y, h1, rfl⟩ := except_map_ok h
      have hv : r.Valid := hx
      have hval : (⟨0, r.stop + (0 - r.start), r.step, r.len⟩ : RangeCoord).Valid := ⟨hv.step_ne, hv.len_pos, by simp only; rw [hv.stop_eq]; ring⟩
      have h2 : r.updateLimits (some 0) none none = .ok (.range ⟨0, r.stop + (0 - r.start), r.step, r.len⟩) := by
        simp only [RangeCoord.updateLimits, bind, Except.bind]
        have h : r.new 0 (r.stop + (0 - r.start)) r.step = _ := new_canonical hv.step_ne hv.len_pos hval.stop_eq
        rw [h]
      rw [h2] at h1; cases h1
      refine ⟨k, _, _, rfl, rfl, rfl, rfl, fun ⟨n, hn⟩ => (by cases hn), fun _ => ⟨r.start, fun hs => ?_, fun _ => ?_⟩⟩
      · have hs := hs r rfl
        show IsMin r.values r.start
        rw [hv.values_eq]
        unfold progression
        refine ⟨List.mem_map.2 ⟨0, List.mem_range.2 hv.len_pos, by simp⟩, ?_⟩
        intro y hy
        obtain ⟨i, _, rfl⟩ := List.mem_map.1 hy
        have : (0 : ℚ) ≤ (i : ℚ) * r.step := mul_nonneg (Nat.cast_nonneg _) hs.le
        linarith
      · show (RangeCoord.values _).map some = (r.values.map _).map some
        rw [hval.values_eq, hv.values_eq]
        congr 1
        unfold progression
        rw [List.map_map]
        refine List.map_congr_left fun i _ => ?_
        simp only [Function.comp]
        ring
    | part n =>
      cases h
      exact ⟨k, _, _, rfl, rfl, rfl, rfl, fun _ => rfl, fun h => absurd ⟨n, rfl⟩ h⟩
    | mono vs =>
      simp only [MCoord.fromZero] at h
      split_ifs at h
      exact harr k (.mono vs) (by simp) (by simp) rfl rfl hx.2 h
    | arr vs =>
      simp only [MCoord.fromZero] at h
      split_ifs at h
      exact harr k (.arr vs) (by simp) (by simp) rfl rfl hx h

/-- The coordinates of the result. -/
theorem stackCM_spec {vary : Option String} {m m' : CM} (hm : Regular m) (h : stackCM vary m = .ok m') (hv : mayVary vary m = true) :
    m'.dims = m.dims ∧ (∀ name ds c, m.ents.get? name = some (ds, c) → vary ≠ some name → ∃ c', SameValues c c' ∧ m'.ents.get? name = some (ds, c')) ∧
    (∀ name, m.ents.get? name = none → m'.ents.get? name = none) ∧
    (∀ d, vary = some d → ∃ c c', m.ents.get? d = some ([d], c) ∧ c.fromZero = .ok c' ∧ ∃ x, c'.canon = .ok x ∧ m'.ents.get? d = some ([d], x)) := by
  cases vary with
  | none =>
    cases h
    exact ⟨rfl, fun name ds c hc _ => ⟨c, ⟨rfl, fun _ => rfl⟩, hc⟩, fun _ h => h, fun d hd => by cases hd⟩
  | some d =>
    have hd : d ∈ m.dims := by simpa [mayVary] using hv
    simp only [stackCM, bind, Except.bind] at h
    split at h
    · cases h
    rename_i c hc
    split at h
    · cases h
    rename_i c' hc'
    obtain ⟨hg, hlen⟩ := coord_at hm hd hc
    have hplain : ∀ n ∈ Dict.keys [(d, CArg.simple c')], matchesPrefixSuffix m.dims n = false := by
      intro n hn
      simp [Dict.keys] at hn; subst hn
      exact hm.plain n (Dict.mem_keys.2 ⟨_, hg⟩)
    have hU := update_spec hm.wf (by simp [Dict.keys]) hplain h
    have hown : Dict.get? [(d, CArg.simple c')] d = some (.simple c') := by simp [Dict.get?]
    have hnk : ∀ name, name ≠ d → Dict.get? [(d, CArg.simple c')] name = none := by
      intro name hne
      simp [Dict.get?, Ne.symm hne]
    have hsame : c'.len = c.len := by
      obtain ⟨k, x, y, rfl, rfl, _, h2, _⟩ := fromZero_spec (fun k x e => hm.classes d _ k x (e ▸ Dict.mem_of_get? hg)) hc'
      simpa [MCoord.len, MCoord.shape, MCoord.arr] using h2
    have hres : ∀ e, ¬ Resized m [(d, CArg.simple c')] e := by
      rintro e ⟨_, a, ds, x, ds', x', h2, h3, h4, h5⟩
      by_cases he : e = d
      · subst he
        rw [hown] at h2; cases h2
        cases h3
        rw [hg] at h4; cases h4
        exact h5 hsame
      · rw [hnk e he] at h2; cases h2
    refine ⟨?_, ?_, ?_, ?_⟩
    · rw [hU.dims]
      simp [dropNames, CArg.isDrop, argOf, hd]
    · intro name ds x hx hne
      exact hU.kept name ds x (hnk name fun e => hne (e ▸ rfl)) hx fun e _ => ⟨by simp [dropNames, CArg.isDrop], hres e⟩
    · intro name hn
      refine hU.none name (hnk name ?_) hn
      rintro rfl
      rw [hg] at hn; cases hn
    · rintro d' hd'
      cases hd'
      obtain ⟨x, hx1, hx2⟩ := hU.givenC d _ _ _ hown rfl
      exact ⟨c, c', hg, hc', x, hx1, hx2⟩

end Verif
