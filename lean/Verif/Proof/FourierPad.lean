import Verif.Proof.FourierInverse
import Verif.Proof.FourierData
/-! # Lemmas: padding before a transform -/
namespace Verif
open Spec

/-- The labels of an evenly sampled coordinate continued to `n` samples. -/
def RangeCoord.upTo (r : RangeCoord) (n : ℕ) : RangeCoord := ⟨r.start, r.start + r.step * n, r.step, n⟩

theorem upTo_valid {r : RangeCoord} (h : r.Valid) {n : ℕ} (hn : 1 ≤ n) : (r.upTo n).Valid := ⟨h.step_ne, hn, rfl⟩

theorem upTo_len {r : RangeCoord} (h : r.Valid) : r.upTo r.len = r := by
  unfold RangeCoord.upTo
  rw [← h.stop_eq]

/-- `p'` is `p` with the dimensions `D` continued to `N` samples, with zeros. -/
structure Extended (p p' : PatchM ℂ) (N : String → ℕ) (D : List String) : Prop where
  wf : WellFormed p'.cm
  readable : Readable p'.cm
  dims : p'.cm.dims = p.cm.dims
  own : ∀ d ∈ D, ∀ k r, p.cm.ents.get? d = some ([d], .one k (.range r)) → p'.cm.ents.get? d = some ([d], .one k (.range (r.upTo (N d))))
  kept : ∀ n ∉ D, ∀ ds c, p.cm.ents.get? n = some (ds, c) → (∀ d ∈ ds, d ∉ D) → ∃ x, (x = c ∨ c.canon = .ok x) ∧ p'.cm.ents.get? n = some (ds, x)
  sub : ∀ n ds x, p'.cm.ents.get? n = some (ds, x) → ∃ c, p.cm.ents.get? n = some (ds, c)
  shape : p'.data.shape = p.cm.dims.map fun d => if d ∈ D then N d else p.cm.ents.lenOf d
  data : ∀ i, InRange p'.data.shape i → InRange p.data.shape i → p'.data.get i = p.data.get i
  zero : ∀ i, InRange p'.data.shape i → ¬ InRange p.data.shape i → p'.data.get i = 0

theorem extended_self {p : PatchM ℂ} (hm : Regular p.cm) (hr : Readable p.cm) (hne : p.cm.dims ≠ []) (hsh : p.cm.shape = p.data.shape) {D : List String}
    (hD : FtReady p.cm D) : Extended p p p.cm.ents.lenOf D := by
  refine ⟨hm.wf, hr, rfl, ?_, fun n _ ds c h _ => ⟨c, Or.inl rfl, h⟩, fun n ds x h => ⟨x, h⟩, ?_, fun _ _ _ => rfl, fun i h h' => absurd h h'⟩
  · intro d hd k r h
    obtain ⟨k', r', h', hv⟩ := hD.even d hd
    rw [h] at h'; cases h'
    have : p.cm.ents.lenOf d = r.len := by unfold Ents.lenOf; rw [h]; rfl
    rw [this, upTo_len hv, h]
  · rw [← hsh]
    unfold CM.shape
    rw [if_neg hne]
    simp

theorem evenSpacing_ok {α} {p : PatchM α} {d : String} {k : Kind} {r : RangeCoord} (hd : d ∈ p.cm.dims)
    (h : p.cm.ents.get? d = some ([d], .one k (.range r))) : p.evenSpacing d = .ok (stepFloat k r.step, p.cm.dims.idxOf d) := by
  unfold PatchM.evenSpacing
  rw [h]
  simp [hd]

theorem evenSpacings {α} {p : PatchM α} {D : List String} (hd : ∀ d ∈ D, d ∈ p.cm.dims)
    (h : ∀ d ∈ D, ∃ k r, p.cm.ents.get? d = some ([d], .one k (.range r))) :
    D.mapM p.evenSpacing = .ok (D.map fun d => (dxOf p.cm d, p.cm.dims.idxOf d)) := by
  apply mapM_ok'
  intro d hdD
  obtain ⟨k, r, h'⟩ := h d hdD
  rw [evenSpacing_ok (hd d hdD) h']
  unfold dxOf
  rw [h']

theorem padFast_spec {p : PatchM ℂ} (hm : Regular p.cm) (hr : Readable p.cm) (hne : p.cm.dims ≠ []) (hsh : p.cm.shape = p.data.shape)
    {D : List String} (hD : FtReady p.cm D) (hpos : ∀ d ∈ D, ∀ k r, p.cm.ents.get? d = some ([d], .one k (.range r)) → 0 < r.step)
    {fast : ℕ → ℕ} (hf : ∀ n, n ≤ fast n) :
    ∃ p', p.padFast fast D = .ok p' ∧ Extended p p' (fun d => fast (p.cm.ents.lenOf d)) D := by
  have hlen : ∀ d k r, p.cm.ents.get? d = some ([d], .one k (.range r)) → p.cm.ents.lenOf d = r.len := by
    intro d k r h; unfold Ents.lenOf; rw [h]; rfl
  let kw : Dict (ℕ × ℕ) := D.map fun d => (d, (0, fast (p.cm.ents.lenOf d) - p.cm.ents.lenOf d))
  have hkk : Dict.keys kw = D := keys_pairs D _
  have hkg : ∀ d, Dict.get? kw d = if d ∈ D then some (0, fast (p.cm.ents.lenOf d) - p.cm.ents.lenOf d) else none := fun d =>
    get?_pairs (D := D) (fun d => (0, fast (p.cm.ents.lenOf d) - p.cm.ents.lenOf d)) d
  let arg : String → CArg := fun d => match p.cm.ents.get? d with
    | some (_, .one k (.range r)) => .simple (.one k (.range (r.upTo (fast (p.cm.ents.lenOf d)))))
    | _ => .simple (.one .float (.part 0))
  have harg : ∀ d k r, p.cm.ents.get? d = some ([d], .one k (.range r)) → arg d = .simple (.one k (.range (r.upTo (fast (p.cm.ents.lenOf d))))) := by
    intro d k r h; simp only [arg, h]
  let new : Dict CArg := D.map fun d => (d, arg d)
  have hnk : Dict.keys new = D := keys_pairs D _
  have hng : ∀ d, Dict.get? new d = if d ∈ D then some (arg d) else none := fun d => get?_pairs (D := D) arg d
  have hnew : (kw.mapM fun q => (p.padOne q).map fun x => (q.1, x)) = .ok new := by
    have key := mapM_ok' (fun q : String × (ℕ × ℕ) => (p.padOne q).map fun x => (q.1, x)) (fun q => (q.1, arg q.1)) kw (by
      intro q hq
      obtain ⟨d, hd, rfl⟩ := List.mem_map.1 hq
      obtain ⟨k, r, h, hv⟩ := hD.even d hd
      unfold PatchM.padOne
      simp only [h]
      rw [padCoord_eq hv (hpos d hd k r h), harg d k r h]
      have hle := hf (p.cm.ents.lenOf d)
      have e : 0 + r.len + (fast (p.cm.ents.lenOf d) - p.cm.ents.lenOf d) = fast (p.cm.ents.lenOf d) := by
        rw [hlen d k r h] at hle ⊢; omega
      simp only [e]
      unfold RangeCoord.upTo
      simp [Except.map])
    rw [key]
    simp only [kw, List.map_map]
    rfl
  have hplain : ∀ n ∈ Dict.keys new, matchesPrefixSuffix p.cm.dims n = false := by
    intro n hn
    rw [hnk] at hn
    exact suffixless_plain (hD.plain n hn).1 _
  have hnkn : (Dict.keys new).Nodup := by rw [hnk]; exact hD.nodup
  obtain ⟨cm, hcm⟩ := update_total hm.wf hnkn hplain (by
    intro n a ha
    rw [hng] at ha
    split_ifs at ha with hn
    cases ha
    obtain ⟨k, r, h, hv⟩ := hD.even n hn
    rw [harg n k r h]
    refine ⟨[n], _, _, rfl, rfl, by simpa using hD.dims n hn, fun _ => rfl, Or.inr ?_⟩
    have : newLen p.cm new n = fast (p.cm.ents.lenOf n) := by
      unfold newLen
      rw [hng, if_pos hn, harg n k r h]
      rfl
    rw [List.map_singleton, this]
    rfl) hr
  have hU := update_spec hm.wf hnkn hplain hcm
  have hdn : dropNames new = [] := by
    unfold dropNames
    rw [List.map_eq_nil_iff, List.filter_eq_nil_iff]
    intro q hq
    obtain ⟨d, hd, rfl⟩ := List.mem_map.1 hq
    obtain ⟨k, r, h, hv⟩ := hD.even d hd
    simp only [harg d k r h]
    simp [CArg.isDrop]
  have hdims : cm.dims = p.cm.dims := by
    rw [hU.dims, hdn]
    have : (new.filter fun q => ((argOf q.1 q.2).map Prod.fst == some [q.1]) && !p.cm.dims.contains q.1) = [] := by
      rw [List.filter_eq_nil_iff]
      intro q hq
      obtain ⟨d, hd, rfl⟩ := List.mem_map.1 hq
      simp [hD.dims d hd]
    rw [this]; simp
  have hown : ∀ d ∈ D, ∀ k r, p.cm.ents.get? d = some ([d], .one k (.range r)) →
      cm.ents.get? d = some ([d], .one k (.range (r.upTo (fast (p.cm.ents.lenOf d))))) := by
    intro d hd k r h
    obtain ⟨x, h1, h2⟩ := hU.givenC d (arg d) [d] (.one k (.range (r.upTo (fast (p.cm.ents.lenOf d))))) (by rw [hng, if_pos hd]) (by
      rw [harg d k r h]; rfl)
    cases h1
    exact h2
  have hkept : ∀ n ∉ D, ∀ ds c, p.cm.ents.get? n = some (ds, c) → (∀ d ∈ ds, d ∉ D) → ∃ x, c.canon = .ok x ∧ cm.ents.get? n = some (ds, x) := by
    intro n hn ds c hc hds
    refine hU.keptC n ds c (by rw [hng, if_neg hn]) hc fun d hd => ⟨by simp [hdn], ?_⟩
    rintro ⟨_, a, _, _, _, _, h, _⟩
    rw [hng, if_neg (hds d hd)] at h
    cases h
  have hsub : ∀ n ds x, cm.ents.get? n = some (ds, x) → ∃ c, p.cm.ents.get? n = some (ds, c) ∧ x.canon = .ok x := by
    intro n ds x hx
    by_cases hn : n ∈ D
    · obtain ⟨k, r, h, hv⟩ := hD.even n hn
      rw [hown n hn k r h] at hx
      cases hx
      exact ⟨_, h, rfl⟩
    · have hnn : Dict.get? new n = none := by rw [hng, if_neg hn]
      cases hc : p.cm.ents.get? n with
      | none => rw [hU.none n hnn hc] at hx; cases hx
      | some v =>
        obtain ⟨es, c⟩ := v
        by_cases hl : ∃ d ∈ es, d ∈ dropNames new ∨ Resized p.cm new d
        · rw [hU.lost n es c hnn hc hl] at hx; cases hx
        · push Not at hl
          obtain ⟨y, h1, h2⟩ := hU.keptC n es c hnn hc hl
          rw [hx] at h2; cases h2
          exact ⟨c, rfl, canon_fixed h1⟩
  have hw : WellFormed cm := (CM.update_wf hcm hm.wf hnkn).1
  have hpsh : p.data.shape = p.cm.dims.map p.cm.ents.lenOf := by rw [← hsh]; unfold CM.shape; rw [if_neg hne]
  have hpad : ∀ d, padOf kw d = (0, if d ∈ D then fast (p.cm.ents.lenOf d) - p.cm.ents.lenOf d else 0) := by
    intro d
    unfold padOf
    rw [hkg]
    split_ifs <;> rfl
  set a := p.data.pad (p.cm.dims.map fun d => (kw.get? d).getD (0, 0)) 0 with ha
  have hash : a.shape = p.cm.dims.map fun d => if d ∈ D then fast (p.cm.ents.lenOf d) else p.cm.ents.lenOf d := by
    rw [ha]
    unfold Nd.pad
    simp only [hpsh]
    rw [List.zipWith_map, List.zipWith_self]
    apply List.map_congr_left
    intro d _
    have : (Dict.get? kw d).getD (0, 0) = padOf kw d := rfl
    rw [this, hpad]
    have := hf (p.cm.ents.lenOf d)
    split_ifs <;> (simp; try omega)
  have hlencm : ∀ d ∈ p.cm.dims, cm.ents.lenOf d = if d ∈ D then fast (p.cm.ents.lenOf d) else p.cm.ents.lenOf d := by
    intro d hd
    split_ifs with h
    · obtain ⟨k, r, h', hv⟩ := hD.even d h
      have e := hown d h k r h'
      rw [show cm.ents.lenOf d = (MCoord.one k (.range (r.upTo (fast (p.cm.ents.lenOf d))))).len by
        unfold Ents.lenOf; simp only [e]; rfl]
      rfl
    · obtain ⟨c, _, hc, _⟩ := CM.WellFormed.get_dim hm.wf hd
      obtain ⟨x, h1, h2⟩ := hkept d h _ _ hc (by simpa using h)
      unfold Ents.lenOf
      rw [h2, hc]
      simp only [MCoord.len]
      rw [(canon_same h1).1]
  have hnewp : PatchM.new cm a = .ok ⟨cm, a⟩ := by
    unfold PatchM.new
    rw [if_pos]
    unfold CM.shape
    rw [hdims, if_neg hne, hash]
    exact List.map_congr_left fun d hd => hlencm d hd
  have hrun : p.pad kw 0 = .ok ⟨cm, a⟩ := by
    unfold PatchM.pad
    rw [if_neg]
    · simp only [bind, Except.bind, hnew, hcm]
      exact hnewp
    · intro hc
      obtain ⟨q, hq, h⟩ := List.any_eq_true.1 hc
      obtain ⟨d, hd, rfl⟩ := List.mem_map.1 hq
      simp [hD.dims d hd] at h
  have hP := pad_spec hm hne hsh (by rw [hkk]; exact hD.nodup) (by
    intro d k c hd hc
    rw [hkk] at hd
    exact hpos d hd k c hc) hrun
  have hshift : ∀ i : List ℕ, i.length = p.cm.dims.length → shifted p.cm.dims kw i = i := by
    intro i hi
    unfold shifted
    have : (fun (d : String) (k : ℕ) => k + (padOf kw d).1) = fun _ k => k := by
      funext d k; rw [hpad]; rfl
    rw [this]
    clear * - hi
    generalize p.cm.dims = l at hi
    induction l generalizing i with
    | nil => simp only [List.length_nil, List.length_eq_zero_iff] at hi; subst hi; rfl
    | cons d l ih =>
      cases i with
      | nil => simp at hi
      | cons k i =>
        simp only [List.length_cons, Nat.add_right_cancel_iff] at hi
        rw [List.zipWith_cons_cons, ih i hi]
  refine ⟨⟨cm, a⟩, ?_, hw, fun n ds x h => ⟨x, (hsub n ds x h).choose_spec.2⟩, hdims, hown, ?_, ?_, hash, ?_, ?_⟩
  · unfold PatchM.padFast
    rw [List.dedup_eq_self.2 hD.nodup]
    simp only [bind, Except.bind, evenSpacings hD.dims fun d hd => by obtain ⟨k, r, h, _⟩ := hD.even d hd; exact ⟨k, r, h⟩]
    exact hrun
  · intro n hn ds c hc hds
    obtain ⟨x, h1, h2⟩ := hkept n hn ds c hc hds
    exact ⟨x, Or.inr h1, h2⟩
  · intro n ds x h
    obtain ⟨c, hc, _⟩ := hsub n ds x h
    exact ⟨c, hc⟩
  · intro i _ hi
    have := (hP.inside i hi).2
    rwa [hshift i (by rw [inRange_length hi, hpsh]; simp)] at this
  · intro i hi hno
    refine hP.outside i hi fun j hj he => hno ?_
    rw [he, hshift j (by rw [inRange_length hj, hpsh]; simp)]
    exact hj

theorem padIf_spec {p : PatchM ℂ} (hm : Regular p.cm) (hr : Readable p.cm) (hne : p.cm.dims ≠ []) (hsh : p.cm.shape = p.data.shape)
    {D : List String} (hD : FtReady p.cm D) {pad : Bool}
    (hpos : pad = true → ∀ d ∈ D, ∀ k r, p.cm.ents.get? d = some ([d], .one k (.range r)) → 0 < r.step)
    {fast : ℕ → ℕ} (hf : ∀ n, n ≤ fast n) :
    ∃ p', p.padIf fast D pad = .ok p' ∧ Extended p p' (fun d => if pad then fast (p.cm.ents.lenOf d) else p.cm.ents.lenOf d) D := by
  cases pad with
  | false => exact ⟨p, rfl, extended_self hm hr hne hsh hD⟩
  | true => exact padFast_spec hm hr hne hsh hD (hpos rfl) hf

/-- The dimensions can still be transformed after padding. -/
theorem Extended.ready {p p' : PatchM ℂ} {N : String → ℕ} {D : List String} (h : Extended p p' N D) (hD : FtReady p.cm D) (hN : ∀ d ∈ D, 1 ≤ N d) :
    FtReady p'.cm D := by
  refine ⟨hD.nodup, ?_, ?_, hD.fwd, ?_, ?_, hD.plain⟩
  · intro d hd; rw [h.dims]; exact hD.dims d hd
  · intro d hd
    obtain ⟨k, r, h', hv⟩ := hD.even d hd
    exact ⟨k, _, h.own d hd k r h', upTo_valid hv (hN d hd)⟩
  · intro d hd
    cases hx : p'.cm.ents.get? ("ft_" ++ d) with
    | none => rfl
    | some v => obtain ⟨c, hc⟩ := h.sub _ _ _ hx; rw [hD.ftFree d hd] at hc; cases hc
  · intro d hd
    cases hx : p'.cm.ents.get? (unpaddedName d) with
    | none => rfl
    | some v => obtain ⟨c, hc⟩ := h.sub _ _ _ hx; rw [hD.unFree d hd] at hc; cases hc

theorem Extended.lenOf {p p' : PatchM ℂ} {N : String → ℕ} {D : List String} (h : Extended p p' N D) (hD : FtReady p.cm D) {d : String} (hd : d ∈ D) :
    p'.cm.ents.lenOf d = N d := by
  obtain ⟨k, r, h', _⟩ := hD.even d hd
  unfold Ents.lenOf
  rw [h.own d hd k r h']
  rfl

theorem Extended.dxOf {p p' : PatchM ℂ} {N : String → ℕ} {D : List String} (h : Extended p p' N D) (hD : FtReady p.cm D) {d : String} (hd : d ∈ D) :
    dxOf p'.cm d = dxOf p.cm d := by
  obtain ⟨k, r, h', _⟩ := hD.even d hd
  unfold Verif.dxOf
  rw [h.own d hd k r h', h']
  rfl

end Verif
