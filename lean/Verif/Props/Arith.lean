import Verif.Proof.ArithMain
import Verif.Proof.ArithArray
import Verif.Props.Equality
import Verif.Props.Aggregate
/-! # Arithmetic between patches (C60) -/
namespace Verif
open Spec

variable {α β γ : Type}

/-- **C60** (what is missing: see `Joinable`, the operator is a function of two samples, and units are not modelled). When two patches are
combined the result has the dimensions of both; it has a sample for every two samples that belong together, computed from these
and carrying their labels, and no other samples; and the other coordinates of the first patch keep their labels where the dimensions they are
attached to are the same ascending ones in both. -/
theorem C60_combine_partial (argsort : List ℚ → List ℕ) (ha : IsArgsort argsort) (f : α → β → γ) (p : PatchM α) (q : PatchM β) (r : PatchM γ)
    (hp : Regular p.cm) (hq : Regular q.cm) (hpl : DimsListed p.cm) (hql : DimsListed q.cm)
    (hpd : p.cm.dims ≠ []) (hqd : q.cm.dims ≠ []) (hps : p.cm.shape = p.data.shape) (hqs : q.cm.shape = q.data.shape)
    (hJ : Joinable p.cm q.cm) (h : PatchM.binary argsort f p q = .ok r) : Combined f p q r :=
  binary_combined ha hp hq hpl hql hpd hqd hps hqs hJ h

theorem nearCoord_self {c : MCoord} (hw : ∀ k x, c = .one k x → x.Wf) : NearCoord c c none none := by
  refine ⟨rfl, rfl, fun _ => rfl, fun hpart i hi => ?_⟩
  have near : ∀ a : ℚ, |a - a| ≤ 1 / 10 ^ 8 + |a| / 10 ^ 5 := by
    intro a
    rw [sub_self, abs_zero]
    positivity
  cases hl : c.arr.get i with
  | some a =>
    unfold NearLabel
    simp only [and_self]
    split_ifs
    exact near a
  | none =>
    cases c with
    | nd a => exact ⟨rfl, rfl⟩
    | one k x =>
      exfalso
      have hx : ∀ n, x ≠ .part n := fun n hn => by subst hn; cases hpart
      match i, hi with
      | [j], .cons hj .nil =>
        have hl' : x.labels.getD j none = none := hl
        rw [labels_vals hx, List.getD_eq_getElem?_getD, List.getElem?_map, List.getElem?_eq_getElem (by
          rw [vals_length (hw k x rfl) hx]; exact hj)] at hl'
        cases hl'

theorem joinCoord_self {ds : List String} {c : MCoord} (hw : ∀ k x, c = .one k x → x.Wf) : joinCoord (ds, c) (ds, c) = .ok (.nested ds c) := by
  unfold joinCoord
  have := (approxEqual_iff c c none none).2 (nearCoord_self hw)
  cases c.isPartial <;> simp [this]

theorem broadcast_self (s : List ℕ) : (s.zip s).mapM (fun p => Nd.broadcastLen p.1 p.2) = .ok s := by
  have : (s.zip s) = s.map fun n => (n, n) := by
    induction s with
    | nil => rfl
    | cons a s ih => rw [List.zip_cons_cons, ih]; rfl
  rw [this]
  induction s with
  | nil => rfl
  | cons a s ih =>
    rw [List.map_cons, List.mapM_cons]
    simp only [Nd.broadcastLen, if_true, bind, Except.bind]
    rw [show (List.mapM (fun p : ℕ × ℕ => if p.1 = p.2 then Except.ok p.1 else if p.1 = 1 then .ok p.2 else if p.2 = 1 then .ok p.1 else .error Err.valueError)
      (s.map fun n => (n, n))) = .ok s from ih (by
        have := this
        rw [List.zip_cons_cons, List.map_cons] at this
        injection this)]
    rfl

theorem clip_same {s i : List ℕ} (hi : InRange s i) : Nd.clip s i = i := by
  induction hi with
  | nil => rfl
  | @cons a b l m h _ ih =>
    unfold Nd.clip at ih ⊢
    rw [List.zipWith_cons_cons, ih]
    split_ifs with h1
    · have : a = 0 := by omega
      rw [this]
    · rfl

/-- **C60.** Patches with the same coordinates can always be combined, sample by sample, and the result has the same coordinates. -/
theorem C60_same (argsort : List ℚ → List ℕ) (f : α → β → γ) (p : PatchM α) (q : PatchM β) (hp : Regular p.cm) (hr : Readable p.cm)
    (hpl : DimsListed p.cm) (hps : p.cm.shape = p.data.shape) (hqc : q.cm = p.cm) (hqs : q.cm.shape = q.data.shape) :
    ∃ r, PatchM.binary argsort f p q = .ok r ∧ r.cm.dims = p.cm.dims ∧ r.data.shape = p.data.shape ∧
      (∀ i, InRange p.data.shape i → r.data.get i = f (p.data.get i) (q.data.get i)) ∧
      (∀ name ds c, p.cm.ents.get? name = some (ds, c) → ∃ c', SameValues c c' ∧ r.cm.ents.get? name = some (ds, c')) ∧
      (∀ name, p.cm.ents.get? name = none → r.cm.ents.get? name = none) := by
  have hw1 : ∀ name ds c, p.cm.ents.get? name = some (ds, c) → ∀ k x, c = .one k x → x.Wf := by
    rintro name ds c h k x rfl
    exact hp.classes _ _ _ _ (Dict.mem_of_get? h)
  set out : Dict CArg := p.cm.ents.map fun e => (e.1, CArg.nested e.2.1 e.2.2) with hout
  have hok : Dict.keys out = Dict.keys p.cm.ents := by simp [Dict.keys, hout, Function.comp_def]
  have hget : ∀ name, Dict.get? out name = (p.cm.ents.get? name).map fun e => CArg.nested e.1 e.2 := by
    intro name
    exact Dict.get?_map_val p.cm.ents (fun _ e => CArg.nested e.1 e.2) name
  have hm : mergeAligned p.cm p.cm = p.cm.update out := by
    unfold mergeAligned
    rw [if_neg (by simp)]
    have hs : sharedEnts p.cm p.cm = p.cm.ents.map fun e => (e.1, e.2, e.2) := by
      unfold sharedEnts
      rw [← List.filterMap_eq_map]
      refine List.filterMap_congr ?_
      rintro ⟨name, e⟩ he
      rw [show Dict.get? p.cm.ents name = some e from Dict.get?_of_mem hp.wf.names he]
      rfl
    have : (sharedEnts p.cm p.cm).mapM (fun x => (joinCoord x.2.1 x.2.2).map fun a => (x.1, a)) = .ok out := by
      rw [hs, List.mapM_map]
      apply mapM_ok'
      rintro ⟨name, ds, c⟩ he
      simp only [Function.comp]
      rw [joinCoord_self (hw1 name ds c (Dict.get?_of_mem hp.wf.names he))]
      rfl
    rw [this]
    rfl
  have hlen : ∀ d, newLen p.cm out d = lenDim p.cm d := by
    intro d
    unfold newLen
    rw [hget]
    cases hd : p.cm.ents.get? d with
    | none => rfl
    | some e =>
      simp only [Option.map_some, argOf]
      unfold lenDim Ents.lenOf
      rw [hd]
  have hfit : Fits p.cm out := by
    intro name a ha
    rw [hget] at ha
    obtain ⟨⟨ds, c⟩, h1, rfl⟩ := Option.map_eq_some_iff.1 ha
    obtain ⟨x, hx⟩ := hr name ds c h1
    refine ⟨ds, c, x, rfl, hx, hp.wf.attached _ _ _ (Dict.mem_of_get? h1), ?_, ?_⟩
    · intro hd
      obtain ⟨k, c2, h2⟩ := hpl name hd
      rw [h1] at h2
      cases h2; rfl
    · by_cases h0 : ds = []
      · exact Or.inl h0
      · right
        rw [List.map_congr_left fun d _ => hlen d]
        exact (CM.WellFormed.shape_eq hp.wf (Dict.mem_of_get? h1) h0).symm
  have hplain : ∀ name ∈ Dict.keys out, matchesPrefixSuffix p.cm.dims name = false := by
    intro name hn
    rw [hok] at hn
    exact hp.plain name hn
  obtain ⟨cm, hcm⟩ := update_total hp.wf (by rw [hok]; exact hp.wf.names) hplain hfit hr
  have hU := update_spec hp.wf (by rw [hok]; exact hp.wf.names) hplain hcm
  have hdr : dropNames out = [] := by
    unfold dropNames
    rw [List.map_eq_nil_iff, List.filter_eq_nil_iff]
    intro e he
    rw [hout] at he
    obtain ⟨e', _, rfl⟩ := List.mem_map.1 he
    simp [CArg.isDrop]
  have hdims : cm.dims = p.cm.dims := by
    rw [hU.dims, hdr]
    have : (out.filter fun x => ((argOf x.1 x.2).map Prod.fst == some [x.1]) && !p.cm.dims.contains x.1) = [] := by
      rw [List.filter_eq_nil_iff]
      intro e he
      rw [hout] at he
      obtain ⟨⟨name, ds, c⟩, h1, rfl⟩ := List.mem_map.1 he
      simp only [argOf, Option.map_some, Bool.and_eq_true, beq_iff_eq, Option.some.injEq, Bool.not_eq_true', List.contains_eq_mem,
        decide_eq_false_iff_not, not_and, not_not]
      rintro rfl
      exact hp.wf.attached _ _ _ h1 name (by simp)
    rw [this]
    simp
  have hgiven : ∀ name ds c, p.cm.ents.get? name = some (ds, c) → ∃ c', SameValues c c' ∧ cm.ents.get? name = some (ds, c') := by
    intro name ds c h
    exact hU.given name (.nested ds c) ds c (by rw [hget, h]; rfl) rfl
  have hshape : cm.shape = p.cm.shape := by
    unfold CM.shape
    rw [hdims]
    congr 1
    refine List.map_congr_left fun d hd => ?_
    obtain ⟨k, c, hc⟩ := hpl d hd
    obtain ⟨c', h1, h2⟩ := hgiven d _ _ hc
    have := SameValues.len h1
    unfold Ents.lenOf
    rw [hc, h2]
    exact this
  refine ⟨⟨cm, ⟨p.data.shape, fun i => f (p.data.get (Nd.clip p.data.shape i)) (q.data.get (Nd.clip q.data.shape i))⟩⟩, ?_, hdims, rfl, ?_, hgiven, ?_⟩
  · unfold PatchM.binary alignPatches
    have heq : p.cm.equals q.cm (fun _ => none) (fun _ => none) = true := by
      rw [hqc, cmEquals_iff]
      refine ⟨fun _ => Iff.rfl, fun _ => Iff.rfl, fun x c d _ hc hd => ?_⟩
      rw [hc] at hd; cases hd
      obtain ⟨ds, c⟩ := c
      exact nearCoord_self (hw1 x ds c hc)
    rw [if_pos heq]
    simp only [bind, Except.bind]
    rw [hqc, hm, hcm]
    simp only [Nd.zipWith, bind, Except.bind]
    rw [show q.data.shape = p.data.shape by rw [← hqs, hqc, hps], broadcast_self]
    simp only [pure, Except.pure]
    unfold PatchM.new
    rw [if_pos (by rw [hshape, hps])]
  · intro i hi
    simp only
    rw [show q.data.shape = p.data.shape by rw [← hqs, hqc, hps], clip_same hi]
  · intro name h
    exact hU.none name (by rw [hget, h]; rfl) h

/-- **C60** for a patch and an array (a scalar is an array without axes): whenever the operation succeeds it combines each sample with the
element numpy's rules give and changes no labels. -/
theorem C60_array (f : α → β → γ) (p : PatchM α) (a : Nd β) (r : PatchM γ) (hp : Regular p.cm) (hpl : DimsListed p.cm)
    (hpd : p.cm.dims ≠ []) (hps : p.cm.shape = p.data.shape) (h : p.withArray f a = .ok r) : WithArray f p a r :=
  withArray_spec hp hpl hpd hps h

theorem broadcastShapes_keep {s a : List ℕ} (hl : a.length ≤ s.length)
    (h : ∀ k < a.length, a.getD k 0 = 1 ∨ a.getD k 0 = s.getD (s.length - a.length + k) 0) : Nd.broadcastShapes s a = .ok s := by
  unfold Nd.broadcastShapes
  rw [show a.length - s.length = 0 by omega, List.replicate_zero, List.nil_append]
  set b := List.replicate (s.length - a.length) 1 ++ a with hb
  have hbl : b.length = s.length := by simp [hb]; omega
  have hbk : ∀ k < s.length, b.getD k 0 = 1 ∨ b.getD k 0 = s.getD k 0 := by
    intro k hk
    by_cases h1 : k < s.length - a.length
    · left
      rw [hb, List.getD_eq_getElem?_getD, List.getElem?_append_left (by simpa using h1)]
      simp [h1]
    · have h2 := h (k - (s.length - a.length)) (by omega)
      rw [show s.length - a.length + (k - (s.length - a.length)) = k by omega] at h2
      rw [hb, List.getD_eq_getElem?_getD, List.getElem?_append_right (by simp; omega)]
      rw [List.getD_eq_getElem?_getD] at h2
      simpa using h2
  clear_value b
  clear hb h hl
  induction s generalizing b with
  | nil => rw [List.zip_nil_left]; rfl
  | cons n s ih =>
    match b, hbl, hbk with
    | m :: b, hbl, hbk =>
      rw [List.zip_cons_cons, List.mapM_cons, ih b (by simpa using hbl) (fun k hk => by
        have := hbk (k + 1) (by simpa using hk)
        simpa using this)]
      have : Nd.broadcastLen n m = .ok n := by
        have := hbk 0 (by simp)
        simp only [List.getD_cons_zero] at this
        unfold Nd.broadcastLen
        split_ifs with h1 h2 h3
        · rfl
        · rcases this with h | h
          · rw [h, h2]
          · exact absurd h.symm h1
        · rfl
        · rcases this with h | h
          · exact absurd h h3
          · exact absurd h.symm h1
      simp only [bind, Except.bind, this]
      rfl

/-- **C60.** A patch can be combined with every array that has no more axes and whose axes, aligned at the end, have the length of
the patch's or length one; in particular with every scalar. -/
theorem C60_array_total (f : α → β → γ) (p : PatchM α) (a : Nd β) (hp : Regular p.cm) (hr : Readable p.cm) (hpl : DimsListed p.cm)
    (hpd : p.cm.dims ≠ []) (hps : p.cm.shape = p.data.shape) (hl : a.shape.length ≤ p.data.shape.length)
    (ha : ∀ k < a.shape.length, a.shape.getD k 0 = 1 ∨ a.shape.getD k 0 = p.data.shape.getD (p.data.shape.length - a.shape.length + k) 0) :
    ∃ r, p.withArray f a = .ok r ∧ r.data.shape = p.data.shape := by
  have hb := broadcastShapes_keep hl ha
  have hsh : p.cm.shape = p.cm.dims.map (lenDim p.cm) := by
    unfold CM.shape
    rw [if_neg hpd]; rfl
  have key : ∃ q, p.fitTo a.shape = .ok q ∧ q.cm.shape = q.data.shape ∧ q.data.shape = p.data.shape := by
    unfold PatchM.fitTo
    split_ifs with h1 h2
    · exact ⟨p, rfl, hps, rfl⟩
    · omega
    · unfold PatchM.broadcastTo
      rw [hps, hb]
      simp only [bind, Except.bind]
      have hg : p.cm.grown false p.data.shape = .ok [] := by
        unfold CM.grown
        have : (p.cm.dims.zip (p.cm.shape.zip p.data.shape)).filter (fun x => decide (x.2.1 < x.2.2)) = [] := by
          rw [List.filter_eq_nil_iff, ← hps, hsh, zip_maps]
          intro x hx
          obtain ⟨d, _, rfl⟩ := List.mem_map.1 hx
          simp
        rw [this]; rfl
      rw [hg]
      simp only
      have hfit : Fits p.cm [] := by intro name x hx; cases hx
      obtain ⟨cm, hcm⟩ := update_total hp.wf (by simp [Dict.keys]) (by simp [Dict.keys]) hfit hr
      rw [hcm]
      have hU := update_spec hp.wf (by simp [Dict.keys]) (by simp [Dict.keys]) hcm
      have hdims : cm.dims = p.cm.dims := by rw [hU.dims]; simp [dropNames]
      have hcs : cm.shape = p.data.shape := by
        rw [← hps]
        unfold CM.shape
        rw [hdims]
        congr 1
        refine List.map_congr_left fun d hd => ?_
        obtain ⟨k, c, hc⟩ := hpl d hd
        obtain ⟨c', h3, h4⟩ := hU.kept d _ _ rfl hc (by
          intro e _
          refine ⟨by simp [dropNames], ?_⟩
          rintro ⟨_, x, _, _, _, _, hx, _⟩
          cases hx)
        have := SameValues.len h3
        unfold Ents.lenOf
        rw [hc, h4]
        exact this
      unfold PatchM.new
      simp only
      rw [if_pos hcs]
      exact ⟨_, rfl, hcs, rfl⟩
  obtain ⟨q, hq, hqc, hqs⟩ := key
  unfold PatchM.withArray
  rw [hq]
  simp only [bind, Except.bind]
  rw [hqs, hb]
  simp only
  unfold PatchM.new
  simp only
  rw [if_pos (by rw [hqc, hqs])]
  exact ⟨_, rfl, rfl⟩

/-- Part of the distances of `exPatch` and others, and two shots without labels. -/
def exShots : PatchM ℕ := ⟨⟨["distance", "shot"],
  [("distance", ["distance"], .one .int (.mono [8, 14, 21])), ("shot", ["shot"], .one .float (.part 2))]⟩, [3, 2],
  fun i => 100 * i.getD 0 0 + 1000 * i.getD 1 0⟩

theorem exShots_regular : Regular exShots.cm := by
  refine ⟨CM.mk?_wf (if_pos (show exShots.cm.dims.all (dimOk exShots.cm.ents) &&
      exShots.cm.ents.all (fun p => entryOk exShots.cm.dims exShots.cm.ents p.2.1 p.2.2) = true by decide +kernel)) (by decide +kernel), ?_, ?_, ?_, ?_⟩
  · unfold DistinctDims; decide +kernel
  · intro name ds c h
    simp only [exShots, List.mem_cons, Prod.mk.injEq, List.not_mem_nil, or_false] at h
    rcases h with ⟨_, rfl, _⟩ | ⟨_, rfl, _⟩ <;> decide
  · intro name ds k c h
    simp only [exShots, List.mem_cons, Prod.mk.injEq, List.not_mem_nil, or_false] at h
    rcases h with ⟨_, _, h⟩ | ⟨_, _, h⟩ <;> cases h
    · exact ⟨Or.inl (by decide +kernel), by simp⟩
    · trivial
  · have : exShots.cm.ents.keys.all (fun n => matchesPrefixSuffix exShots.cm.dims n == false) = true := by decide +kernel
    rw [List.all_eq_true] at this
    intro n hn
    simpa using this n hn

theorem exShots_get {d : String} {k : Kind} {c : Coord} (h : exShots.cm.ents.get? d = some ([d], .one k c)) :
    (d = "distance" ∧ c = .mono [8, 14, 21]) ∨ (d = "shot" ∧ c = .part 2) := by
  have := Dict.mem_of_get? h
  simp only [exShots, List.mem_cons, Prod.mk.injEq, MCoord.one.injEq, List.not_mem_nil, or_false] at this
  rcases this with ⟨rfl, _, _, rfl⟩ | ⟨rfl, _, _, rfl⟩
  · exact Or.inl ⟨rfl, rfl⟩
  · exact Or.inr ⟨rfl, rfl⟩

theorem exCM_get {d : String} {k : Kind} {c : Coord} (hd : d ∈ exCM.dims) (h : exCM.ents.get? d = some ([d], .one k c)) :
    (d = "time" ∧ c = .arr [3, 1]) ∨ (d = "distance" ∧ c = .range exUp) := by
  have := Dict.mem_of_get? h
  simp only [exCM, List.mem_cons, Prod.mk.injEq, MCoord.one.injEq, List.not_mem_nil, or_false] at this hd
  rcases hd with rfl | rfl
  · rcases this with ⟨_, _, _, rfl⟩ | ⟨h, _⟩ | ⟨h, _⟩ | ⟨h, _⟩
    · exact Or.inl ⟨rfl, rfl⟩
    all_goals exact absurd h (by decide)
  · rcases this with ⟨h, _⟩ | ⟨_, _, _, rfl⟩ | ⟨h, _⟩ | ⟨h, _⟩
    · exact absurd h (by decide)
    · exact Or.inr ⟨rfl, rfl⟩
    all_goals exact absurd h (by decide)

theorem exUp_vals : (Coord.range exUp).vals = [5, 8, 11, 14] := by decide +kernel

theorem exShots_joinable : Joinable exPatch.cm exShots.cm := by
  have hboth : ∀ d k c k' c', d ∈ exPatch.cm.dims → d ∈ exShots.cm.dims → exPatch.cm.ents.get? d = some ([d], .one k c) →
      exShots.cm.ents.get? d = some ([d], .one k' c') → c = .range exUp ∧ c' = .mono [8, 14, 21] := by
    intro d k c k' c' h1 h2 h3 h4
    rcases exCM_get h1 h3 with ⟨rfl, rfl⟩ | ⟨rfl, rfl⟩
    · exact absurd h2 (by decide)
    · rcases exShots_get h4 with ⟨_, rfl⟩ | ⟨h, _⟩
      · exact ⟨rfl, rfl⟩
      · exact absurd h (by decide)
  refine ⟨?_, ?_, ?_, ?_, ?_, ?_, ?_⟩
  · intro d k c hd h
    rcases exCM_get hd h with ⟨_, rfl⟩ | ⟨_, rfl⟩
    · exact Or.inr (Or.inl ⟨3, -2, 2, by norm_num, by decide +kernel⟩)
    · exact storable_range exUp_built.valid
  · intro d k c _ h
    rcases exShots_get h with ⟨_, rfl⟩ | ⟨_, rfl⟩
    · refine Or.inr (Or.inr (Or.inr ?_))
      rintro ⟨m, hm⟩
      have h1 := hm 0 8 14 rfl rfl
      have h2 := hm 1 14 21 rfl rfl
      rw [abs_le] at h1 h2
      rcases abs_cases m with ⟨h3, h4⟩ | ⟨h3, h4⟩ <;> rw [h3] at h1 h2 <;> linarith [h1.1, h1.2, h2.1, h2.2]
    · exact Or.inl (Nat.zero_le _)
  · intro d k c k' c' h1 h2 h3 h4
    obtain ⟨rfl, rfl⟩ := hboth d k c k' c' h1 h2 h3 h4
    rw [exUp_vals]
    exact ⟨by decide +kernel, show [(8 : ℚ), 14, 21].Nodup by decide +kernel⟩
  · intro d k c k' c' h1 h2 h3 h4
    obtain ⟨rfl, rfl⟩ := hboth d k c k' c' h1 h2 h3 h4
    rw [exUp_vals]
    intro hl
    cases hl
  · intro d k c k' c' h1 h2 h3 h4 l hl hm
    obtain ⟨rfl, rfl⟩ := hboth d k c k' c' h1 h2 h3 h4
    have : l = [8, 14] := by
      refine hl.eq_of_mem_iff (by decide +kernel) fun v => ?_
      rw [hm, exUp_vals, show (Coord.mono [8, 14, 21]).vals = [8, 14, 21] from rfl]
      simp only [List.mem_cons, List.not_mem_nil, or_false]
      constructor
      · rintro ⟨h1, h⟩
        revert h
        rcases h1 with rfl | rfl | rfl | rfl <;> decide +kernel
      · rintro (rfl | rfl) <;> decide +kernel
    rw [this]
    exact Or.inr (Or.inl ⟨8, 6, 2, by norm_num, by decide +kernel⟩)
  · constructor
    · intro d hd hn
      simp only [exShots, List.mem_cons, List.not_mem_nil, or_false] at hd
      rcases hd with rfl | rfl
      · exact absurd (by decide) hn
      · rfl
    · intro d hd hn
      simp only [exPatch, exCM, List.mem_cons, List.not_mem_nil, or_false] at hd
      rcases hd with rfl | rfl
      · rfl
      · exact absurd (by decide) hn
  · intro name hn
    have h1 : (exPatch.cm.ents.keys ++ exShots.cm.ents.keys).all (fun n => matchesPrefixSuffix (exPatch.cm.dims ++ exShots.cm.dims) n == false) = true := by
      decide +kernel
    rw [List.all_eq_true] at h1
    simpa using h1 name (by simpa using hn)

theorem exShots_listed : DimsListed exShots.cm := by
  intro d hd
  simp only [exShots, List.mem_cons, List.not_mem_nil, or_false] at hd
  rcases hd with rfl | rfl
  · exact ⟨_, _, rfl⟩
  · exact ⟨_, _, rfl⟩

/-- The distances in common, for all times and all shots. The coordinates attached to all distances are gone. -/
example : Regular exPatch.cm ∧ Regular exShots.cm ∧ DimsListed exPatch.cm ∧ DimsListed exShots.cm ∧ exPatch.cm.dims ≠ [] ∧
    exShots.cm.dims ≠ [] ∧ exPatch.cm.shape = exPatch.data.shape ∧ exShots.cm.shape = exShots.data.shape ∧ Joinable exPatch.cm exShots.cm ∧
    (PatchM.binary stableArgsort (· + ·) exPatch exShots).map (fun r => (r.cm.dims, r.data.shape, r.cm.ents.map Prod.fst)) =
      .ok (["time", "distance", "shot"], [2, 2, 2], ["time", "distance", "shot"]) ∧
    (PatchM.binary stableArgsort (· + ·) exPatch exShots).map (fun r => (r.data.get [1, 1, 1], label r "time" [1, 1, 1], label r "distance" [1, 1, 1])) =
      .ok (13 + 1100, some (some 1), some (some 14)) ∧
    (PatchM.binary stableArgsort (· + ·) exPatch exPatch).map (fun r => (r.data.shape, r.data.get [1, 2], label r "depth" [1, 2])) =
      .ok ([2, 4], 24, some (some 3)) :=
  ⟨exCM_regular, exShots_regular, exCM_listed, exShots_listed, by decide, by decide, by decide +kernel, by decide +kernel, exShots_joinable,
    by decide +kernel, by decide +kernel, by decide +kernel⟩

/-- **C60.** Patches that have no dimension in common are not combined. -/
theorem C60_disjoint (argsort : List ℚ → List ℕ) (f : α → β → γ) (p : PatchM α) (q : PatchM β) (hne : p.cm.dims ≠ [])
    (h : ∀ d ∈ p.cm.dims, d ∉ q.cm.dims) : PatchM.binary argsort f p q = .error .patchCoordinateError := by
  have heq : p.cm.equals q.cm (fun _ => none) (fun _ => none) = false := by
    obtain ⟨d, hd⟩ := List.exists_mem_of_ne_nil _ hne
    unfold CM.equals sameSet
    have : (p.cm.dims.all fun x => q.cm.dims.contains x) = false := by
      rw [List.all_eq_false]
      exact ⟨d, hd, by simpa using h d hd⟩
    simp [this]
  have hs : (p.cm.dims.filter fun d => q.cm.dims.contains d) = [] := by
    rw [List.filter_eq_nil_iff]
    intro d hd
    simpa using h d hd
  unfold PatchM.binary alignPatches
  simp only [heq, hs]
  rfl

example : exPatch.cm.dims ≠ [] ∧ ∀ d ∈ exPatch.cm.dims, d ∉ (⟨["channel"], [("channel", ["channel"], .one .int (.mono [4, 9]))]⟩ : CM).dims := by
  decide +kernel

/-- A patch which has lost its times, for example by an aggregation. -/
def exMean : PatchM ℕ := ⟨⟨["time", "distance"], [("time", ["time"], .one .time (.part 1)), ("distance", ["distance"], .one .int (.mono [8, 14, 21]))]⟩, [1, 3],
  fun i => i.getD 1 0⟩

/-- An array with one axis is used for all times, one with two axes gives the patch more times (without labels). -/
example : (exPatch.withArray (· + ·) ⟨[4], fun i => 100 * i.getD 0 0⟩).map (fun r => (r.data.shape, r.data.get [1, 2], label r "lat" [1, 2])) =
      .ok ([2, 4], 212, some (some 12)) ∧
    (exPatch.withArray (· + ·) ⟨[], fun _ => 5⟩).map (fun r => (r.data.shape, r.data.get [1, 2], label r "lat" [1, 2])) = .ok ([2, 4], 17, some (some 12)) ∧
    (exMean.withArray (· + ·) ⟨[2, 1], fun i => 100 * i.getD 0 0⟩).map (fun r => (r.data.shape, r.data.get [1, 2], label r "distance" [1, 2], label r "time" [1, 2])) =
      .ok ([2, 3], 102, some (some 21), some none) ∧
    (exPatch.withArray (· + ·) ⟨[3], fun _ => 5⟩).map (fun r => r.data.shape) = .error .valueError := by
  refine ⟨by decide +kernel, by decide +kernel, by decide +kernel, by decide +kernel⟩

/-- A patch with one dimension and a coordinate attached to it. -/
def lineOf (distance depth : List ℚ) : PatchM ℚ := ⟨⟨["distance"], [("distance", ["distance"], .one .int (.mono distance)),
  ("depth", ["distance"], .one .int (.arr depth))]⟩, [distance.length], fun i => distance.getD (i.getD 0 0) 0⟩

/-- **C60 violated** (order of dimensions): a patch cannot be added to its transpose. -/
theorem C60_transpose_violated :
    (do let t ← exPatch.transpose [.dim "distance", .dim "time"]
        let r ← PatchM.binary stableArgsort (· + ·) exPatch t
        return r.data.shape) = .error .assertionError := by decide +kernel

/-- **C60 violated** (distances are compared with the tolerance of `np.isclose`): the sample at 3000001 is added to that at
3000005, because all labels of one patch are close to those of the other. -/
theorem C60_close_violated :
    (PatchM.binary stableArgsort (fun a b => (a, b)) (lineOf [1, 3000001, 9000001] [1, 9, 4]) (lineOf [1, 3000005, 9000001] [1, 9, 4])).map
      (fun r => (r.data.shape, r.data.get [1], label r "distance" [1])) = .ok ([3], (3000001, 3000005), some (some 3000001)) := by decide +kernel

/-- **C60 violated** (other coordinates): if the labels are the same in another order the data are reordered and the other
coordinates are not: the sample at distance 8 was at depth 1 in both patches and is at depth 4 in the result. -/
theorem C60_reordered_violated :
    label (lineOf [8, 5, 1] [1, 9, 4]) "distance" [0] = some (some 8) ∧ label (lineOf [8, 5, 1] [1, 9, 4]) "depth" [0] = some (some 1) ∧
    (do let q ← (lineOf [1, 5, 8] [4, 9, 1]).dropCoords ["depth"]
        let r ← PatchM.binary stableArgsort (· + ·) (lineOf [8, 5, 1] [1, 9, 4]) q
        return (r.data.get [2], label r "distance" [2], label r "depth" [2])) = .ok (16, some (some 8), some (some 4)) ∧
    (PatchM.binary stableArgsort (· + ·) (lineOf [8, 5, 1] [1, 9, 4]) (lineOf [1, 5, 8] [4, 9, 1])).map (fun r => r.data.shape) = .error .assertionError := by
  refine ⟨by decide +kernel, by decide +kernel, by decide +kernel, by decide +kernel⟩

/-- **C60 violated** (not symmetric): a coordinate that only the second patch has is lost, one that only the first has is kept. -/
theorem C60_second_violated :
    (do let q ← (lineOf [1, 5, 8] [4, 9, 1]).dropCoords ["depth"]
        let r ← PatchM.binary stableArgsort (· + ·) q (lineOf [1, 5, 8] [4, 9, 1])
        let s ← PatchM.binary stableArgsort (· + ·) (lineOf [1, 5, 8] [4, 9, 1]) q
        return (r.cm.ents.map Prod.fst, s.cm.ents.map Prod.fst)) = .ok (["distance"], ["distance", "depth"]) := by decide +kernel

/-- **C60 violated** (without `Joinable.fresh`): a coordinate of the first patch that is a dimension of the second is replaced by this
dimension: the depths of the samples are gone, every sample is combined with every depth. -/
theorem C60_replaced_violated :
    (PatchM.binary stableArgsort (fun a _ => a) (lineOf [1, 5, 8] [4, 9, 1]) ⟨⟨["distance", "depth"], [("distance", ["distance"], .one .int (.mono [1, 5, 8])),
        ("depth", ["depth"], .one .int (.mono [1, 7, 9]))]⟩, [3, 3], fun _ => (0 : ℚ)⟩).map
      (fun r => (r.cm.dims, r.data.shape, r.data.get [0, 1], label r "depth" [0, 1])) = .ok (["distance", "depth"], [3, 3], 1, some (some 7)) := by
  decide +kernel

end Verif
