import Verif.Proof.Stack
import Verif.Proof.SelectTotal
/-! # C96: stacking adds the patches that agree with the first -/
namespace Verif
open Spec
variable {α β : Type}

theorem stack_parts [AddCommMonoid α] {raises : Bool} {vary : Option String} {first : HPatch α β} {rest : List (HPatch α β)} {q : HPatch α β}
    (h : stackPatches raises vary (first :: rest) = .ok q) : mayVary vary first.cm = true ∧ ∃ data cm,
      (first :: rest).foldlM (stackStep raises vary first.cm) (Nd.zeros first.data.shape) = .ok data ∧ stackCM vary first.cm = .ok cm ∧
      q = { toPatchM := ⟨cm, data⟩, attrs := first.attrs, history := first.history ++ ["stack"] } := by
  simp only [stackPatches] at h
  cases hv : mayVary vary first.cm with
  | false => simp [hv] at h
  | true =>
    simp only [hv, Bool.not_true, Bool.false_eq_true, if_false, bind, Except.bind] at h
    split at h
    · cases h
    rename_i data hdata
    split at h
    · cases h
    rename_i cm hcm
    split at h
    · cases h
    rename_i q' hq
    cases h
    obtain ⟨rfl, _⟩ := new_ok hq
    exact ⟨rfl, data, cm, hdata, hcm, rfl⟩

theorem stack_sum [AddCommMonoid α] {raises : Bool} {vary : Option String} {first : HPatch α β} {rest : List (HPatch α β)} {q : HPatch α β}
    (hs : ∀ p ∈ first :: rest, Sound p) (hd : raises = false → ∀ p ∈ first :: rest, Agrees vary first p → p.cm.dims = first.cm.dims)
    (h : stackPatches raises vary (first :: rest) = .ok q) :
    SumOf vary first (first :: rest) q ∧ (raises = true → ∀ p ∈ first :: rest, p.cm.dims = first.cm.dims ∧ Agrees vary first p) := by
  obtain ⟨hv, data, cm, h1, h2, rfl⟩ := stack_parts h
  have hf := hs first (by simp)
  obtain ⟨g1, g2, g3⟩ := stack_loop (acc := Nd.zeros first.data.shape) hf hs hd rfl h1
  obtain ⟨k1, k2, k3, _⟩ := stackCM_spec hf.reg h2 hv
  refine ⟨⟨k1, g1, fun i hi => ?_, fun name ds c hc hne hst i => ?_, k3, rfl, rfl⟩, g3⟩
  · show data.get i = _
    rw [g2 i hi]
    show (0 : α) + _ = _
    rw [zero_add]
  · obtain ⟨c', e1, e2⟩ := k2 name ds c hc hne
    unfold label
    rw [hc]
    simp only [e2]
    cases ds with
    | nil => rfl
    | cons d0 ds => simp only [e1.2 hst, k1]

/-- **C96** with `check_behavior="raise"`: if the patches are added at all, they all have the dimensions of the first and agree with it, every sample of the result
is the sum of the samples of all patches, and the result has the labels, attributes and history of the first. -/
theorem C96_sum_raise [AddCommMonoid α] {vary : Option String} {first : HPatch α β} {rest : List (HPatch α β)} {q : HPatch α β}
    (hs : ∀ p ∈ first :: rest, Sound p) (h : stackPatches true vary (first :: rest) = .ok q) :
    SumOf vary first (first :: rest) q ∧ (∀ p ∈ first :: rest, p.cm.dims = first.cm.dims ∧ Agrees vary first p) ∧
    ∀ i, InRange first.data.shape i → q.data.get i = ((first :: rest).map fun p => p.data.get i).sum := by
  obtain ⟨h1, h2⟩ := stack_sum hs (fun e => by cases e) h
  refine ⟨h1, h2 rfl, fun i hi => ?_⟩
  rw [h1.data i hi, List.filter_eq_self.2]
  intro p hp
  simpa using (h2 rfl p hp).2

/-- **C96** otherwise: the patches that agree with the first are added, the others left out, provided that those which agree have the dimensions of the first. Missing:
patches whose coordinates agree but whose dimensions do not are added too (`C96_dims_violated`). -/
theorem C96_sum_partial [AddCommMonoid α] {vary : Option String} {first : HPatch α β} {rest : List (HPatch α β)} {q : HPatch α β}
    (hs : ∀ p ∈ first :: rest, Sound p) (hd : ∀ p ∈ first :: rest, Agrees vary first p → p.cm.dims = first.cm.dims)
    (h : stackPatches false vary (first :: rest) = .ok q) : SumOf vary first (first :: rest) q :=
  (stack_sum hs (fun _ => hd) h).1

/-- **C96** the dimension which may vary starts at zero: every label is that of the first patch less the lowest one. Missing: evenly sampled coordinates which
descend (`C96_descending_violated`). -/
theorem C96_zero_partial [AddCommMonoid α] {raises : Bool} {d : String} {first : HPatch α β} {rest : List (HPatch α β)} {q : HPatch α β}
    (hs : Sound first) (hst : ∀ lo, Storable ((valuesOf d first).map fun v => v - lo))
    (hup : ∀ ds k r, first.cm.ents.get? d = some (ds, .one k (.range r)) → 0 < r.step) (hlab : ∀ ds k n, first.cm.ents.get? d ≠ some (ds, .one k (.part n)))
    (h : stackPatches raises (some d) (first :: rest) = .ok q) : StartsZero d first q := by
  obtain ⟨hv, data, cm, h1, h2, rfl⟩ := stack_parts h
  obtain ⟨k1, _, _, k4⟩ := stackCM_spec hs.reg h2 hv
  obtain ⟨c, c', e1, e2, x, e3, e4⟩ := k4 d rfl
  obtain ⟨k, y, z, rfl, rfl, f1, f2, _, f4⟩ := fromZero_spec (fun k x e => hs.reg.classes d _ k x (e ▸ Dict.mem_of_get? e1)) e2
  rw [f1] at e3; cases e3
  have hnp : ¬ ∃ n, y = .part n := fun ⟨n, hn⟩ => hlab _ k n (hn ▸ e1)
  obtain ⟨lo, g1, g2⟩ := f4 hnp
  have hvals : valuesOf d first = y.vals := by unfold valuesOf; rw [e1]
  rw [hvals] at hst
  refine ⟨lo, ?_, fun i hi w hw => ?_⟩
  · rw [hvals]
    exact g1 fun r hr => hup _ k r (hr ▸ e1)
  · rw [label_dim e1] at hw
    show label (⟨cm, data⟩ : PatchM α) d i = _
    rw [label_dim e4, g2 (hst lo)]
    have hpos : posAlong (⟨cm, data⟩ : PatchM α) d i = posAlong first.toPatchM d i := by unfold posAlong; rw [k1]
    rw [hpos]
    have hl : y.labels = y.vals.map some := labels_vals fun n hn => hnp ⟨n, hn⟩
    rw [hl] at hw
    simp only [Option.some.injEq, List.getD_eq_getElem?_getD, List.getElem?_map] at hw ⊢
    cases hy : y.vals[posAlong first.toPatchM d i]? with
    | none => rw [hy] at hw; simp at hw
    | some v => rw [hy] at hw; simp at hw; subst hw; simp

/-- **C96** when it succeeds: the patches which agree have the dimensions of the first (with `"raise"` all agree), and the dimension which may vary is one of the first
patch and evenly sampled. -/
theorem C96_succeeds [AddCommMonoid α] {raises : Bool} {vary : Option String} {first : HPatch α β} {rest : List (HPatch α β)}
    (hs : ∀ p ∈ first :: rest, Sound p) (hread : Readable first.cm) (hd : ∀ p ∈ first :: rest, Agrees vary first p → p.cm.dims = first.cm.dims)
    (hr : raises = true → ∀ p ∈ first :: rest, Agrees vary first p)
    (hv : ∀ d, vary = some d → d ∈ first.cm.dims ∧ ∃ k r, first.cm.ents.get? d = some ([d], .one k (.range r))) :
    ∃ q, stackPatches raises vary (first :: rest) = .ok q := by
  have hf := hs first (by simp)
  obtain ⟨data, h1⟩ := stack_total (raises := raises) (vary := vary) hf (acc := Nd.zeros first.data.shape) hs hd hr rfl
  have hsh := (stack_loop (acc := Nd.zeros first.data.shape) hf hs (fun _ => hd) rfl h1).1
  have hmv : mayVary vary first.cm = true := by
    cases hvv : vary with
    | none => rfl
    | some d => simpa [mayVary] using (hv d hvv).1
  have hcm : ∃ cm, stackCM vary first.cm = .ok cm ∧ cm.shape = first.cm.shape := by
    cases hvv : vary with
    | none => exact ⟨_, rfl, rfl⟩
    | some d =>
      obtain ⟨hd1, k, r, hg⟩ := hv d hvv
      have hval : r.Valid := hf.reg.classes d _ k _ (Dict.mem_of_get? hg)
      have hv2 : (⟨0, r.stop + (0 - r.start), r.step, r.len⟩ : RangeCoord).Valid := ⟨hval.step_ne, hval.len_pos, by simp only; rw [hval.stop_eq]; ring⟩
      have hz : (MCoord.one k (.range r)).fromZero = .ok (.one k (.range ⟨0, r.stop + (0 - r.start), r.step, r.len⟩)) := by
        simp only [MCoord.fromZero, RangeCoord.updateLimits, bind, Except.bind]
        have h : r.new 0 (r.stop + (0 - r.start)) r.step = _ := new_canonical hval.step_ne hval.len_pos hv2.stop_eq
        rw [h]; rfl
      have hco : coordOf first.cm d = .ok (.one k (.range r)) := by unfold coordOf; rw [hg]
      obtain ⟨hg', hlen⟩ := coord_at hf.reg hd1 hco
      have hplain : ∀ n ∈ Dict.keys [(d, CArg.simple (.one k (.range ⟨0, r.stop + (0 - r.start), r.step, r.len⟩)))], matchesPrefixSuffix first.cm.dims n = false := by
        intro n hn
        simp [Dict.keys] at hn; subst hn
        exact hf.reg.plain n (Dict.mem_keys.2 ⟨_, hg⟩)
      obtain ⟨cm, hcm⟩ := update_total hf.reg.wf (kw := [(d, CArg.simple (.one k (.range ⟨0, r.stop + (0 - r.start), r.step, r.len⟩)))]) (by simp [Dict.keys]) hplain (by
        intro name a ha
        by_cases hn : name = d
        · subst hn
          simp only [Dict.get?, List.find?_cons, beq_self_eq_true, Option.map_some, Option.some.injEq] at ha
          subst ha
          refine ⟨[name], _, _, rfl, rfl, by simpa using hd1, fun _ => rfl, Or.inr ?_⟩
          simp only [List.map_cons, List.map_nil, newLen, Dict.get?, List.find?_cons, beq_self_eq_true, Option.map_some, argOf]
          rfl
        · simp [Dict.get?, Ne.symm hn] at ha) hread
      have hs2 : stackCM (some d) first.cm = .ok cm := by
        simp only [stackCM, bind, Except.bind, hco, hz, hcm]
      refine ⟨cm, hs2, ?_⟩
      obtain ⟨k1, k2, _, k4⟩ := stackCM_spec hf.reg hs2 (by simpa [mayVary] using hd1)
      unfold CM.shape
      rw [k1, if_neg hf.dims, if_neg hf.dims]
      refine List.map_congr_left fun e he => ?_
      by_cases hed : e = d
      · subst hed
        obtain ⟨c, c', e1, e2, x, e3, e4⟩ := k4 e rfl
        rw [hg] at e1; cases e1
        rw [hz] at e2; cases e2
        cases e3
        unfold Ents.lenOf
        rw [e4, hg]
        rfl
      · obtain ⟨c, n, a1, _⟩ := CM.WellFormed.get_dim hf.reg.wf he
        obtain ⟨c', b1, b2⟩ := k2 e _ _ a1 (fun h => hed (by cases h; rfl))
        unfold Ents.lenOf
        rw [b2, a1]
        exact SameValues.len b1
  obtain ⟨cm, h2, h3⟩ := hcm
  refine ⟨{ toPatchM := ⟨cm, data⟩, attrs := first.attrs, history := first.history ++ ["stack"] }, ?_⟩
  have hnew : PatchM.new cm data = .ok ⟨cm, data⟩ := if_pos (by rw [h3, hf.shape, hsh])
  simp only [stackPatches, hmv, Bool.not_true, Bool.false_eq_true, if_false, bind, Except.bind, h1, h2, hnew, pure, Except.pure]

/-! ## Examples -/

/-- Two times from `t` and two distances. -/
def exAddCM (t : ℚ) : CM :=
  ⟨["time", "distance"], [("time", ["time"], .one .time (.range ⟨t, t + 2, 1, 2⟩)), ("distance", ["distance"], .one .int (.range ⟨0, 2, 1, 2⟩))]⟩

/-- Four samples: times from `t`, distances 0 and 1, plus `b` everywhere. -/
def exAdd (t : ℚ) (b : ℕ) : HPatch ℕ Unit :=
  { cm := exAddCM t, data := ⟨[2, 2], fun i => 10 * i.getD 0 0 + i.getD 1 0 + b⟩, attrs := (), history := [] }

/-- The same samples with the dimensions swapped. -/
def exAddT (t : ℚ) (b : ℕ) : HPatch ℕ Unit :=
  { cm := ⟨["distance", "time"], [("time", ["time"], .one .time (.range ⟨t, t + 2, 1, 2⟩)), ("distance", ["distance"], .one .int (.range ⟨0, 2, 1, 2⟩))]⟩,
    data := ⟨[2, 2], fun i => 10 * i.getD 1 0 + i.getD 0 0 + b⟩, attrs := (), history := [] }

theorem exAdd_sound {t : ℚ} (h : t = 5 ∨ t = 7) (b : ℕ) : Sound (exAdd t b) := by
  have hok : (exAddCM t).dims.all (dimOk (exAddCM t).ents) &&
      (exAddCM t).ents.all (fun p => entryOk (exAddCM t).dims (exAddCM t).ents p.2.1 p.2.2) = true := by
    rcases h with rfl | rfl <;> decide +kernel
  refine ⟨⟨CM.mk?_wf (if_pos hok) ?_, ?_, ?_, ?_, ?_⟩, by simp [exAdd, exAddCM], ?_⟩
  · show (["time", "distance"] : List String).Nodup; decide
  · show (["time", "distance"] : List String).Nodup; decide
  · intro name ds c h
    simp only [exAdd, exAddCM, List.mem_cons, Prod.mk.injEq, List.not_mem_nil, or_false] at h
    rcases h with ⟨_, rfl, _⟩ | ⟨_, rfl, _⟩ <;> decide
  · intro name ds k c hm
    simp only [exAdd, exAddCM, List.mem_cons, Prod.mk.injEq, List.not_mem_nil, or_false] at hm
    rcases hm with ⟨_, _, hm⟩ | ⟨_, _, hm⟩ <;> cases hm
    · exact ⟨by norm_num, by norm_num, by norm_num⟩
    · exact ⟨by norm_num, by norm_num, by norm_num⟩
  · have : (exAddCM t).ents.keys.all (fun n => matchesPrefixSuffix (exAddCM t).dims n == false) = true := by
        rcases h with rfl | rfl <;> decide +kernel
    rw [List.all_eq_true] at this
    intro n hn
    have h2 : matchesPrefixSuffix (exAddCM t).dims n = false := by simpa using this n hn
    exact h2
  · show (exAddCM t).shape = [2, 2]
    rcases h with rfl | rfl <;> decide +kernel

/-- The hypotheses of `C96_sum_raise`, `C96_zero_partial` and `C96_succeeds` are met: two patches with other times are added. -/
example : ∃ q, stackPatches true (some "time") [exAdd 5 0, exAdd 7 100] = .ok q ∧ SumOf (some "time") (exAdd 5 0) [exAdd 5 0, exAdd 7 100] q ∧
    q.data.get [1, 1] = 122 ∧ StartsZero "time" (exAdd 5 0) q := by
  have hs : ∀ p ∈ [exAdd 5 0, exAdd 7 100], Sound p := by
    intro p hp
    simp only [List.mem_cons, List.not_mem_nil, or_false] at hp
    rcases hp with rfl | rfl
    · exact exAdd_sound (Or.inl rfl) _
    · exact exAdd_sound (Or.inr rfl) _
  have hA : ∀ p ∈ [exAdd 5 0, exAdd 7 100], Agrees (some "time") (exAdd 5 0) p := by
    intro p hp
    rw [← checkVary_iff (hs _ (by simp)).reg.wf]
    simp only [List.mem_cons, List.not_mem_nil, or_false] at hp
    rcases hp with rfl | rfl <;> decide +kernel
  have hd : ∀ p ∈ [exAdd 5 0, exAdd 7 100], Agrees (some "time") (exAdd 5 0) p → p.cm.dims = (exAdd 5 0).cm.dims := by
    intro p hp _
    simp only [List.mem_cons, List.not_mem_nil, or_false] at hp
    rcases hp with rfl | rfl <;> rfl
  obtain ⟨q, hq⟩ := C96_succeeds (raises := true) (vary := some "time") hs (readable_all (by decide +kernel)) hd (fun _ => hA) (by
    intro d hd
    cases hd
    exact ⟨by decide, .time, _, rfl⟩)
  refine ⟨q, hq, (C96_sum_raise hs hq).1, ?_, C96_zero_partial (exAdd_sound (Or.inl rfl) 0) ?_ ?_ ?_ hq⟩
  · rw [(C96_sum_raise hs hq).2.2 [1, 1] (.cons (by decide) (.cons (by decide) .nil))]; rfl
  · intro lo
    have : valuesOf "time" (exAdd 5 0) = [5, 6] := by decide +kernel
    rw [this]
    exact Or.inr (Or.inl ⟨5 - lo, 1, 2, by norm_num, by simp [progression, List.range_succ]; ring⟩)
  · intro ds k r hr
    cases hr
    norm_num
  · intro ds k n hr
    cases hr

/-- Patches which do not agree are left out, or raise. -/
example : (stackPatches false none [exAdd 5 0, exAdd 7 100, exAdd 5 3]).map (fun q => q.data.get [1, 1]) = .ok 25 ∧
    (stackPatches true none [exAdd 5 0, exAdd 7 100, exAdd 5 3]).map (fun q => q.data.get [1, 1]) = .error .incompatiblePatch ∧
    (stackPatches false (some "money") [exAdd 5 0]).map (fun q => q.data.get [1, 1]) = .error .patchCoordinateError := by
  refine ⟨?_, ?_, ?_⟩ <;> decide +kernel

/-- **C96 violated** (dimensions): a patch whose dimensions are in another order is not left out. Its sample at time 0 and distance 1 (1) is added to that of the
first at time 1 and distance 0 (10). -/
theorem C96_dims_violated : (stackPatches false none [exAdd 5 0, exAddT 5 0]).map (fun q => (q.cm.dims, q.data.get [1, 0], label q.toPatchM "time" [1, 0],
      label q.toPatchM "distance" [1, 0])) = .ok (["time", "distance"], 11, some (some 6), some (some 0)) ∧
    label (exAddT 5 0).toPatchM "time" [0, 1] = some (some 6) ∧ label (exAddT 5 0).toPatchM "distance" [0, 1] = some (some 0) ∧
    (exAdd 5 0).data.get [1, 0] + (exAddT 5 0).data.get [0, 1] = 20 := by
  refine ⟨?_, ?_, ?_, ?_⟩ <;> decide +kernel

/-- A patch with a single dimension. -/
def exOne (k : Kind) (c : Coord) (f : ℕ → ℕ) : HPatch ℕ Unit :=
  { cm := ⟨["time"], [("time", ["time"], .one k c)]⟩, data := ⟨[c.length], fun i => f (i.getD 0 0)⟩, attrs := (), history := [] }

/-- A patch with another dimension. -/
def exShotOnly : HPatch ℕ Unit :=
  { cm := ⟨["shot"], [("shot", ["shot"], .one .int (.range ⟨0, 3, 1, 3⟩))]⟩, data := ⟨[3], fun _ => 1⟩, attrs := (), history := [] }

/-- **C96 violated** (broadcasting): a patch without one of the dimensions is not left out either: it is added to every line. With another number of samples it
is an error instead. -/
theorem C96_broadcast_violated : (stackPatches false (some "distance") [exAdd 5 0, exOne .time (.range ⟨5, 7, 1, 2⟩) fun i => 100 * i]).map
      (fun q => (q.data.get [0, 1], q.data.get [1, 0])) = .ok (101, 10) ∧
    (stackPatches false (some "time") [exAdd 5 0, exOne .int (.part 2) fun i => 100 * i, exAdd 7 0]).map (fun q => q.data.get [0, 1]) = .ok 102 ∧
    (stackPatches false none [exAdd 5 0, exShotOnly]).map (fun q => q.data.get [0, 1]) = .error .valueError := by
  refine ⟨?_, ?_, ?_⟩ <;> decide +kernel

/-- **C96 violated** (descending): labels 6, 5, 4 become 0, -1, -2. -/
theorem C96_descending_violated : (stackPatches false (some "time") [exOne .int (.range ⟨6, 3, -1, 3⟩) id]).map (fun q =>
    (label q.toPatchM "time" [0], label q.toPatchM "time" [2])) = .ok (some (some 0), some (some (-2))) := by decide +kernel

/-- **C96 violated** (irregular times): labels of irregular times cannot be moved to zero, irregular numbers can. -/
theorem C96_times_violated : (stackPatches false (some "time") [exOne .time (.mono [4, 5, 9]) id]).map (fun q => label q.toPatchM "time" [1]) = .error .typeError ∧
    (stackPatches false (some "time") [exOne .int (.mono [4, 5, 9]) id]).map (fun q => label q.toPatchM "time" [1]) = .ok (some (some 1)) := by
  constructor <;> decide +kernel

end Verif
