import Verif.Spec.Equality
import Verif.Proof.Dict
import Verif.Proof.PatchOps
import Verif.Props.Patch
import Mathlib.Data.Finset.Prod
import Mathlib.Data.Finset.Card
/-! # C49: equality of patches and of spools -/
namespace Verif
open Spec

theorem sameSet_iff {a b : List String} : sameSet a b = true ↔ ∀ x, x ∈ a ↔ x ∈ b := by
  simp only [sameSet, Bool.and_eq_true, List.all_eq_true, List.contains_iff_mem]
  exact ⟨fun h x => ⟨h.1 x, h.2 x⟩, fun h => ⟨fun x => (h x).1, fun x => (h x).2⟩⟩

theorem joinDims_inj {a b : List String} (ha : ∀ d ∈ a, ',' ∉ d.toList) (hb : ∀ d ∈ b, ',' ∉ d.toList) (hne : a = [] ↔ b = [])
    (h : joinDims a = joinDims b) : a = b := by
  by_cases h0 : a = []
  · rw [h0, hne.1 h0]
  have h1 : b ≠ [] := fun h => h0 (hne.2 h)
  have h2 : [','].intercalate (a.map String.toList) = [','].intercalate (b.map String.toList) := String.ofList_injective h
  have e1 := List.splitOn_intercalate (ls := a.map String.toList) ',' (by
    intro l hl
    obtain ⟨d, hd, rfl⟩ := List.mem_map.1 hl
    exact ha d hd) (by simpa using h0)
  have e2 := List.splitOn_intercalate (ls := b.map String.toList) ',' (by
    intro l hl
    obtain ⟨d, hd, rfl⟩ := List.mem_map.1 hl
    exact hb d hd) (by simpa using h1)
  rw [h2, e2] at e1
  exact (List.map_injective_iff.2 (fun _ _ h => String.toList_injective h) e1).symm

theorem absQ_abs (q : ℚ) : absQ q = |q| := by
  unfold absQ
  split_ifs with h
  · rw [abs_of_neg h]
  · rw [abs_of_nonneg (not_lt.1 h)]

theorem isClose_near (a b : ℚ) : isClose a b = true ↔ |a - b| ≤ 1 / 10 ^ 8 + |b| / 10 ^ 5 := by
  unfold isClose
  rw [decide_eq_true_iff, absQ_abs, absQ_abs]
  rw [show (1 / 100000000 : ℚ) + 1 / 100000 * |b| = 1 / 10 ^ 8 + |b| / 10 ^ 5 by ring]

theorem closeOrNull_iff (t1 t2 : Bool) (a b : Option ℚ) : closeOrNull t1 t2 a b = true ↔ NearLabel t1 t2 a b := by
  cases a with
  | none => cases b <;> cases t1 <;> cases t2 <;> simp [closeOrNull, NearLabel]
  | some a =>
    cases b with
    | none => cases t1 <;> cases t2 <;> simp [closeOrNull, NearLabel]
    | some b =>
      cases t1 <;> cases t2
      · show isClose a b = true ↔ _
        rw [isClose_near]
        simp [NearLabel]
      all_goals simp [closeOrNull, NearLabel]

theorem isTime_eq (c : MCoord) : c.isTime = holdsTimes c := by
  cases c with
  | nd a => rfl
  | one k c => cases k <;> rfl

theorem approxEqual_iff (c d : MCoord) (u v : Option String) : c.approxEqual d u v = true ↔ NearCoord c d u v := by
  unfold MCoord.approxEqual NearCoord
  rw [isTime_eq, isTime_eq]
  by_cases hs : c.shape = d.shape
  · rw [if_neg (not_not.2 hs)]
    cases hc : c.isPartial <;> cases hd : d.isPartial
    · simp only [Bool.and_false, Bool.false_eq_true, if_false, Bool.or_false, hs, true_and, false_implies, forall_const]
      unfold allClose
      rw [Bool.and_eq_true, decide_eq_true_iff, List.all_eq_true]
      constructor
      · intro h i hi
        exact (closeOrNull_iff _ _ _ _).1 (h.2 i (mem_indices.2 (by rw [show c.arr.shape = d.shape from hs]; exact hi)))
      · intro h
        refine ⟨hs, fun i hi => (closeOrNull_iff _ _ _ _).2 (h i ?_)⟩
        rw [← hs]; exact mem_indices.1 hi
    · simp
    · simp
    · simp [hs]
  · rw [if_pos hs]
    simp [hs]

theorem mem_compared (m : CM) (x : String) : x ∈ m.compared ↔ Public m x := by
  unfold CM.compared Public
  rw [List.mem_filter, Dict.mem_keys]
  simp

theorem coordEqual_iff (m n : CM) (u v : String → Option String) (x : String) :
    coordEqual m n u v x = true ↔ ∃ c d, m.ents.get? x = some c ∧ n.ents.get? x = some d ∧ NearCoord c.2 d.2 (u x) (v x) := by
  unfold coordEqual
  cases h1 : m.ents.get? x with
  | none => simp
  | some c =>
    cases h2 : n.ents.get? x with
    | none => simp
    | some d => simp [approxEqual_iff]

theorem cmEquals_iff (m n : CM) (u v : String → Option String) : m.equals n u v = true ↔
    (∀ d, d ∈ m.dims ↔ d ∈ n.dims) ∧ (∀ x, Public m x ↔ Public n x) ∧
    ∀ x c d, Public m x → m.ents.get? x = some c → n.ents.get? x = some d → NearCoord c.2 d.2 (u x) (v x) := by
  unfold CM.equals
  rw [Bool.and_eq_true, Bool.and_eq_true, sameSet_iff, sameSet_iff, List.all_eq_true, and_assoc]
  refine and_congr Iff.rfl ?_
  simp only [mem_compared, coordEqual_iff]
  constructor
  · rintro ⟨h1, h2⟩
    refine ⟨h1, fun x c d hx hc hd => ?_⟩
    obtain ⟨c', d', hc', hd', h⟩ := h2 x hx
    rw [hc] at hc'; rw [hd] at hd'
    cases hc'; cases hd'
    exact h
  · rintro ⟨h1, h2⟩
    refine ⟨h1, fun x hx => ?_⟩
    obtain ⟨c, hc⟩ := hx.1
    obtain ⟨d, hd⟩ := ((h1 x).1 hx).1
    exact ⟨c, d, hc, hd, h2 x c d hx hc hd⟩

theorem sameAttr_iff (x y : AVal) : (x.pyEq y || (x.isNull && y.isNull)) = true ↔ SameAttr x y := by
  cases x <;> cases y <;> simp [AVal.pyEq, AVal.isNull, SameAttr]

theorem attrsEqual_iff (a b : Dict AVal) : attrsEqual a b = true ↔
    (∀ k, (∃ v, a.get? k = some v) ↔ ∃ v, b.get? k = some v) ∧ ∀ k v w, a.get? k = some v → b.get? k = some w → SameAttr v w := by
  unfold attrsEqual
  rw [Bool.and_eq_true, sameSet_iff, List.all_eq_true]
  simp only [Dict.mem_keys]
  constructor
  · rintro ⟨h0, h⟩
    refine ⟨h0, fun k v w hv hw => ?_⟩
    have := h k ⟨v, hv⟩
    rw [hv, hw] at this
    exact (sameAttr_iff v w).1 this
  · rintro ⟨h0, h⟩
    refine ⟨h0, ?_⟩
    rintro k ⟨v, hv⟩
    obtain ⟨w, hw⟩ := (h0 k).1 ⟨v, hv⟩
    rw [hv, hw]
    exact (sameAttr_iff v w).2 (h k v w hv hw)

theorem get?_attrsToCompare (p : EPatch) (required : Bool) (k : String) :
    (p.attrsToCompare required).get? k =
      if k = "dims" then some (.val (joinDims p.cm.dims)) else if required = true → k ∈ requiredAttrs then p.attrs.get? k else none := by
  unfold EPatch.attrsToCompare
  rw [Dict.get?_filter _ (fun n => !required || requiredAttrs.contains n), Dict.get?_cons]
  by_cases hk : k = "dims"
  · subst hk
    rw [if_pos rfl, if_pos rfl, if_pos]
    cases required <;> decide
  · have hk' : ¬ "dims" = k := fun h => hk h.symm
    rw [if_neg hk]
    simp only [if_neg hk']
    cases required <;> simp

theorem sampleEqual_iff (close : Bool) (x y : Option ℚ) : sampleEqual close x y = true ↔ ∃ a b, x = some a ∧ y = some b ∧
    (if close then |a - b| ≤ 1 / 10 ^ 8 + |b| / 10 ^ 5 else a = b) := by
  cases x with
  | none => simp [sampleEqual]
  | some a =>
    cases y with
    | none => simp [sampleEqual]
    | some b =>
      cases close
      · simp [sampleEqual]
      · show isClose a b = true ↔ _
        rw [isClose_near]
        simp

/-- **C49.** For patches as the library builds them `equals` always answers, and says yes exactly if the two agree: the same
dimensions in the same order, the same public coordinates with labels that count as equal, the same compared attributes,
and equal (or close) data. -/
theorem C49_equals_iff (p q : EPatch) (hp : Whole p) (hq : Whole q) (required close : Bool) :
    ∃ b, p.equals q required close = .ok b ∧ (b = true ↔ Agree p q required close) := by
  -- attributes and dimensions
  have hattrs : attrsEqual (p.attrsToCompare required) (q.attrsToCompare required) = true ↔
      joinDims p.cm.dims = joinDims q.cm.dims ∧
      (∀ k, ComparedAttr required k → ((∃ v, p.attrs.get? k = some v) ↔ ∃ v, q.attrs.get? k = some v)) ∧
      ∀ k v w, ComparedAttr required k → p.attrs.get? k = some v → q.attrs.get? k = some w → SameAttr v w := by
    rw [attrsEqual_iff]
    simp only [get?_attrsToCompare]
    have nd : ∀ {r : EPatch}, Whole r → r.attrs.get? "dims" = none := fun h => Dict.get?_eq_none.2 h.noDims
    constructor
    · rintro ⟨h1, h2⟩
      refine ⟨?_, ?_, ?_⟩
      · have := h2 "dims" _ _ (if_pos rfl) (if_pos rfl)
        rcases this with h | h
        · injection h
        · exact absurd h.1 (by simp [AVal.isNull])
      · intro k hk
        change required = true → k ∈ requiredAttrs at hk
        by_cases hd : k = "dims"
        · rw [hd, nd hp, nd hq]
        · have := h1 k
          rw [if_neg hd, if_neg hd, if_pos hk, if_pos hk] at this
          exact this
      · intro k v w hk hv hw
        change required = true → k ∈ requiredAttrs at hk
        by_cases hd : k = "dims"
        · rw [hd, nd hp] at hv; cases hv
        · refine h2 k v w ?_ ?_
          · rw [if_neg hd, if_pos hk]; exact hv
          · rw [if_neg hd, if_pos hk]; exact hw
    · rintro ⟨h0, h1, h2⟩
      refine ⟨?_, ?_⟩
      · intro k
        by_cases hd : k = "dims"
        · rw [if_pos hd, if_pos hd]; simp
        · rw [if_neg hd, if_neg hd]
          by_cases hk : required = true → k ∈ requiredAttrs
          · rw [if_pos hk, if_pos hk]; exact h1 k hk
          · rw [if_neg hk, if_neg hk]
      · intro k v w
        by_cases hd : k = "dims"
        · rw [if_pos hd, if_pos hd]
          intro hv hw; cases hv; cases hw
          left; rw [h0]
        · rw [if_neg hd, if_neg hd]
          by_cases hk : required = true → k ∈ requiredAttrs
          · rw [if_pos hk, if_pos hk]; exact h2 k v w hk
          · rw [if_neg hk, if_neg hk]; intro h; cases h
  unfold EPatch.equals
  by_cases hc : p.cm.equals q.cm p.units q.units = true
  swap
  · rw [if_pos (by simpa using hc)]
    refine ⟨false, rfl, by simp, fun h => ?_⟩
    exact absurd ((cmEquals_iff _ _ _ _).2 ⟨fun d => by rw [h.dims], h.names, h.coords⟩) hc
  rw [if_neg (by simpa using hc)]
  obtain ⟨hset, hnames, hcoords⟩ := (cmEquals_iff _ _ _ _).1 hc
  by_cases ha : attrsEqual (p.attrsToCompare required) (q.attrsToCompare required) = true
  swap
  · rw [if_pos (by simpa using ha)]
    refine ⟨false, rfl, by simp, fun h => ?_⟩
    exact absurd (hattrs.2 ⟨by rw [h.dims], h.keys, h.attrs⟩) ha
  rw [if_neg (by simpa using ha)]
  obtain ⟨hj, hkeys, hvals⟩ := hattrs.1 ha
  have hdims : p.cm.dims = q.cm.dims := by
    refine joinDims_inj hp.commas hq.commas ?_ hj
    constructor
    · intro h
      rw [h] at hset
      exact List.eq_nil_iff_forall_not_mem.2 fun d hd => by have := (hset d).2 hd; simp at this
    · intro h
      rw [h] at hset
      exact List.eq_nil_iff_forall_not_mem.2 fun d hd => by have := (hset d).1 hd; simp at this
  have hlen : ∀ d ∈ p.cm.dims, p.cm.ents.lenOf d = q.cm.ents.lenOf d := by
    intro d hd
    obtain ⟨c, n, hc, _⟩ := hp.wf.own d hd
    obtain ⟨c', n', hc', _⟩ := hq.wf.own d (hdims ▸ hd)
    have g := Dict.get?_of_mem hp.wf.names hc
    have g' := Dict.get?_of_mem hq.wf.names hc'
    have := (hcoords d _ _ ⟨⟨_, g⟩, .inl hd⟩ g g').1
    simp only [Ents.lenOf, g, g', MCoord.len]
    rw [this]
  have hshape : p.data.shape = q.data.shape := by
    rw [← hp.shape, ← hq.shape]
    unfold CM.shape
    rw [← hdims]
    split_ifs
    · rfl
    · exact List.map_congr_left hlen
  rw [if_neg (not_not.2 hshape)]
  refine ⟨_, rfl, ?_⟩
  rw [List.all_eq_true]
  simp only [mem_indices, sampleEqual_iff]
  exact ⟨fun h => ⟨hdims, hnames, hcoords, hkeys, hvals, hshape, h⟩, fun h => h.data⟩

/-- The values that pass for equal in both directions. -/
theorem equals_ok {p q : EPatch} (hp : Whole p) (hq : Whole q) {required close : Bool} :
    p.equals q required close = .ok true ↔ Agree p q required close := by
  obtain ⟨b, hb, h⟩ := C49_equals_iff p q hp hq required close
  rw [hb, ← h]
  simp

/-- **C49.** A patch equals itself if and only if it has no NaN sample. -/
theorem C49_reflexive_partial (p : EPatch) (hp : Whole p) (required close : Bool) :
    p.equals p required close = .ok true ↔ ∀ i, InRange p.data.shape i → p.data.get i ≠ none := by
  rw [equals_ok hp hp]
  constructor
  · intro h i hi
    obtain ⟨a, b, ha, _⟩ := h.data i hi
    rw [ha]; simp
  · intro h
    have near : ∀ a : ℚ, |a - a| ≤ 1 / 10 ^ 8 + |a| / 10 ^ 5 := by
      intro a
      rw [sub_self, abs_zero]
      positivity
    refine ⟨rfl, fun _ => Iff.rfl, ?_, fun _ _ => Iff.rfl, ?_, rfl, ?_⟩
    · intro x c d _ hc hd
      rw [hc] at hd; cases hd
      refine ⟨rfl, rfl, fun _ => rfl, fun hpart i hi => ?_⟩
      cases hl : c.2.arr.get i with
      | none =>
        -- only an array of another rank has nulls among its values
        obtain ⟨ds, c⟩ := c
        simp only at hpart hi hl ⊢
        match c, hpart, hi, hl, hc with
        | .nd a, _, _, _, _ => exact ⟨rfl, rfl⟩
        | .one k c, hpart, hi, hl, hc =>
          exfalso
          have hlt : i.getD 0 0 < c.length := by
            have : InRange [c.length] i := hi
            match i, this with
            | [j], .cons h .nil => exact h
          have hll : c.length = c.labels.length := by
            match c, hpart, hc with
            | .range e, _, hc => simp [Coord.length, Coord.labels, hp.counted _ _ _ _ hc]
            | .mono vs, _, _ => simp [Coord.length, Coord.labels]
            | .arr vs, _, _ => simp [Coord.length, Coord.labels]
          have hnone : none ∈ c.labels := by
            have hl' : c.labels.getD (i.getD 0 0) none = none := hl
            rw [List.getD_eq_getElem?_getD, List.getElem?_eq_getElem (hll ▸ hlt)] at hl'
            simp only [Option.getD_some] at hl'
            rw [← hl']
            exact List.getElem_mem _
          match c, hpart, hnone with
          | .range e, _, hnone => simp [Coord.labels] at hnone
          | .mono vs, _, hnone => simp [Coord.labels] at hnone
          | .arr vs, _, hnone => simp [Coord.labels] at hnone
      | some a =>
        unfold NearLabel
        simp only [and_self]
        split_ifs
        exact near a
    · intro k v w _ hv hw
      rw [hv] at hw; cases hw
      exact .inl rfl
    · intro i hi
      cases ha : p.data.get i with
      | none => exact absurd ha (h i hi)
      | some a =>
        refine ⟨a, a, rfl, rfl, ?_⟩
        split_ifs
        · exact near a
        · rfl

/-- Labels at the same place of two coordinates differ by at most a hundred-millionth. -/
def Tight (p q : EPatch) : Prop := ∀ x c d, p.cm.ents.get? x = some c → q.cm.ents.get? x = some d → ∀ i, InRange c.2.shape i →
  InRange d.2.shape i → ∀ a b, c.2.arr.get i = some a → d.2.arr.get i = some b → |a - b| ≤ 1 / 10 ^ 8

/-- **C49.** Equality is symmetric for patches whose labels differ by at most a hundred-millionth. -/
theorem C49_symmetric_partial (p q : EPatch) (hp : Whole p) (hq : Whole q) (hlab : Tight p q) (required : Bool) :
    p.equals q required = q.equals p required := by
  have key : ∀ {p q : EPatch}, Tight p q → Agree p q required false → Agree q p required false := by
    intro p q hlab h
    refine ⟨h.dims.symm, fun x => (h.names x).symm, ?_, fun k hk => (h.keys k hk).symm, ?_, h.shape.symm, ?_⟩
    · intro x d c hx hd hc
      obtain ⟨n1, n2, n3, n4⟩ := h.coords x c d ((h.names x).2 hx) hc hd
      refine ⟨n1.symm, n2.symm, fun hpart => (n3 (n2 ▸ hpart)).symm, fun hpart i hi => ?_⟩
      have hi' : InRange c.2.shape i := n1 ▸ hi
      have := n4 (n2 ▸ hpart) i hi'
      cases ha : c.2.arr.get i with
      | none =>
        cases hb : d.2.arr.get i <;> rw [ha, hb] at this <;> exact ⟨this.2, this.1⟩
      | some a =>
        cases hb : d.2.arr.get i with
        | none => rw [ha, hb] at this; exact ⟨this.2, this.1⟩
        | some b =>
          rw [ha, hb] at this
          unfold NearLabel at this ⊢
          simp only at this ⊢
          split_ifs at this with h1
          · rw [if_pos ⟨h1.2, h1.1⟩, abs_sub_comm]
            have := hlab x c d hc hd i hi' hi a b ha hb
            have h0 : (0 : ℚ) ≤ |a| / 10 ^ 5 := by positivity
            linarith
          · rw [if_neg (fun h => h1 ⟨h.2, h.1⟩)]
            exact ⟨this.1.symm, this.2.symm⟩
    · intro k v w hk hv hw
      rcases h.attrs k w v hk hw hv with h | h
      · exact .inl h.symm
      · exact .inr ⟨h.2, h.1⟩
    · intro i hi
      obtain ⟨a, b, ha, hb, hab⟩ := h.data i (h.shape ▸ hi)
      exact ⟨b, a, hb, ha, by simpa using hab.symm⟩
  have hlab' : Tight q p := fun x d c hd hc i hi hi' b a hb ha => by
    rw [abs_sub_comm]; exact hlab x c d hc hd i hi' hi a b ha hb
  obtain ⟨b, hb, h⟩ := C49_equals_iff p q hp hq required false
  obtain ⟨b', hb', h'⟩ := C49_equals_iff q p hq hp required false
  rw [hb, hb']
  congr 1
  rw [Bool.eq_iff_iff, h, h']
  exact ⟨key hlab, key hlab'⟩

/-! ### Examples and violations -/

/-- A patch of the example coordinates. -/
def exE (m : CM) (f : List ℕ → Option ℚ) (u : String → Option String) : EPatch :=
  ⟨m, ⟨[2, 4], f⟩, [("tag", .val "random"), ("station", .val "")], u⟩

theorem exE_whole (f : List ℕ → Option ℚ) (u : String → Option String) : Whole (exE exCM f u) where
  wf := exCM_wf
  distinct := exCM_distinct
  shape := show exCM.shape = [2, 4] by decide +kernel
  commas := show ∀ d ∈ exCM.dims, ',' ∉ d.toList by decide +kernel
  attrs := show ["tag", "station"].Nodup by decide +kernel
  noDims := show "dims" ∉ ["tag", "station"] by decide +kernel
  counted := by
    intro name ds k e h
    have hm := Dict.mem_of_get? h
    simp only [exE, exCM, List.mem_cons, Prod.mk.injEq, List.not_mem_nil, or_false] at hm
    rcases hm with ⟨_, _, h⟩ | ⟨_, _, h⟩ | ⟨_, _, h⟩ | ⟨_, _, h⟩ <;> cases h
    decide +kernel

/-- The data `0, 1, 2, …`. -/
def exData (i : List ℕ) : Option ℚ := some (4 * (i.getD 0 0 : ℚ) + i.getD 1 0)

example : Whole (exE exCM exData fun _ => none) ∧ (exE exCM exData fun _ => none).equals (exE exCM exData fun _ => none) = .ok true ∧
    (exE exCM exData fun _ => none).equals (exE exCM (fun i => if i = [1, 3] then some 8 else exData i) fun _ => none) = .ok false :=
  ⟨exE_whole _ _, by decide +kernel, by decide +kernel⟩

/-- **C49 violated**: a patch with one NaN sample does not equal itself. -/
theorem C49_nan_violated :
    (exE exCM (fun i => if i = [1, 3] then none else exData i) fun _ => none).equals
      (exE exCM (fun i => if i = [1, 3] then none else exData i) fun _ => none) = .ok false := by
  decide +kernel

/-- The example coordinates with other values of `depth`. -/
def exDepth (l : List ℚ) : CM := ⟨["time", "distance"],
  [("time", ["time"], .one .int (.arr [3, 1])), ("distance", ["distance"], .one .int (.range exUp)),
   ("depth", ["distance"], .one .float (.arr l))]⟩

/-- **C49 violated**: equality is not symmetric: the tolerance is relative to the labels of the second patch. -/
theorem C49_asymmetric_violated :
    (exE (exDepth [100000, 1, 2, 3]) exData fun _ => none).equals (exE (exDepth [100001 + 1 / 200000, 1, 2, 3]) exData fun _ => none) = .ok true ∧
    (exE (exDepth [100001 + 1 / 200000, 1, 2, 3]) exData fun _ => none).equals (exE (exDepth [100000, 1, 2, 3]) exData fun _ => none) = .ok false := by
  constructor <;> decide +kernel

/-- The example coordinates with the two dimensional coordinate replaced. -/
def exLat (ds : List String) (a : Nd (Option ℚ)) : CM := ⟨["time", "distance"],
  [("time", ["time"], .one .int (.arr [3, 1])), ("distance", ["distance"], .one .int (.range exUp)), ("lat", ds, .nd a)]⟩

/-- **C49 violated**: a missing label equals every label, so that two patches with different labels are both equal to a third
(equality is not transitive). -/
theorem C49_null_violated :
    (exE (exLat ["time", "distance"] ⟨[2, 4], fun _ => some 1⟩) exData fun _ => none).equals
      (exE (exLat ["time", "distance"] ⟨[2, 4], fun _ => none⟩) exData fun _ => none) = .ok true ∧
    (exE (exLat ["time", "distance"] ⟨[2, 4], fun _ => none⟩) exData fun _ => none).equals
      (exE (exLat ["time", "distance"] ⟨[2, 4], fun _ => some 2⟩) exData fun _ => none) = .ok true ∧
    (exE (exLat ["time", "distance"] ⟨[2, 4], fun _ => some 1⟩) exData fun _ => none).equals
      (exE (exLat ["time", "distance"] ⟨[2, 4], fun _ => some 2⟩) exData fun _ => none) = .ok false := by
  refine ⟨by decide +kernel, by decide +kernel, by decide +kernel⟩

/-- A square patch whose extra coordinate belongs to dimension `d`. -/
def exGain (d : String) : EPatch :=
  ⟨⟨["x", "y"], [("x", ["x"], .one .int (.arr [3, 1])), ("y", ["y"], .one .int (.arr [3, 1])), ("gain", [d], .one .float (.arr [7, 9]))]⟩,
   ⟨[2, 2], fun _ => some 0⟩, [], fun _ => none⟩

/-- **C49 violated**: patches are equal although an extra coordinate is attached to different dimensions, and although
the dimensions' coordinates have different units. -/
theorem C49_attachment_violated :
    (exGain "x").equals (exGain "y") = .ok true ∧
    label ⟨(exGain "x").cm, (exGain "x").data⟩ "gain" [0, 1] = some (some 7) ∧
    label ⟨(exGain "y").cm, (exGain "y").data⟩ "gain" [0, 1] = some (some 9) ∧
    (exE exCM exData fun _ => some "m").equals (exE exCM exData fun _ => some "ft") = .ok true := by
  refine ⟨by decide +kernel, by decide +kernel, by decide +kernel, by decide +kernel⟩

/-! ### Deep equality -/

/-- Alike up to paths of length `k`. -/
def AlikeTo (h : Heap) (k : ℕ) (x y : ℕ) : Prop := ∀ path : List String, path.length ≤ k → AlikeAt h x y path

theorem AlikeTo.mono {h : Heap} {k l x y : ℕ} (hkl : l ≤ k) (ha : AlikeTo h k x y) : AlikeTo h l x y :=
  fun path hp => ha path (hp.trans hkl)

theorem SameHead.symm {h : Heap} {n : ℕ} (hf : FiniteHeap h n) {x y : ℕ} (hxy : SameHead h x y) : SameHead h y x := by
  unfold SameHead at *
  cases hx : h.node x <;> cases hy : h.node y <;> rw [hx, hy] at hxy <;> simp only at * <;>
    first | (rw [hf.frameSymm]; exact hxy) | (rw [hf.leafSymm]; exact hxy)

theorem AlikeTo.symm {h : Heap} {n : ℕ} (hf : FiniteHeap h n) {k x y : ℕ} (ha : AlikeTo h k x y) : AlikeTo h k y x := by
  intro path hp
  have := ha path hp
  unfold AlikeAt at *
  cases hx : follow h x path <;> cases hy : follow h y path <;> rw [hx, hy] at this <;> try exact this
  exact SameHead.symm hf this

theorem SameHead.refl {h : Heap} {n : ℕ} (hf : FiniteHeap h n) (x : ℕ) : SameHead h x x := by
  unfold SameHead
  cases h.node x <;> simp [hf.frameRefl, hf.leafRefl]

theorem AlikeTo.refl {h : Heap} {n : ℕ} (hf : FiniteHeap h n) (k x : ℕ) : AlikeTo h k x x := by
  intro path _
  unfold AlikeAt
  cases follow h x path with
  | none => trivial
  | some a => exact SameHead.refl hf a

/-- Two mappings are alike to depth `k + 1` iff they have the same keys and their values are alike to depth `k`. -/
theorem alikeTo_succ {h : Heap} {k x y : ℕ} (hs : SameHead h x y) : AlikeTo h (k + 1) x y ↔
    ∀ key, (∀ u, (entries h x).get? key = some u → ∃ v, (entries h y).get? key = some v ∧ AlikeTo h k u v) ∧
      ((entries h x).get? key = none → (entries h y).get? key = none) := by
  constructor
  · intro ha key
    constructor
    · intro u hu
      cases hv : (entries h y).get? key with
      | none =>
        have := ha [key] (by simp)
        simp [AlikeAt, follow, hu, hv] at this
      | some v =>
        refine ⟨v, rfl, fun path hp => ?_⟩
        have := ha (key :: path) (by simpa using hp)
        simpa [AlikeAt, follow, hu, hv] using this
    · intro hu
      cases hv : (entries h y).get? key with
      | none => rfl
      | some v =>
        have := ha [key] (by simp)
        simp [AlikeAt, follow, hu, hv] at this
  · intro ha path hp
    match path with
    | [] => simpa [AlikeAt, follow] using hs
    | key :: path =>
      cases hu : (entries h x).get? key with
      | none => simp [AlikeAt, follow, hu, (ha key).2 hu]
      | some u =>
        obtain ⟨v, hv, hl⟩ := (ha key).1 u hu
        have := hl path (by simpa using hp)
        simpa [AlikeAt, follow, hu, hv] using this

theorem alikeTo_zero {h : Heap} {x y : ℕ} : AlikeTo h 0 x y ↔ SameHead h x y := by
  constructor
  · intro ha
    simpa [AlikeAt, follow] using ha [] (by simp)
  · intro hs path hp
    have : path = [] := List.length_eq_zero_iff.1 (by omega)
    subst this
    simpa [AlikeAt, follow] using hs

theorem alikeTo_congr {h : Heap} {x y d e : ℕ} (hs : SameHead h x y) (hs' : SameHead h d e) (hx : entries h x = entries h d)
    (hy : entries h y = entries h e) (k : ℕ) : AlikeTo h k x y ↔ AlikeTo h k d e := by
  cases k with
  | zero => rw [alikeTo_zero, alikeTo_zero]; exact ⟨fun _ => hs', fun _ => hs⟩
  | succ k => rw [alikeTo_succ hs, alikeTo_succ hs', hx, hy]

theorem alikeTo_leaf {h : Heap} {x y : ℕ} (hs : SameHead h x y) (hx : entries h x = []) (hy : entries h y = []) (k : ℕ) : AlikeTo h k x y := by
  cases k with
  | zero => exact alikeTo_zero.2 hs
  | succ k =>
    rw [alikeTo_succ hs, hx, hy]
    intro key
    refine ⟨fun u hu => ?_, fun _ => rfl⟩
    cases hu

theorem entries_obj {h : Heap} {x d : ℕ} {c : String} {i : Dict ℕ} (hx : h.node x = .obj c d) (hd : h.node d = .map i) :
    entries h x = entries h d := by
  simp [entries, hx, hd]

theorem itemsEq_true {h : Heap} {rec : ℕ → ℕ → Option Bool} {j l : Dict ℕ} (ht : h.itemsEq rec j l = some true) :
    ∀ p ∈ l, ∀ z, j.get? p.1 = some z → h.valueEq rec p.2 z = some true := by
  induction l with
  | nil => simp
  | cons p l ih =>
    unfold Heap.itemsEq at ht
    split at ht
    · cases ht
    · rename_i z hz
      split at ht
      · rename_i hv
        intro q hq w hw
        rcases List.mem_cons.1 hq with rfl | hq
        · rw [hz] at hw; cases hw; exact hv
        · exact ih ht q hq w hw
      · rename_i hne
        exact absurd ht (by simpa using hne)

theorem itemsEq_false {h : Heap} {rec : ℕ → ℕ → Option Bool} {j l : Dict ℕ} (hf : h.itemsEq rec j l = some false) :
    ∃ p ∈ l, j.get? p.1 = none ∨ ∃ z, j.get? p.1 = some z ∧ h.valueEq rec p.2 z = some false := by
  induction l with
  | nil => cases hf
  | cons p l ih =>
    unfold Heap.itemsEq at hf
    split at hf
    · rename_i hz
      exact ⟨p, List.mem_cons_self, .inl hz⟩
    · rename_i z hz
      split at hf
      · obtain ⟨q, hq, h⟩ := ih hf
        exact ⟨q, List.mem_cons_of_mem _ hq, h⟩
      · exact ⟨p, List.mem_cons_self, .inr ⟨z, hz, hf⟩⟩

theorem itemsEq_none {h : Heap} {rec : ℕ → ℕ → Option Bool} {j l : Dict ℕ} (hn : h.itemsEq rec j l = none) :
    ∃ p ∈ l, ∃ z, j.get? p.1 = some z ∧ h.valueEq rec p.2 z = none := by
  induction l with
  | nil => cases hn
  | cons p l ih =>
    unfold Heap.itemsEq at hn
    split at hn
    · cases hn
    · rename_i z hz
      split at hn
      · obtain ⟨q, hq, h⟩ := ih hn
        exact ⟨q, List.mem_cons_of_mem _ hq, h⟩
      · exact ⟨p, List.mem_cons_self, z, hz, hn⟩

/-- What the recursive calls of one comparison of values are. -/
theorem valueEq_cases {h : Heap} {n : ℕ} (hf : FiniteHeap h n) (rec : ℕ → ℕ → Option Bool) (u v : ℕ) :
    (u = v ∧ h.valueEq rec u v = some true) ∨
    (∃ b, h.valueEq rec u v = some b ∧ (b = true ↔ SameHead h u v) ∧ entries h u = [] ∧ entries h v = []) ∨
    (¬ SameHead h u v ∧ h.valueEq rec u v = some false) ∨
    ∃ d e i j, h.valueEq rec u v = rec d e ∧ h.node d = .map i ∧ h.node e = .map j ∧ (d = u ∨ d < n) ∧ (e = v ∨ e < n) ∧
      ∀ k, AlikeTo h k u v ↔ AlikeTo h k d e := by
  by_cases huv : u = v
  · exact .inl ⟨huv, by simp [Heap.valueEq, huv]⟩
  refine .inr ?_
  unfold Heap.valueEq
  rw [if_neg huv]
  cases hu : h.node u with
  | map i =>
    cases hv : h.node v with
    | map j => exact .inr (.inr ⟨u, v, i, j, rfl, hu, hv, .inl rfl, .inl rfl, fun _ => Iff.rfl⟩)
    | _ => exact .inr (.inl ⟨by simp [SameHead, hu, hv], rfl⟩)
  | obj c d =>
    cases hv : h.node v with
    | obj c' e =>
      obtain ⟨hd, i, hi⟩ := hf.dicts u c d hu
      obtain ⟨he, j, hj⟩ := hf.dicts v c' e hv
      refine .inr (.inr ⟨d, e, i, j, rfl, hi, hj, .inr hd, .inr he, fun k => ?_⟩)
      exact alikeTo_congr (by simp [SameHead, hu, hv]) (by simp [SameHead, hi, hj]) (entries_obj hu hi) (entries_obj hv hj) k
    | _ => exact .inr (.inl ⟨by simp [SameHead, hu, hv], rfl⟩)
  | frame a =>
    cases hv : h.node v with
    | frame b => exact .inl ⟨_, rfl, by simp [SameHead, hu, hv], by simp [entries, hu], by simp [entries, hv]⟩
    | _ => exact .inr (.inl ⟨by simp [SameHead, hu, hv], rfl⟩)
  | leaf a =>
    cases hv : h.node v with
    | leaf b => exact .inl ⟨_, rfl, by simp [SameHead, hu, hv], by simp [entries, hu], by simp [entries, hv]⟩
    | _ => exact .inr (.inl ⟨by simp [SameHead, hu, hv], rfl⟩)

/-- Objects which differ are not found equal. -/
theorem deepEq_sound {h : Heap} {n : ℕ} (hf : FiniteHeap h n) : ∀ (fuel : ℕ) (V : List (ℕ × ℕ)) (x y k : ℕ) (i j : Dict ℕ),
    h.node x = .map i → h.node y = .map j → ¬ AlikeTo h k x y → (∀ l < k, AlikeTo h l x y) →
    (∀ q ∈ V, AlikeTo h k q.1 q.2) → h.deepEq fuel V x y ≠ some true := by
  intro fuel
  induction fuel with
  | zero => intro V x y k i j _ _ _ _ _ hc; cases hc
  | succ fuel ih =>
    intro V x y k i j hx hy hnot hmin hV hc
    unfold Heap.deepEq at hc
    split at hc
    · rename_i hv
      rw [Bool.or_eq_true, List.contains_iff_mem, List.contains_iff_mem] at hv
      rcases hv with hv | hv
      · exact hnot (hV _ hv)
      · exact hnot ((hV _ hv).symm hf)
    rw [hx, hy] at hc
    simp only at hc
    have hs : SameHead h x y := by simp [SameHead, hx, hy]
    split at hc
    swap
    · cases hc
    rename_i hkeys
    rw [sameSet_iff] at hkeys
    have ex : entries h x = i := by simp [entries, hx]
    have ey : entries h y = j := by simp [entries, hy]
    cases k with
    | zero => exact hnot (alikeTo_zero.2 hs)
    | succ k =>
      rw [alikeTo_succ hs] at hnot
      push Not at hnot
      obtain ⟨key, hkey⟩ := hnot
      rw [ex, ey] at hkey
      by_cases hall : ∀ u, i.get? key = some u → ∃ v, j.get? key = some v ∧ AlikeTo h k u v
      · obtain ⟨h1, h2⟩ := hkey hall
        exact h2 (Dict.get?_eq_none.2 fun hm => Dict.get?_eq_none.1 h1 ((hkeys key).2 hm))
      push Not at hall
      obtain ⟨u, hu, hv⟩ := hall
      obtain ⟨v, hv'⟩ := Dict.mem_keys.1 ((hkeys key).1 (Dict.mem_keys.2 ⟨u, hu⟩))
      have hnuv := hv v hv'
      have htrue := itemsEq_true hc (key, u) (Dict.mem_of_get? hu) v hv'
      simp only at htrue
      rcases valueEq_cases hf (h.deepEq fuel ((x, y) :: V)) u v with ⟨rfl, _⟩ | ⟨b, hb, hb', e1, e2⟩ | ⟨_, h2⟩ | ⟨d, e, i', j', hr, hd, he, _, _, hk⟩
      · exact hnuv (AlikeTo.refl hf k u)
      · rw [hb] at htrue
        cases htrue
        exact hnuv (alikeTo_leaf (hb'.1 rfl) e1 e2 k)
      · rw [h2] at htrue; cases htrue
      · rw [hr] at htrue
        rw [hk] at hnuv
        classical
        have hex : ∃ l, ¬ AlikeTo h l d e := ⟨k, hnuv⟩
        have hle : Nat.find hex ≤ k := Nat.find_min' hex hnuv
        refine ih _ d e (Nat.find hex) i' j' hd he (Nat.find_spec hex) (fun l hl => not_not.1 (Nat.find_min hex hl)) ?_ htrue
        intro q hq
        rcases List.mem_cons.1 hq with rfl | hq
        · exact hmin _ (by omega)
        · exact (hV q hq).mono (by omega)

/-- Objects which are alike are not found different. -/
theorem deepEq_complete {h : Heap} {n : ℕ} (hf : FiniteHeap h n) : ∀ (fuel : ℕ) (V : List (ℕ × ℕ)) (x y : ℕ) (i j : Dict ℕ),
    h.node x = .map i → h.node y = .map j → (∀ k, AlikeTo h k x y) → h.deepEq fuel V x y ≠ some false := by
  intro fuel
  induction fuel with
  | zero => intro V x y i j _ _ _ hc; cases hc
  | succ fuel ih =>
    intro V x y i j hx hy hall hc
    unfold Heap.deepEq at hc
    split at hc
    · cases hc
    rw [hx, hy] at hc
    simp only at hc
    have hs : SameHead h x y := by simp [SameHead, hx, hy]
    have ex : entries h x = i := by simp [entries, hx]
    have ey : entries h y = j := by simp [entries, hy]
    have hstep := fun k => (alikeTo_succ hs).1 (hall (k + 1))
    rw [ex, ey] at hstep
    split at hc
    · obtain ⟨p, hp, hcase⟩ := itemsEq_false hc
      have hpu : i.get? p.1 = some p.2 := Dict.get?_of_mem (hf.items x i hx).1 hp
      rcases hcase with hno | ⟨z, hz, hv⟩
      · obtain ⟨v, hv, _⟩ := (hstep 0 p.1).1 _ hpu
        rw [hno] at hv; cases hv
      · have hal : ∀ k, AlikeTo h k p.2 z := by
          intro k
          obtain ⟨v, hv, h'⟩ := (hstep k p.1).1 _ hpu
          rw [hz] at hv; cases hv; exact h'
        rcases valueEq_cases hf (h.deepEq fuel ((x, y) :: V)) p.2 z with ⟨_, h2⟩ | ⟨b, hb, hb', _, _⟩ | ⟨h1, _⟩ | ⟨d, e, i', j', hr, hd, he, _, _, hk⟩
        · rw [h2] at hv; cases hv
        · rw [hb] at hv
          cases hv
          exact absurd (hb'.2 (alikeTo_zero.1 (hal 0))) (by simp)
        · exact h1 (alikeTo_zero.1 (hal 0))
        · rw [hr] at hv
          exact ih _ d e i' j' hd he (fun k => (hk k).1 (hal k)) hv
    · rename_i hkeys
      apply hkeys
      rw [sameSet_iff]
      intro key
      constructor
      · intro hm
        obtain ⟨u, hu⟩ := Dict.mem_keys.1 hm
        obtain ⟨v, hv, _⟩ := (hstep 0 key).1 u hu
        exact Dict.mem_keys.2 ⟨v, hv⟩
      · intro hm
        by_contra hno
        have := (hstep 0 key).2 (Dict.get?_eq_none.2 hno)
        exact Dict.get?_eq_none.1 this hm

/-- The recursion ends, also on objects which contain themselves. -/
theorem deepEq_terminates {h : Heap} {n : ℕ} (hf : FiniteHeap h n) : ∀ (fuel : ℕ) (V : List (ℕ × ℕ)) (x y : ℕ) (i j : Dict ℕ),
    h.node x = .map i → h.node y = .map j → x < n → y < n → V.Nodup → (∀ q ∈ V, q.1 < n ∧ q.2 < n) → n * n < fuel + V.length →
    h.deepEq fuel V x y ≠ none := by
  intro fuel
  induction fuel with
  | zero =>
    intro V x y i j _ _ _ _ hnd hb hlen
    exfalso
    have hsub : V.toFinset ⊆ Finset.range n ×ˢ Finset.range n := by
      intro q hq
      rw [Finset.mem_product, Finset.mem_range, Finset.mem_range]
      exact hb q (List.mem_toFinset.1 hq)
    have := Finset.card_le_card hsub
    rw [List.toFinset_card_of_nodup hnd, Finset.card_product, Finset.card_range] at this
    omega
  | succ fuel ih =>
    intro V x y i j hx hy hxn hyn hnd hb hlen hc
    unfold Heap.deepEq at hc
    split at hc
    · cases hc
    rename_i hv
    rw [Bool.or_eq_true, List.contains_iff_mem, List.contains_iff_mem, not_or] at hv
    rw [hx, hy] at hc
    simp only at hc
    split at hc
    swap
    · cases hc
    obtain ⟨p, hp, z, hz, hnone⟩ := itemsEq_none hc
    rcases valueEq_cases hf (h.deepEq fuel ((x, y) :: V)) p.2 z with ⟨_, h2⟩ | ⟨b, hb', _⟩ | ⟨_, h2⟩ | ⟨d, e, i', j', hr, hd, he, hdn, hen, _⟩
    · rw [h2] at hnone; cases hnone
    · rw [hb'] at hnone; cases hnone
    · rw [h2] at hnone; cases hnone
    · rw [hr] at hnone
      have h1 : p.2 < n := (hf.items x i hx).2 p.1 p.2 hp
      have h2 : z < n := (hf.items y j hy).2 p.1 z (Dict.mem_of_get? hz)
      refine ih _ d e i' j' hd he (by rcases hdn with rfl | h <;> assumption) (by rcases hen with rfl | h <;> assumption)
        (List.nodup_cons.2 ⟨hv.1, hnd⟩) ?_ (by simp only [List.length_cons]; omega) hnone
      intro q hq
      rcases List.mem_cons.1 hq with rfl | hq
      · exact ⟨hxn, hyn⟩
      · exact hb q hq

/-- **C49.** Deep equality of two mappings (the state of two spools, say), nested and cyclic as they may be: it answers, and
says yes exactly if no path of keys leads to objects that differ. -/
theorem C49_deep_iff (h : Heap) (n x y : ℕ) (hf : FiniteHeap h n) (hx : x < n) (hy : y < n) (i j : Dict ℕ)
    (hi : h.node x = .map i) (hj : h.node y = .map j) :
    ∃ b, h.deepEq (n * n + 1) [] x y = some b ∧ (b = true ↔ Alike h x y) := by
  have ht := deepEq_terminates hf (n * n + 1) [] x y i j hi hj hx hy (by simp) (by simp) (by simp)
  obtain ⟨b, hb⟩ := Option.ne_none_iff_exists'.1 ht
  refine ⟨b, hb, ?_⟩
  have hal : Alike h x y ↔ ∀ k, AlikeTo h k x y :=
    ⟨fun ha k path _ => ha path, fun ha path => ha path.length path le_rfl⟩
  rw [hal]
  constructor
  · rintro rfl
    by_contra hno
    push Not at hno
    classical
    exact deepEq_sound hf _ _ x y (Nat.find hno) i j hi hj (Nat.find_spec hno) (fun l hl => not_not.1 (Nat.find_min hno hl)) (by simp) hb
  · intro ha
    cases b with
    | true => rfl
    | false => exact absurd hb (deepEq_complete hf _ _ x y i j hi hj ha)

/-- **C49.** Deep equality is reflexive and symmetric. -/
theorem C49_deep_symmetric (h : Heap) (n x y : ℕ) (hf : FiniteHeap h n) (hx : x < n) (hy : y < n) (i j : Dict ℕ)
    (hi : h.node x = .map i) (hj : h.node y = .map j) :
    h.deepEq (n * n + 1) [] x x = some true ∧ h.deepEq (n * n + 1) [] x y = h.deepEq (n * n + 1) [] y x := by
  constructor
  · obtain ⟨b, hb, h'⟩ := C49_deep_iff h n x x hf hx hx i i hi hi
    rw [hb, h'.2 fun path => AlikeTo.refl hf _ x path le_rfl]
  · obtain ⟨b, hb, h1⟩ := C49_deep_iff h n x y hf hx hy i j hi hj
    obtain ⟨c, hc, h2⟩ := C49_deep_iff h n y x hf hy hx j i hj hi
    rw [hb, hc]
    congr 1
    rw [Bool.eq_iff_iff, h1, h2]
    have key : ∀ {x y}, Alike h x y → Alike h y x := fun ha path =>
      AlikeTo.symm hf (k := path.length) (fun q _ => ha q) path le_rfl
    exact ⟨key, key⟩

/-- Two spools' states whose caches refer back to them; they differ only in the class of one object. -/
def exHeap : Heap where
  node := fun x => match x with
    | 0 => .map [("cache", 2), ("kwargs", 4)]
    | 1 => .map [("cache", 3), ("kwargs", 5)]
    | 2 => .map [("owner", 0), ("df", 6)]
    | 3 => .map [("owner", 1), ("df", 7)]
    | 4 => .obj "Reader" 8
    | 5 => .obj "Writer" 9
    | 6 => .frame 1
    | 7 => .frame 1
    | 8 => .map [("path", 10)]
    | 9 => .map [("path", 10)]
    | 11 => .map [("cache", 3), ("kwargs", 4), ("new", 10)]
    | 12 => .map [("cache", 13), ("kwargs", 4)]
    | 13 => .map [("owner", 0), ("df", 14)]
    | 14 => .frame 2
    | _ => .leaf 0
  frameEq := fun a b => decide (a = b)
  leafEq := fun a b => decide (a = b)

theorem exHeap_finite : FiniteHeap exHeap 15 where
  items := by
    intro x i hx
    match x with
    | 0 | 1 | 2 | 3 | 8 | 9 | 11 | 12 | 13 => cases hx; exact ⟨by decide, by simp; try omega⟩
    | 4 | 5 | 6 | 7 | 10 | 14 => cases hx
    | n + 15 => cases hx
  dicts := by
    intro x c d hx
    match x with
    | 0 | 1 | 2 | 3 | 8 | 9 | 11 | 12 | 13 => cases hx
    | 4 => cases hx; exact ⟨by decide, _, rfl⟩
    | 5 => cases hx; exact ⟨by decide, _, rfl⟩
    | 6 | 7 | 10 | 14 => cases hx
    | n + 15 => cases hx
  frameRefl := by simp [exHeap]
  leafRefl := by simp [exHeap]
  frameSymm := by simp [exHeap, eq_comm]
  leafSymm := by simp [exHeap, eq_comm]

example : exHeap.deepEq (15 * 15 + 1) [] 0 1 = some true ∧ exHeap.deepEq (15 * 15 + 1) [] 0 11 = some false ∧
    exHeap.deepEq (15 * 15 + 1) [] 0 12 = some false := by
  refine ⟨by decide +kernel, by decide +kernel, by decide +kernel⟩

/-- **C49 violated**: objects of different classes with the same attributes are equal. -/
theorem C49_class_violated : exHeap.deepEq (15 * 15 + 1) [] 0 1 = some true ∧ exHeap.node 4 = .obj "Reader" 8 ∧
    exHeap.node 5 = .obj "Writer" 9 := by
  refine ⟨by decide +kernel, rfl, rfl⟩

end Verif
