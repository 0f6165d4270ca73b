import Verif.Proof.UnitArith
import Verif.Props.Arith
import Verif.Props.FilterUnits
/-! # Arithmetic with units (C86) -/
namespace Verif
open Spec

theorem withArray_split {α β γ : Type} {f : α → β → γ} {p : PatchM α} {a : Nd β} {r : PatchM γ} (h : p.withArray f a = .ok r) :
    ∃ q shape, p.fitTo a.shape = .ok q ∧ Nd.broadcastShapes q.data.shape a.shape = .ok shape ∧ q.cm.shape = shape ∧
      r = ⟨q.cm, ⟨shape, fun i => f (q.data.get (Nd.castIdx q.data.shape i)) (a.get (Nd.castIdx a.shape i))⟩⟩ := by
  unfold PatchM.withArray at h
  obtain ⟨q, hq, h⟩ := bind_split h
  obtain ⟨shape, hs, h⟩ := bind_split h
  obtain ⟨rfl, hcs⟩ := new_ok h
  exact ⟨q, shape, hq, hs, hcs, rfl⟩

theorem allZero_iff {a : Nd ℚ} : a.allZero = true ↔ AllZero a := by
  unfold Nd.allZero AllZero
  rw [List.all_eq_true]
  simp only [mem_indices, beq_iff_eq]

/-- If the result has samples, the patch has only zeros if the samples used have. -/
theorem fitted_zero {p q : PatchM ℚ} {shape : List ℕ} (hF : FitTo p q shape) (h0 : 0 ∉ q.data.shape)
    (hl : q.data.shape.length = p.data.shape.length) (h : q.data.allZero = true) : AllZero p.data := by
  rw [allZero_iff] at h
  intro j hj
  have hlen : j.length = p.data.shape.length := hj.length_eq
  have hr : InRange q.data.shape j := by
    refine List.forall₂_iff_get.2 ⟨by rw [hl, hlen], fun k h2 h1 => ?_⟩
    have h3 : k < p.data.shape.length := by omega
    have h4 := (List.forall₂_iff_get.1 hj).2 k h2 h3
    have h5 : q.data.shape[k] ≠ 0 := fun hc => h0 (hc ▸ List.getElem_mem h1)
    rcases hF.one k h3 with h6 | h6
    · rw [List.getD_eq_getElem?_getD, List.getElem?_eq_getElem h1, List.getD_eq_getElem?_getD, List.getElem?_eq_getElem h3] at h6
      simp only [Option.getD_some] at h6
      simp only [List.get_eq_getElem] at h4 ⊢
      omega
    · rw [List.getD_eq_getElem?_getD, List.getElem?_eq_getElem h3] at h6
      simp only [Option.getD_some] at h6
      simp only [List.get_eq_getElem] at h4 ⊢
      omega
  obtain ⟨_, h2⟩ := hF.data j hr
  rw [castTo_self hj] at h2
  rw [← h2]
  exact h j hr

/-- The zeros of the patch are those of the samples used. -/
theorem fitted_flag {p q r : PatchM ℚ} {f : ℚ → ℚ → ℚ} {a : Nd ℚ} (hp : Regular p.cm) (hpl : DimsListed p.cm) (hpd : p.cm.dims ≠ [])
    (hps : p.cm.shape = p.data.shape) (hq : p.fitTo a.shape = .ok q) (hr : p.withArray f a = .ok r) (hz : ¬ AllZero p.data) (h0 : 0 ∉ r.data.shape) :
    q.data.allZero = false := by
  obtain ⟨hF, hle⟩ := fitTo_spec hp hpl hpd hps hq
  obtain ⟨q', shape, hq', hs, hcs, rfl⟩ := withArray_split hr
  rw [hq] at hq'; cases hq'
  have hse : shape = q.data.shape := by rw [← hcs, hF.csh]
  subst hse
  have hl : q.data.shape.length = p.data.shape.length := by
    rw [← hF.csh, ← hps]
    unfold CM.shape
    rw [hF.dims, if_neg hpd, if_neg hpd]; simp
  cases hc : q.data.allZero with
  | false => rfl
  | true => exact absurd (fitted_zero hF h0 hl hc) hz

theorem fitted_flagB {p q : PatchM ℚ} {r : PatchM Bool} {f : ℚ → ℚ → Bool} {a : Nd ℚ} (hp : Regular p.cm) (hpl : DimsListed p.cm) (hpd : p.cm.dims ≠ [])
    (hps : p.cm.shape = p.data.shape) (hq : p.fitTo a.shape = .ok q) (hr : p.withArray f a = .ok r) (hz : ¬ AllZero p.data) (h0 : 0 ∉ r.data.shape) :
    q.data.allZero = false := by
  obtain ⟨hF, hle⟩ := fitTo_spec hp hpl hpd hps hq
  obtain ⟨q', shape, hq', hs, hcs, rfl⟩ := withArray_split hr
  rw [hq] at hq'; cases hq'
  have hse : shape = q.data.shape := by rw [← hcs, hF.csh]
  subst hse
  have hl : q.data.shape.length = p.data.shape.length := by
    rw [← hF.csh, ← hps]
    unfold CM.shape
    rw [hF.dims, if_neg hpd, if_neg hpd]; simp
  cases hc : q.data.allZero with
  | false => rfl
  | true => exact absurd (fitted_zero hF h0 hl hc) hz

/-- **C86** for a patch and a quantity (what is missing: `Ordinary`, units without a zero of their own; if the patch has no units its samples are not
all zero when something is added or subtracted). Each sample of the result is, as an amount, the result of the operation on the amounts; the units
of the result measure what the result of the operation measures; no labels change. -/
theorem C86_quantity_partial (op : ArithOp) (swap : Bool) (p r : MPatch) (a : Nd ℚ) (v : PintUnit ℚ) (hp : Regular p.patch.cm) (hpl : DimsListed p.patch.cm)
    (hpd : p.patch.cm.dims ≠ []) (hps : p.patch.cm.shape = p.patch.data.shape) (hu : ∀ u, p.units = some u → Ordinary u) (hv : Ordinary ⟨1, v⟩)
    (hz : op = .add ∨ op = .sub → p.units = none → ¬ AllZero p.patch.data ∧ 0 ∉ r.patch.data.shape)
    (h : p.withQuantity op swap a v = .ok r) :
    ∃ f : ℚ → ℚ → ℚ, WithArray f p.patch a r.patch ∧
      if swap then Computes op (some ⟨1, v⟩) p.units r.units (fun b x => f x b) else Computes op p.units (some ⟨1, v⟩) r.units f := by
  unfold MPatch.withQuantity at h
  obtain ⟨q, hq, h⟩ := bind_split h
  obtain ⟨⟨f, w⟩, hf, h⟩ := bind_split h
  obtain ⟨out, ho, h⟩ := bind_split h
  cases h
  refine ⟨f, withArray_spec hp hpl hpd hps ho, quantityRule_spec hu hv (fun h1 h2 => ?_) hf⟩
  exact fitted_flag hp hpl hpd hps hq ho (hz h1 h2).1 (hz h1 h2).2

/-- **C86** for comparisons with a quantity (what is missing: as above). Amounts are compared, and the result has no units. -/
theorem C86_compare_quantity_partial (op : CompOp) (swap : Bool) (p : MPatch) (r : BPatch) (a : Nd ℚ) (v : PintUnit ℚ) (hp : Regular p.patch.cm)
    (hpl : DimsListed p.patch.cm) (hpd : p.patch.cm.dims ≠ []) (hps : p.patch.cm.shape = p.patch.data.shape)
    (hu : ∀ u, p.units = some u → Ordinary u) (hv : Ordinary ⟨1, v⟩)
    (hz : p.units = none → ¬ AllZero p.patch.data ∧ 0 ∉ r.patch.data.shape)
    (h : p.compareQuantity op swap a v = .ok r) :
    r.units = none ∧ ∃ f : ℚ → ℚ → Bool, WithArray f p.patch a r.patch ∧
      if swap then Compares op (some ⟨1, v⟩) p.units (fun b x => f x b) else Compares op p.units (some ⟨1, v⟩) f := by
  unfold MPatch.compareQuantity at h
  obtain ⟨q, hq, h⟩ := bind_split h
  obtain ⟨f, hf, h⟩ := bind_split h
  obtain ⟨out, ho, h⟩ := bind_split h
  cases h
  refine ⟨rfl, f, withArray_spec hp hpl hpd hps ho, quantityCompare_spec hu hv (fun h1 => ?_) hf⟩
  exact fitted_flagB hp hpl hpd hps hq ho (hz h1).1 (hz h1).2

theorem binary_of {α β γ : Type} {argsort : List ℚ → List ℕ} {f : α → β → γ} {p : PatchM α} {q : PatchM β} {r : PatchM α × PatchM β} {cm : CM} {a : Nd γ}
    {out : PatchM γ} (h1 : alignPatches argsort p q = .ok r) (h2 : mergeAligned r.1.cm r.2.cm = .ok cm) (h3 : Nd.zipWith f r.1.data r.2.data = .ok a)
    (h4 : PatchM.new cm a = .ok out) : PatchM.binary argsort f p q = .ok out := by
  unfold PatchM.binary
  rw [h1]
  simp only [bind, Except.bind]
  rw [h2]
  simp only
  rw [h3]
  exact h4

theorem merged_units {p q m : Option (Quant ℚ) × Dict String} (h : mergeModels p q = .ok m) : m.1 = p.1 ∧ unitsEqual p.1 q.1 = true := by
  unfold mergeModels at h
  split_ifs at h with h1
  cases h
  rw [Bool.and_eq_true] at h1
  exact ⟨rfl, h1.1⟩

theorem arithRule_spec {op : ArithOp} {zeros : Bool} {u v w : Option (Quant ℚ)} {f : ℚ → ℚ → ℚ} (hu : ∀ x, u = some x → Ordinary x)
    (he : unitsEqual u v = true) (hv : ∀ x, v = some x → Ordinary x) (h : arithRule op zeros u u v = .ok (f, w)) : Computes op u v w f := by
  unfold arithRule at h
  cases v with
  | none =>
    cases u with
    | some u => cases he
    | none =>
      cases h
      cases op
      · exact ⟨⟨rfl, rfl⟩, fun a b => rfl⟩
      · exact ⟨⟨rfl, rfl⟩, fun a b => rfl⟩
      · exact ⟨⟨rfl, fun k _ => by simp only [kindOf, zeros_getD]; rfl⟩, fun a b => rfl⟩
      · exact ⟨⟨rfl, fun k _ => by simp only [kindOf, zeros_getD]; rfl⟩, fun a b => rfl⟩
  | some v =>
    cases u with
    | none => cases he
    | some u =>
      obtain ⟨⟨g, w'⟩, hg, he'⟩ := except_map_ok h
      injection he' with h1 h2
      subst h1 h2
      have := pintArith_spec (ordinary_units hu) (by intro x hx; cases hx; exact oneOf_ordinary (hv v rfl)) (fun _ hn => by
        rcases hn with hn | hn <;> cases hn) hg
      exact computes_factor (u := some u) (v := some v) this

/-- **C86** for two patches (what is missing: `Ordinary`, and what C60 asks for). Samples are paired by their labels, each sample of the result is, as an
amount, the result of the operation on the two amounts, and the units of the result measure what the result of the operation measures. -/
theorem C86_patches_partial (argsort : List ℚ → List ℕ) (ha : IsArgsort argsort) (op : ArithOp) (p q r : MPatch)
    (hp : Regular p.patch.cm) (hq : Regular q.patch.cm) (hpl : DimsListed p.patch.cm) (hql : DimsListed q.patch.cm)
    (hpd : p.patch.cm.dims ≠ []) (hqd : q.patch.cm.dims ≠ []) (hps : p.patch.cm.shape = p.patch.data.shape) (hqs : q.patch.cm.shape = q.patch.data.shape)
    (hJ : Joinable p.patch.cm q.patch.cm) (hu : ∀ u, p.units = some u → Ordinary u) (hv : ∀ v, q.units = some v → Ordinary v)
    (h : MPatch.arith argsort op p q = .ok r) :
    ∃ f : ℚ → ℚ → ℚ, Combined f p.patch q.patch r.patch ∧ Computes op p.units q.units r.units f := by
  unfold MPatch.arith at h
  obtain ⟨al, h1, h⟩ := bind_split h
  obtain ⟨cm, h2, h⟩ := bind_split h
  obtain ⟨at', h3, h⟩ := bind_split h
  obtain ⟨⟨f, w⟩, h4, h⟩ := bind_split h
  obtain ⟨a, h5, h⟩ := bind_split h
  obtain ⟨out, h6, h⟩ := bind_split h
  cases h
  obtain ⟨m1, m2⟩ := merged_units h3
  simp only at m1 m2
  refine ⟨f, C60_combine_partial argsort ha f _ _ _ hp hq hpl hql hpd hqd hps hqs hJ (binary_of h1 h2 h5 h6), ?_⟩
  rw [m1] at h4
  exact arithRule_spec hu m2 hv h4

/-- **C86** for comparisons of two patches (what is missing: as above). -/
theorem C86_compare_patches_partial (argsort : List ℚ → List ℕ) (ha : IsArgsort argsort) (op : CompOp) (p q : MPatch) (r : BPatch)
    (hp : Regular p.patch.cm) (hq : Regular q.patch.cm) (hpl : DimsListed p.patch.cm) (hql : DimsListed q.patch.cm)
    (hpd : p.patch.cm.dims ≠ []) (hqd : q.patch.cm.dims ≠ []) (hps : p.patch.cm.shape = p.patch.data.shape) (hqs : q.patch.cm.shape = q.patch.data.shape)
    (hJ : Joinable p.patch.cm q.patch.cm) (hu : ∀ u, p.units = some u → Ordinary u) (hv : ∀ v, q.units = some v → Ordinary v)
    (h : MPatch.compare argsort op p q = .ok r) :
    r.units = none ∧ ∃ f : ℚ → ℚ → Bool, Combined f p.patch q.patch r.patch ∧ Compares op p.units q.units f := by
  unfold MPatch.compare at h
  obtain ⟨al, h1, h⟩ := bind_split h
  obtain ⟨cm, h2, h⟩ := bind_split h
  obtain ⟨at', h3, h⟩ := bind_split h
  obtain ⟨f, h4, h⟩ := bind_split h
  obtain ⟨a, h5, h⟩ := bind_split h
  obtain ⟨out, h6, h⟩ := bind_split h
  cases h
  obtain ⟨m1, m2⟩ := merged_units h3
  simp only at m1 m2
  refine ⟨rfl, f, C60_combine_partial argsort ha f _ _ _ hp hq hpl hql hpd hqd hps hqs hJ (binary_of h1 h2 h5 h6), ?_⟩
  rw [m1] at h4
  unfold compareRule at h4
  cases hqu : q.units with
  | none =>
    rw [hqu] at h4 m2
    cases hpu : p.units with
    | some u => rw [hpu] at m2; cases m2
    | none =>
      cases h4
      exact ⟨rfl, fun a b => run_holds op a b⟩
  | some v =>
    rw [hqu] at h4 m2
    cases hpu : p.units with
    | none => rw [hpu] at m2; cases m2
    | some u =>
      rw [hpu] at h4
      obtain ⟨g, hg, he'⟩ := except_map_ok h4
      subst he'
      have := pintCompare_spec (u := some u.unit) (v := some v.unit) (by intro x hx; cases hx; exact oneOf_ordinary (hu u hpu))
        (by intro x hx; cases hx; exact oneOf_ordinary (hv v hqu)) (fun hn => by rcases hn with hn | hn <;> cases hn) hg
      exact compares_factor (u := some u) (v := some v) this

/-- **C86.** Two patches can be combined only if their units are the same amount of the same kind. -/
theorem C86_patches_refused (argsort : List ℚ → List ℕ) (op : ArithOp) (p q r : MPatch)
    (hd : kindOf p.units ≠ kindOf q.units ∨ worth p.units 1 ≠ worth q.units 1) : MPatch.arith argsort op p q ≠ .ok r := by
  intro h
  unfold MPatch.arith at h
  obtain ⟨al, h1, h⟩ := bind_split h
  obtain ⟨cm, h2, h⟩ := bind_split h
  obtain ⟨at', h3, h⟩ := bind_split h
  obtain ⟨_, m2⟩ := merged_units h3
  simp only at m2
  cases hp : p.units with
  | none =>
    cases hq : q.units with
    | none => rw [hp, hq] at hd; rcases hd with hd | hd <;> exact hd rfl
    | some v => rw [hp, hq] at m2; cases m2
  | some u =>
    cases hq : q.units with
    | none => rw [hp, hq] at m2; cases m2
    | some v =>
      rw [hp, hq] at m2 hd
      obtain ⟨k1, k2⟩ := sameKey_iff.1 (show u.sameKey v = true from m2)
      rcases hd with hd | hd
      · exact hd k1
      · refine hd ?_
        simpa [worth, amount, Quant.base] using k2

/-- **C86.** Two patches with the same coordinates, units which are the same amount of the same kind (or no units), and no attribute that differs can always be
combined. -/
theorem C86_patches_total (argsort : List ℚ → List ℕ) (op : ArithOp) (p q : MPatch) (hp : Regular p.patch.cm) (hr : Readable p.patch.cm)
    (hpl : DimsListed p.patch.cm) (hps : p.patch.cm.shape = p.patch.data.shape) (hqc : q.patch.cm = p.patch.cm) (hqs : q.patch.cm.shape = q.patch.data.shape)
    (hu : ∀ u, p.units = some u → Ordinary u) (hv : ∀ v, q.units = some v → Ordinary v) (hn : p.units = none ↔ q.units = none)
    (hk : kindOf p.units = kindOf q.units) (hw : worth p.units 1 = worth q.units 1)
    (ha : ∀ e ∈ p.attrs, ∀ b, q.attrs.get? e.1 = some b → b = e.2) :
    ∃ r, MPatch.arith argsort op p q = .ok r ∧ r.patch.data.shape = p.patch.data.shape := by
  have he : unitsEqual p.units q.units = true := by
    cases h1 : p.units with
    | none => rw [hn.1 h1]; rfl
    | some u =>
      cases h2 : q.units with
      | none => rw [hn.2 h2] at h1; cases h1
      | some v =>
        rw [h1, h2] at hk hw
        refine sameKey_iff.2 ⟨hk, ?_⟩
        simpa [worth, amount, Quant.base] using hw
  have hm : mergeModels (p.units, p.attrs) (q.units, q.attrs) = .ok (p.units, p.attrs ++ q.attrs.filter fun a => (p.attrs.get? a.1).isNone) := by
    unfold mergeModels
    refine if_pos ?_
    rw [Bool.and_eq_true, List.all_eq_true]
    refine ⟨he, fun e hm => ?_⟩
    cases hg : q.attrs.get? e.1 with
    | none => rfl
    | some b => simp [ha e hm b hg]
  have hrule : ∀ z, ∃ x, arithRule op z p.units p.units q.units = .ok x := by
    intro z
    unfold arithRule
    cases h2 : q.units with
    | none => exact ⟨_, rfl⟩
    | some v =>
      cases h1 : p.units with
      | none => rw [hn.1 h1] at h2; cases h2
      | some u =>
        rw [h1, h2] at hk
        have s1 : shiftedUnit (some u.unit) = false := by
          have : u.unit.offset = 0 := (hu u h1).fromZero
          simp [shiftedUnit, this]
        have s2 : shiftedUnit (some v.unit) = false := by
          have : v.unit.offset = 0 := (hv v h2).fromZero
          simp [shiftedUnit, this]
        have : ∃ x, pintArith op z (some u.unit) (some v.unit) = .ok x := by
          unfold pintArith
          rw [s1, s2, if_neg (by simp)]
          have hk' : u.unit.dim = v.unit.dim := hk
          cases op
          · exact ⟨_, if_pos hk'⟩
          · exact ⟨_, if_pos hk'⟩
          · exact ⟨_, rfl⟩
          · exact ⟨_, rfl⟩
        obtain ⟨x, hx⟩ := this
        simp only [Option.map_some]
        rw [hx]
        exact ⟨_, rfl⟩
  obtain ⟨r0, hr0, _, _, _⟩ := C60_same argsort (fun a _ => a) p.patch q.patch hp hr hpl hps hqc hqs
  unfold PatchM.binary at hr0
  obtain ⟨al, h1, _⟩ := bind_split hr0
  obtain ⟨⟨f, w⟩, hf⟩ := hrule al.1.data.allZero
  obtain ⟨r, hb, _, hs, _⟩ := C60_same argsort f p.patch q.patch hp hr hpl hps hqc hqs
  unfold PatchM.binary at hb
  obtain ⟨al', h1', hb⟩ := bind_split hb
  rw [h1] at h1'; cases h1'
  obtain ⟨cm, h2, hb⟩ := bind_split hb
  obtain ⟨a, h3, hb⟩ := bind_split hb
  refine ⟨⟨r, w, p.attrs ++ q.attrs.filter fun a => (p.attrs.get? a.1).isNone⟩, ?_, hs⟩
  unfold MPatch.arith
  rw [h1]
  simp only [bind, Except.bind]
  rw [h2]
  simp only
  rw [hm]
  simp only
  rw [hf]
  simp only
  rw [h3]
  simp only
  rw [hb]
  rfl

/-- What C60 says about arrays that fit, for the samples used. -/
theorem fitTo_total {p : PatchM ℚ} {a : Nd ℚ} (hp : Regular p.cm) (hr : Readable p.cm) (hpl : DimsListed p.cm)
    (hpd : p.cm.dims ≠ []) (hps : p.cm.shape = p.data.shape) (hl : a.shape.length ≤ p.data.shape.length)
    (ha : ∀ k < a.shape.length, a.shape.getD k 0 = 1 ∨ a.shape.getD k 0 = p.data.shape.getD (p.data.shape.length - a.shape.length + k) 0) :
    ∃ q, p.fitTo a.shape = .ok q ∧ (q.data.allZero = true → AllZero p.data) := by
  obtain ⟨r, h, hs⟩ := C60_array_total (fun x _ => x) p a hp hr hpl hpd hps hl ha
  obtain ⟨q, shape, hq, _, hcs, rfl⟩ := withArray_split h
  simp only at hs
  obtain ⟨hF, _⟩ := fitTo_spec hp hpl hpd hps hq
  refine ⟨q, hq, fun hz => ?_⟩
  rw [allZero_iff] at hz
  intro i hi
  have hqi : InRange q.data.shape i := by rw [← hF.csh, hcs, hs]; exact hi
  obtain ⟨_, h2⟩ := hF.data i hqi
  rw [castTo_self hi] at h2
  rw [← h2]
  exact hz i hqi

theorem not_shifted {u : Option (Quant ℚ)} (hu : ∀ x, u = some x → Ordinary x) : shiftedUnit (u.map Quant.unit) = false := by
  cases u with
  | none => rfl
  | some u =>
    have : u.unit.offset = 0 := (hu u rfl).fromZero
    simp [shiftedUnit, this]

theorem bare_sum {op : ArithOp} {v : PintUnit ℚ} {zeros swap : Bool} (h7 : v.dim.length = 7) :
    (v.dim = [0, 0, 0, 0, 0, 0, 0] → ∃ x, pintSumBare op v zeros swap = .ok x) ∧
    (zeros = false → v.dim ≠ [0, 0, 0, 0, 0, 0, 0] → pintSumBare op v zeros swap = .error .unitError) := by
  unfold pintSumBare
  constructor
  · intro hd
    rw [if_pos (show v.dimensionless = true by unfold PintUnit.dimensionless; rw [hd]; rfl)]
    cases zeros
    · exact ⟨_, rfl⟩
    · exact ⟨_, rfl⟩
  · rintro rfl hd
    rw [if_neg (by simp), if_neg]
    intro hc
    exact hd (dim_zero h7 hc)

theorem quantityRule_total {op : ArithOp} {swap zeros : Bool} {u : Option (Quant ℚ)} {v : PintUnit ℚ} (hu : ∀ x, u = some x → Ordinary x) (hv : Ordinary ⟨1, v⟩)
    (hk : op = .mul ∨ op = .div ∨ kindOf u = v.dim) : ∃ x, quantityRule op swap zeros u v = .ok x := by
  have h1 := not_shifted hu
  have h2 : shiftedUnit (some v) = false := not_shifted (u := some ⟨1, v⟩) (by intro x hx; cases hx; exact hv)
  have key : ∀ A B, (A = u.map Quant.unit ∧ B = some v) ∨ (A = some v ∧ B = u.map Quant.unit) → ∃ x, pintArith op zeros A B = .ok x := by
    intro A B hAB
    have hA : shiftedUnit A = false ∧ shiftedUnit B = false := by
      rcases hAB with ⟨rfl, rfl⟩ | ⟨rfl, rfl⟩
      · exact ⟨h1, h2⟩
      · exact ⟨h2, h1⟩
    unfold pintArith
    rw [hA.1, hA.2, if_neg (by simp)]
    rcases hk with rfl | rfl | hk
    · exact ⟨_, rfl⟩
    · exact ⟨_, rfl⟩
    · have hs : ∀ o, ∃ x, pintSum o zeros A B = .ok x := by
        intro o
        cases u with
        | none =>
          have := (bare_sum (op := o) (zeros := zeros) (swap := true) hv.seven).1 hk.symm
          have := (bare_sum (op := o) (zeros := zeros) (swap := false) hv.seven).1 hk.symm
          rcases hAB with ⟨rfl, rfl⟩ | ⟨rfl, rfl⟩ <;> assumption
        | some u =>
          have hk' : u.unit.dim = v.dim := hk
          rcases hAB with ⟨rfl, rfl⟩ | ⟨rfl, rfl⟩
          · exact ⟨_, if_pos hk'⟩
          · exact ⟨_, if_pos hk'.symm⟩
      cases op
      · exact hs _
      · exact hs _
      · exact ⟨_, rfl⟩
      · exact ⟨_, rfl⟩
  unfold quantityRule
  cases swap with
  | true =>
    obtain ⟨x, hx⟩ := key (some v) (u.map Quant.unit) (Or.inr ⟨rfl, rfl⟩)
    rw [hx]
    exact ⟨_, rfl⟩
  | false =>
    obtain ⟨x, hx⟩ := key (u.map Quant.unit) (some v) (Or.inl ⟨rfl, rfl⟩)
    rw [hx]
    exact ⟨_, rfl⟩

theorem quantityRule_refused {op : ArithOp} {swap zeros : Bool} {u : Option (Quant ℚ)} {v : PintUnit ℚ} (hu : ∀ x, u = some x → Ordinary x) (hv : Ordinary ⟨1, v⟩)
    (hop : op = .add ∨ op = .sub) (hz : u = none → zeros = false) (hk : kindOf u ≠ v.dim) : quantityRule op swap zeros u v = .error .unitError := by
  have h1 := not_shifted hu
  have h2 : shiftedUnit (some v) = false := not_shifted (u := some ⟨1, v⟩) (by intro x hx; cases hx; exact hv)
  have key : ∀ A B, (A = u.map Quant.unit ∧ B = some v) ∨ (A = some v ∧ B = u.map Quant.unit) → pintArith op zeros A B = .error .unitError := by
    intro A B hAB
    have hA : shiftedUnit A = false ∧ shiftedUnit B = false := by
      rcases hAB with ⟨rfl, rfl⟩ | ⟨rfl, rfl⟩
      · exact ⟨h1, h2⟩
      · exact ⟨h2, h1⟩
    unfold pintArith
    rw [hA.1, hA.2, if_neg (by simp)]
    have hs : ∀ o, pintSum o zeros A B = .error .unitError := by
      intro o
      cases u with
      | none =>
        have := (bare_sum (op := o) (zeros := zeros) (swap := true) hv.seven).2 (hz rfl) (Ne.symm hk)
        have := (bare_sum (op := o) (zeros := zeros) (swap := false) hv.seven).2 (hz rfl) (Ne.symm hk)
        rcases hAB with ⟨rfl, rfl⟩ | ⟨rfl, rfl⟩ <;> assumption
      | some u =>
        have hk' : u.unit.dim ≠ v.dim := hk
        rcases hAB with ⟨rfl, rfl⟩ | ⟨rfl, rfl⟩
        · exact if_neg hk'
        · exact if_neg hk'.symm
    rcases hop with rfl | rfl <;> exact hs _
  unfold quantityRule
  cases swap with
  | true => rw [key (some v) (u.map Quant.unit) (Or.inr ⟨rfl, rfl⟩)]; rfl
  | false => rw [key (u.map Quant.unit) (some v) (Or.inl ⟨rfl, rfl⟩)]; rfl

/-- **C86.** Arithmetic with a quantity whose array fits always succeeds if it makes sense: products and quotients always do, sums and differences if both
measure the same. -/
theorem C86_quantity_total (op : ArithOp) (swap : Bool) (p : MPatch) (a : Nd ℚ) (v : PintUnit ℚ) (hp : Regular p.patch.cm) (hr : Readable p.patch.cm)
    (hpl : DimsListed p.patch.cm) (hpd : p.patch.cm.dims ≠ []) (hps : p.patch.cm.shape = p.patch.data.shape) (hl : a.shape.length ≤ p.patch.data.shape.length)
    (ha : ∀ k < a.shape.length, a.shape.getD k 0 = 1 ∨ a.shape.getD k 0 = p.patch.data.shape.getD (p.patch.data.shape.length - a.shape.length + k) 0)
    (hu : ∀ u, p.units = some u → Ordinary u) (hv : Ordinary ⟨1, v⟩) (hk : op = .mul ∨ op = .div ∨ kindOf p.units = v.dim) :
    ∃ r, p.withQuantity op swap a v = .ok r ∧ r.patch.data.shape = p.patch.data.shape := by
  obtain ⟨q, hq, _⟩ := fitTo_total hp hr hpl hpd hps hl ha
  obtain ⟨⟨f, w⟩, hf⟩ := quantityRule_total (swap := swap) (zeros := q.data.allZero) hu hv hk
  obtain ⟨out, ho, hs⟩ := C60_array_total f p.patch a hp hr hpl hpd hps hl ha
  refine ⟨⟨out, w, p.attrs⟩, ?_, hs⟩
  unfold MPatch.withQuantity
  rw [hq]
  simp only [bind, Except.bind]
  rw [hf]
  simp only
  rw [ho]
  rfl

/-- **C86.** Nothing is added to or subtracted from amounts of another kind (what is missing: a patch without units whose samples are all zero, see
`C86_zeros_violated`). -/
theorem C86_quantity_refused_partial (op : ArithOp) (hop : op = .add ∨ op = .sub) (swap : Bool) (p : MPatch) (a : Nd ℚ) (v : PintUnit ℚ)
    (hp : Regular p.patch.cm) (hr : Readable p.patch.cm)
    (hpl : DimsListed p.patch.cm) (hpd : p.patch.cm.dims ≠ []) (hps : p.patch.cm.shape = p.patch.data.shape) (hl : a.shape.length ≤ p.patch.data.shape.length)
    (ha : ∀ k < a.shape.length, a.shape.getD k 0 = 1 ∨ a.shape.getD k 0 = p.patch.data.shape.getD (p.patch.data.shape.length - a.shape.length + k) 0)
    (hu : ∀ u, p.units = some u → Ordinary u) (hv : Ordinary ⟨1, v⟩) (hz : p.units = none → ¬ AllZero p.patch.data) (hk : kindOf p.units ≠ v.dim) :
    p.withQuantity op swap a v = .error .unitError := by
  obtain ⟨q, hq, h0⟩ := fitTo_total hp hr hpl hpd hps hl ha
  unfold MPatch.withQuantity
  rw [hq]
  simp only [bind, Except.bind]
  rw [quantityRule_refused hu hv hop (fun hn => by
    cases hc : q.data.allZero with
    | false => rfl
    | true => exact absurd (h0 hc) (hz hn)) hk]

/-- **C86.** It does not matter in which units the same amounts are given: the data of the patch, or the quantity. The results hold the same amounts under
the same labels. -/
theorem C86_any_units_partial (op : ArithOp) (swap : Bool) (p p' r r' : MPatch) (a a' : Nd ℚ) (v v' : PintUnit ℚ) (hp : Regular p.patch.cm)
    (hpl : DimsListed p.patch.cm) (hpd : p.patch.cm.dims ≠ []) (hps : p.patch.cm.shape = p.patch.data.shape)
    (hu : ∀ u, p.units = some u → Ordinary u) (hu' : ∀ u, p'.units = some u → Ordinary u) (hv : Ordinary ⟨1, v⟩) (hv' : Ordinary ⟨1, v'⟩)
    (hz : op = .add ∨ op = .sub → p.units = none → ¬ AllZero p.patch.data ∧ 0 ∉ r.patch.data.shape)
    (hz' : op = .add ∨ op = .sub → p'.units = none → ¬ AllZero p'.patch.data ∧ 0 ∉ r'.patch.data.shape)
    (hs : SameResult p p') (ha : SameArray v v' a a')
    (h : p.withQuantity op swap a v = .ok r) (h' : p'.withQuantity op swap a' v' = .ok r') : SameResult r r' := by
  obtain ⟨f, hf, hc⟩ := C86_quantity_partial op swap p r a v hp hpl hpd hps hu hv hz h
  obtain ⟨f', hf', hc'⟩ := C86_quantity_partial op swap p' r' a' v' (hs.coords ▸ hp) (hs.coords ▸ hpl) (hs.coords ▸ hpd)
    (by rw [hs.coords, hs.shape, hps]) hu' hv' hz' h'
  have hsame : ∃ q q' : PatchM ℚ, p.patch.fitTo a.shape = .ok q ∧ p'.patch.fitTo a'.shape = .ok q' ∧ r.patch.cm = q.cm ∧ r'.patch.cm = q'.cm ∧
      r.patch.data.shape = q.cm.shape ∧ r'.patch.data.shape = q'.cm.shape := by
    unfold MPatch.withQuantity at h h'
    obtain ⟨q, hq, h⟩ := bind_split h
    obtain ⟨⟨g, w⟩, hg, h⟩ := bind_split h
    obtain ⟨out, ho, h⟩ := bind_split h
    cases h
    obtain ⟨q', hq', h'⟩ := bind_split h'
    obtain ⟨⟨g', w'⟩, hg', h'⟩ := bind_split h'
    obtain ⟨out', ho', h'⟩ := bind_split h'
    cases h'
    obtain ⟨x, sh, x1, x2, x3, rfl⟩ := withArray_split ho
    obtain ⟨y, sh', y1, y2, y3, rfl⟩ := withArray_split ho'
    rw [hq] at x1; cases x1
    rw [hq'] at y1; cases y1
    exact ⟨_, _, hq, hq', rfl, rfl, x3.symm, y3.symm⟩
  obtain ⟨q, q', hq, hq', e1, e2, e3, e4⟩ := hsame
  have hcm : q'.cm = q.cm := by
    unfold PatchM.fitTo at hq hq'
    rw [ha.shape, hs.shape] at hq'
    split_ifs at hq hq' with h1 h2
    · cases hq; cases hq'; exact hs.coords
    · unfold PatchM.broadcastTo at hq hq'
      rw [hs.coords] at hq'
      obtain ⟨t, ht, hq⟩ := bind_split hq
      obtain ⟨t', ht', hq'⟩ := bind_split hq'
      rw [ht] at ht'; cases ht'
      obtain ⟨k, hk, hq⟩ := bind_split hq
      obtain ⟨k', hk', hq'⟩ := bind_split hq'
      rw [hk] at hk'; cases hk'
      obtain ⟨m, hm, hq⟩ := bind_split hq
      obtain ⟨m', hm', hq'⟩ := bind_split hq'
      rw [hm] at hm'; cases hm'
      rw [(new_ok hq).1, (new_ok hq').1]
  have hkind : kindOf r'.units = kindOf r.units := by
    have h1 : kindOf p'.units = kindOf p.units := hs.kind
    have h2 : kindOf (some ⟨1, v'⟩) = kindOf (some ⟨1, v⟩) := ha.kind
    have uniq : ∀ {d e x y : List ℤ}, ResultKind op d e x → ResultKind op d e y → x = y := by
      intro d e x y hx hy
      cases op
      · exact hx.2.trans hy.2.symm
      · exact hx.2.trans hy.2.symm
      · refine List.ext_getElem (hx.1.trans hy.1.symm) fun k a1 a2 => ?_
        have b1 := hx.2 k (by rw [← hx.1]; exact a1)
        have b2 := hy.2 k (by rw [← hx.1]; exact a1)
        rw [← b2, List.getD_eq_getElem?_getD, List.getD_eq_getElem?_getD, List.getElem?_eq_getElem a1, List.getElem?_eq_getElem a2] at b1
        simpa using b1
      · refine List.ext_getElem (hx.1.trans hy.1.symm) fun k a1 a2 => ?_
        have b1 := hx.2 k (by rw [← hx.1]; exact a1)
        have b2 := hy.2 k (by rw [← hx.1]; exact a1)
        rw [← b2, List.getD_eq_getElem?_getD, List.getD_eq_getElem?_getD, List.getElem?_eq_getElem a1, List.getElem?_eq_getElem a2] at b1
        simpa using b1
    cases swap with
    | true =>
      simp only [if_true] at hc hc'
      have k1 := hc'.kind
      rw [h1, h2] at k1
      exact uniq k1 hc.kind
    | false =>
      simp only [Bool.false_eq_true, if_false] at hc hc'
      have k1 := hc'.kind
      rw [h1, h2] at k1
      exact uniq k1 hc.kind
  refine ⟨hkind, by rw [e4, e3, hcm], by rw [e2, e1, hcm], fun i hi => ?_⟩
  obtain ⟨d1, d2, d3⟩ := hf.data i hi
  obtain ⟨d1', d2', d3'⟩ := hf'.data i (by rw [e4, hcm, ← e3]; exact hi)
  rw [hs.shape] at d1' d3'
  rw [ha.shape] at d2' d3'
  have w1 := hs.worth _ d1
  have w2 : worth (some ⟨1, v'⟩) (a'.get (castTo a.shape i)) = worth (some ⟨1, v⟩) (a.get (castTo a.shape i)) := by
    have := ha.worth _ d2
    have h1 := worth_oneOf (u := v') hv'.fromZero (a'.get (castTo a.shape i))
    have h2 := worth_oneOf (u := v) hv.fromZero (a.get (castTo a.shape i))
    exact h1.trans (this.trans h2.symm)
  rw [d3, d3']
  cases swap with
  | true =>
    simp only [if_true] at hc hc'
    rw [hc'.value, hc.value, w1, w2]
  | false =>
    simp only [Bool.false_eq_true, if_false] at hc hc'
    rw [hc'.value, hc.value, w1, w2]

/-- **C86** for functions of one sample which keep proportions, such as the absolute value or the opposite (what is missing: all other functions, see
`C86_function_violated`). -/
theorem C86_function_partial (f : ℚ → ℚ) (p r : MPatch) (hu : ∀ u, p.units = some u → Ordinary u ∧ 0 < u.mag)
    (hf : ∀ c x, 0 < c → f (x * c) = f x * c) (h : p.unary f = .ok r) :
    r.units = p.units ∧ r.patch.cm = p.patch.cm ∧ r.patch.data.shape = p.patch.data.shape ∧
      ∀ i, worth r.units (r.patch.data.get i) = f (worth p.units (p.patch.data.get i)) := by
  unfold MPatch.unary at h
  obtain ⟨out, ho, h⟩ := bind_split h
  cases h
  obtain ⟨rfl, _⟩ := new_ok ho
  refine ⟨rfl, rfl, rfl, fun i => ?_⟩
  cases hp : p.units with
  | none => rfl
  | some u =>
    obtain ⟨h1, h2⟩ := hu u hp
    have h3 : u.unit.offset = 0 := h1.fromZero
    have hm : 0 < u.mag * u.unit.scale := mul_pos h2 h1.scale
    simp only [worth, amount, h3, add_zero, mul_assoc]
    exact (hf _ _ hm).symm

/-- **C86** for questions about one sample whose answer does not depend on the units, such as `np.isfinite` or whether it is positive: the answers have no units, and are those
about the amounts (what is missing: all other questions). -/
theorem C86_question_partial (f : ℚ → Bool) (p : MPatch) (r : BPatch) (hu : ∀ u, p.units = some u → Ordinary u ∧ 0 < u.mag)
    (hf : ∀ c x, 0 < c → f (x * c) = f x) (h : p.unaryBool f = .ok r) :
    r.units = none ∧ r.patch.cm = p.patch.cm ∧ r.patch.data.shape = p.patch.data.shape ∧
      ∀ i, r.patch.data.get i = f (worth p.units (p.patch.data.get i)) := by
  unfold MPatch.unaryBool at h
  obtain ⟨out, ho, h⟩ := bind_split h
  cases h
  obtain ⟨rfl, _⟩ := new_ok ho
  refine ⟨rfl, rfl, rfl, fun i => ?_⟩
  cases hp : p.units with
  | none => rfl
  | some u =>
    obtain ⟨h1, h2⟩ := hu u hp
    have h3 : u.unit.offset = 0 := h1.fromZero
    have hm : 0 < u.mag * u.unit.scale := mul_pos h2 h1.scale
    simp only [worth, amount, h3, add_zero, mul_assoc]
    exact (hf _ _ hm).symm

/-! ### Examples -/

/-- The samples of a patch as numbers with units. -/
def measured (p : PatchM ℕ) (units : Option (Quant ℚ)) : MPatch := ⟨⟨p.cm, p.data.shape, fun i => (p.data.get i : ℚ)⟩, units, [("station", "A")]⟩

/-- One number. -/
def number (x : ℚ) : Nd ℚ := ⟨[], fun _ => x⟩

def exSecond : Quant ℚ := ⟨1, ⟨"s", [0, 0, 1, 0, 0, 0, 0], 1, 0⟩⟩

theorem ordinary_length (n : String) (s : ℚ) (h : 0 < s) : Ordinary ⟨1, ⟨n, [1, 0, 0, 0, 0, 0, 0], s, 0⟩⟩ := ⟨one_ne_zero, h, rfl, rfl⟩

/-- Metres plus two kilometres; a kilometre divided by metres; metres times metres of another patch at the distances in common. -/
example : Ordinary exMetre ∧ Ordinary exKm ∧ Ordinary exSecond ∧ (∀ u, (measured exPatch (some exMetre)).units = some u → Ordinary u) ∧
    (∀ k < (number 2).shape.length, (number 2).shape.getD k 0 = 1) ∧ kindOf (some exMetre) = exKm.unit.dim ∧ kindOf (some exMetre) ≠ exSecond.unit.dim ∧
    ((measured exPatch (some exMetre)).withQuantity .add false (number 2) exKm.unit).map (fun r => (r.units, r.patch.data.get [1, 2])) =
      .ok (some exMetre, 2012) ∧
    ((measured exPatch (some exMetre)).withQuantity .div true (number 3) exKm.unit).map (fun r => (kindOf r.units, worth r.units (r.patch.data.get [1, 2]))) =
      .ok ([0, 0, 0, 0, 0, 0, 0], 250) ∧
    ((measured exPatch (some exMetre)).compareQuantity .gt false (number (11 / 1000)) exKm.unit).map (fun r => (r.units, r.patch.data.get [1, 2], r.patch.data.get [1, 1])) =
      .ok (none, true, false) ∧
    (MPatch.arith stableArgsort .mul (measured exPatch (some exMetre)) (measured exShots (some exMetre))).map
      (fun r => (kindOf r.units, r.patch.data.get [1, 1, 1])) = .ok ([2, 0, 0, 0, 0, 0, 0], 13 * 1100) ∧
    (MPatch.compare stableArgsort .lt (measured exPatch (some exMetre)) (measured exShots (some exMetre))).map
      (fun r => (r.units, r.patch.data.get [1, 1, 1])) = .ok (none, true) ∧
    Joinable (measured exPatch (some exMetre)).patch.cm (measured exShots (some exMetre)).patch.cm := by
  refine ⟨ordinary_length "m" 1 (by norm_num), ordinary_length "km" 1000 (by norm_num), ⟨one_ne_zero, show (0 : ℚ) < 1 by norm_num, rfl, rfl⟩, ?_, ?_,
    by decide +kernel, by decide +kernel, by decide +kernel, by decide +kernel, by decide +kernel, by decide +kernel, by decide +kernel, exShots_joinable⟩
  · intro u hu
    cases hu
    exact ordinary_length "m" 1 (by norm_num)
  · intro k hk
    exact absurd hk (Nat.not_lt_zero k)

/-- Two kilometres are two thousand metres. -/
example : SameArray exKm.unit exMetre.unit (number 2) (number 2000) := by
  refine ⟨rfl, rfl, fun i _ => ?_⟩
  show (2000 : ℚ) * 1 = 2 * 1000
  norm_num

/-- A patch in metres with the same amounts as one in kilometres. -/
example : SameResult ⟨⟨exPatch.cm, exPatch.data.shape, fun i => (exPatch.data.get i : ℚ)⟩, some exKm, []⟩
    ⟨⟨exPatch.cm, exPatch.data.shape, fun i => (exPatch.data.get i : ℚ) * 1000⟩, some exMetre, []⟩ := by
  refine ⟨rfl, rfl, rfl, fun i _ => ?_⟩
  simp [Spec.worth, amount, exMetre, exKm, exLength]

/-- The absolute value keeps proportions. -/
example : (∀ c x : ℚ, 0 < c → |x * c| = |x| * c) ∧
    ((measured exPatch (some exMetre)).unary (fun x => |x|)).map (fun r => (r.units, r.patch.data.get [1, 2])) = .ok (some exMetre, 12) := by
  refine ⟨fun c x hc => ?_, by decide +kernel⟩
  rw [abs_mul, abs_of_pos hc]

/-- **C86 violated** (powers): the square of a patch in metres has metres, that of a patch in kilometres has kilometres. The product of the patch with itself
has square metres. -/
theorem C86_power_violated :
    ((measured exPatch (some exMetre)).withNumbers (fun a b => a ^ b.num.toNat) (number 2)).map (fun r => (r.units, r.patch.data.get [1, 2])) = .ok (some exMetre, 144) ∧
    ((measured exPatch (some exKm)).withNumbers (fun a b => a ^ b.num.toNat) (number 2)).map (fun r => (worth r.units (r.patch.data.get [1, 2]))) = .ok 144000 ∧
    (MPatch.arith stableArgsort .mul (measured exPatch (some exMetre)) (measured exPatch (some exMetre))).map
      (fun r => (kindOf r.units, r.patch.data.get [1, 2])) = .ok ([2, 0, 0, 0, 0, 0, 0], 144) := by
  refine ⟨by decide +kernel, by decide +kernel, by decide +kernel⟩

example : (∀ c x : ℚ, 0 < c → decide (0 < x * c) = decide (0 < x)) ∧
    ((measured exPatch (some exKm)).unaryBool (fun x => decide (0 < x))).map (fun r => (r.units, r.patch.data.get [1, 2], r.patch.data.get [0, 0])) = .ok (none, true, false) :=
  ⟨fun c x hc => by simp only [decide_eq_decide]; exact ⟨fun h => pos_of_mul_pos_left h hc.le, fun h => mul_pos h hc⟩, by decide +kernel⟩

/-- **C86 violated** (functions that do not keep proportions): `np.reciprocal` of twelve seconds is a twelfth of a second. -/
theorem C86_function_violated :
    ((measured exPatch (some exSecond)).unary (fun x => 1 / x)).map (fun r => (r.units, r.patch.data.get [1, 2])) = .ok (some exSecond, 1 / 12) := by
  decide +kernel

/-- **C86 violated** (patches in different units): two patches in metres and kilometres can not be added, although the kilometres can be added as a quantity; and a patch
in metres can not be divided by one in seconds, although it can be divided by a quantity. -/
theorem C86_different_violated :
    (MPatch.arith stableArgsort .add (measured exPatch (some exMetre)) (measured exPatch (some exKm))).map (fun r => r.units) = .error .incompatiblePatch ∧
    ((measured exPatch (some exMetre)).withQuantity .add false ⟨[2, 4], (measured exPatch (some exKm)).patch.data.get⟩ exKm.unit).map
      (fun r => (r.units, r.patch.data.get [1, 2])) = .ok (some exMetre, 12012) ∧
    (MPatch.arith stableArgsort .div (measured exPatch (some exMetre)) (measured exPatch (some exSecond))).map (fun r => r.units) = .error .incompatiblePatch ∧
    ((measured exPatch (some exMetre)).withQuantity .div false (number 2) exSecond.unit).map (fun r => (kindOf r.units, r.patch.data.get [1, 2])) =
      .ok ([1, 0, -1, 0, 0, 0, 0], 6) := by
  refine ⟨by decide +kernel, by decide +kernel, by decide +kernel, by decide +kernel⟩

/-- **C86 violated** (refusals depend on the data): metres are not added to numbers without units, unless all of these are zero. -/
theorem C86_zeros_violated :
    ((measured exPatch none).withQuantity .add false (number 2) exMetre.unit).map (fun r => r.units) = .error .unitError ∧
    (({ measured exPatch none with patch := ⟨exPatch.cm, exPatch.data.shape, fun _ => 0⟩ } : MPatch).withQuantity .add false (number 2) exMetre.unit).map
      (fun r => (r.units, r.patch.data.get [1, 2])) = .ok (some exMetre, 2) := by
  refine ⟨by decide +kernel, by decide +kernel⟩

/-- **C86 violated** (numbers without units): two is added to twelve kilometres as two kilometres, and to the same amount in metres as two metres; the results are
different amounts. -/
theorem C86_number_violated :
    ((measured exPatch (some exKm)).withNumbers (· + ·) (number 2)).map (fun r => worth r.units (r.patch.data.get [1, 2])) = .ok 14000 ∧
    (({ measured exPatch (some exMetre) with patch := ⟨exPatch.cm, exPatch.data.shape, fun i => (exPatch.data.get i : ℚ) * 1000⟩ } : MPatch).withNumbers (· + ·) (number 2)).map
      (fun r => worth r.units (r.patch.data.get [1, 2])) = .ok 12002 := by
  refine ⟨by decide +kernel, by decide +kernel⟩

end Verif
