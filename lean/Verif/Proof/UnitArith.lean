import Verif.Spec.UnitArith
import Verif.Proof.Units
import Verif.Proof.ArithArray
import Mathlib.Tactic.FieldSimp
import Mathlib.Tactic.Ring
/-! # Proofs about arithmetic with units -/
namespace Verif
open Spec

/-- The unit itself, as a quantity. -/
def oneOf (u : PintUnit ℚ) : Quant ℚ := ⟨1, u⟩

theorem oneOf_ordinary {u : Quant ℚ} (h : Ordinary u) : Ordinary (oneOf u.unit) := ⟨one_ne_zero, h.scale, h.fromZero, h.seven⟩

theorem unit_zero {u : PintUnit ℚ} (h : Ordinary (oneOf u)) : u.offset = 0 := h.fromZero

theorem unit_seven {u : PintUnit ℚ} (h : Ordinary (oneOf u)) : u.dim.length = 7 := h.seven

theorem unit_pos {u : PintUnit ℚ} (h : Ordinary (oneOf u)) : 0 < u.scale := h.scale

theorem worth_one {u : Option (Quant ℚ)} (a : ℚ) : worth u a = worth (u.map fun q => oneOf q.unit) (a * factorOf u) := by
  cases u with
  | none => simp [worth, factorOf]
  | some u => simp [worth, factorOf, amount, oneOf]

theorem kind_one (u : Option (Quant ℚ)) : kindOf (u.map fun q => oneOf q.unit) = kindOf u := by
  cases u <;> rfl

theorem dim_zero {u : PintUnit ℚ} (h7 : u.dim.length = 7) (h : u.dimensionless = true) : u.dim = [0, 0, 0, 0, 0, 0, 0] := by
  unfold PintUnit.dimensionless at h
  rw [List.all_eq_true] at h
  rw [show ([0, 0, 0, 0, 0, 0, 0] : List ℤ) = List.replicate 7 0 from rfl, List.eq_replicate_iff]
  exact ⟨h7, fun b hb => by simpa using h b hb⟩

theorem attr_kind {u : PintUnit ℚ} (h7 : u.dim.length = 7) : kindOf (unitAttr (some u)) = u.dim := by
  unfold unitAttr
  simp only
  split_ifs with h
  · rw [Bool.and_eq_true] at h
    rw [dim_zero h7 h.1]; rfl
  · rfl

theorem attr_worth {u : PintUnit ℚ} (h0 : u.offset = 0) (x : ℚ) : worth (unitAttr (some u)) x = x * u.scale := by
  unfold unitAttr
  simp only
  split_ifs with h
  · rw [Bool.and_eq_true, decide_eq_true_iff] at h
    rw [h.2]; simp [worth]
  · simp [worth, amount, h0]

theorem worth_oneOf {u : PintUnit ℚ} (h0 : u.offset = 0) (x : ℚ) : worth (some (oneOf u)) x = x * u.scale := by
  simp [worth, amount, oneOf, h0]

theorem zipWith_getD {d e : List ℤ} (f : ℤ → ℤ → ℤ) (hd : d.length = 7) (he : e.length = 7) {k : ℕ} (hk : k < 7) :
    (List.zipWith f d e).getD k 0 = f (d.getD k 0) (e.getD k 0) := by
  simp [List.getD_eq_getElem?_getD, List.getElem?_zipWith, List.getElem?_eq_getElem (show k < d.length by omega),
    List.getElem?_eq_getElem (show k < e.length by omega)]

theorem zeros_getD (k : ℕ) : ([0, 0, 0, 0, 0, 0, 0] : List ℤ).getD k 0 = 0 := by
  rw [show ([0, 0, 0, 0, 0, 0, 0] : List ℤ) = List.replicate 7 0 from rfl, List.getD_eq_getElem?_getD, List.getElem?_replicate]
  split_ifs <;> rfl

/-- The core: sums of pint. -/
theorem pintSum_spec {op : ArithOp} (hop : op = .add ∨ op = .sub) {zeros : Bool} {u v w : Option (PintUnit ℚ)} {f : ℚ → ℚ → ℚ}
    (hu : ∀ x, u = some x → Ordinary (oneOf x)) (hv : ∀ x, v = some x → Ordinary (oneOf x))
    (hz : u = none ∨ v = none → zeros = false) (h : pintSum op zeros u v = .ok (f, w)) :
    Computes op (u.map oneOf) (v.map oneOf) (unitAttr w) f := by
  have hk : ∀ d e r : List ℤ, d = e → r = d → ResultKind op d e r := by
    rintro d e r rfl rfl
    rcases hop with rfl | rfl <;> exact ⟨rfl, rfl⟩
  have plain : worth (unitAttr (some PintUnit.plain)) = id := by
    funext x
    rw [attr_worth rfl]
    simp [PintUnit.plain]
  cases u with
  | none =>
    cases v with
    | none =>
      cases h
      exact ⟨hk _ _ _ rfl rfl, fun a b => by rcases hop with rfl | rfl <;> rfl⟩
    | some v =>
      have hz' := hz (Or.inl rfl)
      have ho := hv v rfl
      unfold pintSum pintSumBare at h
      rw [hz'] at h
      simp only [Bool.false_eq_true, if_false] at h
      split_ifs at h with h1
      cases h
      have hd : v.dim = [0, 0, 0, 0, 0, 0, 0] := dim_zero (unit_seven ho) h1
      refine ⟨hk _ _ _ hd.symm ?_, fun a b => ?_⟩
      · rw [attr_kind rfl]; rfl
      · rw [plain, Option.map_none, Option.map_some, worth_oneOf (unit_zero ho)]
        rcases hop with rfl | rfl <;> rfl
  | some u =>
    have ho := hu u rfl
    cases v with
    | none =>
      have hz' := hz (Or.inr rfl)
      unfold pintSum pintSumBare at h
      rw [hz'] at h
      simp only [Bool.false_eq_true, if_false, if_true] at h
      split_ifs at h with h1
      cases h
      have hd : u.dim = [0, 0, 0, 0, 0, 0, 0] := dim_zero (unit_seven ho) h1
      refine ⟨hk _ _ _ hd ?_, fun a b => ?_⟩
      · rw [attr_kind rfl]; exact hd.symm
      · rw [plain, Option.map_none, Option.map_some, worth_oneOf (unit_zero ho)]
        rcases hop with rfl | rfl <;> rfl
    | some v =>
      have ho' := hv v rfl
      unfold pintSum at h
      simp only at h
      split_ifs at h with h1
      cases h
      have hs : u.scale ≠ 0 := ne_of_gt ho.scale
      refine ⟨hk _ _ _ h1 (attr_kind (unit_seven ho)), fun a b => ?_⟩
      rw [attr_worth (unit_zero ho), Option.map_some, Option.map_some, worth_oneOf (unit_zero ho), worth_oneOf (unit_zero ho')]
      rcases hop with rfl | rfl
      · show (a + b * v.scale / u.scale) * u.scale = a * u.scale + b * v.scale
        field_simp
      · show (a - b * v.scale / u.scale) * u.scale = a * u.scale - b * v.scale
        field_simp

/-- The core: arithmetic of pint. -/
theorem pintArith_spec {op : ArithOp} {zeros : Bool} {u v w : Option (PintUnit ℚ)} {f : ℚ → ℚ → ℚ}
    (hu : ∀ x, u = some x → Ordinary (oneOf x)) (hv : ∀ x, v = some x → Ordinary (oneOf x))
    (hz : op = .add ∨ op = .sub → u = none ∨ v = none → zeros = false) (h : pintArith op zeros u v = .ok (f, w)) :
    Computes op (u.map oneOf) (v.map oneOf) (unitAttr w) f := by
  unfold pintArith at h
  rw [if_neg (by
    unfold shiftedUnit
    intro hh
    rw [Bool.or_eq_true] at hh
    rcases hh with hh | hh
    · cases u with
      | none => simp at hh
      | some u => exact absurd (hu u rfl).fromZero (by simpa [oneOf, FromZero] using hh)
    · cases v with
      | none => simp at hh
      | some v => exact absurd (hv v rfl).fromZero (by simpa [oneOf, FromZero] using hh))] at h
  cases op with
  | add => exact pintSum_spec (Or.inl rfl) hu hv (hz (Or.inl rfl)) h
  | sub => exact pintSum_spec (Or.inr rfl) hu hv (hz (Or.inr rfl)) h
  | mul =>
    cases h
    cases u with
    | none =>
      cases v with
      | none => exact ⟨⟨rfl, fun k _ => by rw [Option.map_none, kindOf, show kindOf (unitAttr (pintProduct none none)) = [0,0,0,0,0,0,0] from rfl, zeros_getD]; rfl⟩, fun a b => rfl⟩
      | some v =>
        have ho := hv v rfl
        refine ⟨⟨?_, fun k hk => ?_⟩, fun a b => ?_⟩
        · show (kindOf (unitAttr (some v))).length = 7
          rw [attr_kind (unit_seven ho)]; exact (unit_seven ho)
        · show (kindOf (unitAttr (some v))).getD k 0 = ([0, 0, 0, 0, 0, 0, 0] : List ℤ).getD k 0 + v.dim.getD k 0
          rw [attr_kind (unit_seven ho), zeros_getD, zero_add]
        · show worth (unitAttr (some v)) (a * b) = a * worth (some (oneOf v)) b
          rw [attr_worth (unit_zero ho), worth_oneOf (unit_zero ho), mul_assoc]
    | some u =>
      have ho := hu u rfl
      cases v with
      | none =>
        refine ⟨⟨?_, fun k hk => ?_⟩, fun a b => ?_⟩
        · show (kindOf (unitAttr (some u))).length = 7
          rw [attr_kind (unit_seven ho)]; exact (unit_seven ho)
        · show (kindOf (unitAttr (some u))).getD k 0 = u.dim.getD k 0 + ([0, 0, 0, 0, 0, 0, 0] : List ℤ).getD k 0
          rw [attr_kind (unit_seven ho), zeros_getD, add_zero]
        · show worth (unitAttr (some u)) (a * b) = worth (some (oneOf u)) a * b
          rw [attr_worth (unit_zero ho), worth_oneOf (unit_zero ho)]; ring
      | some v =>
        have ho' := hv v rfl
        have h7 : (u.times v).dim.length = 7 := by
          have h1 : u.dim.length = 7 := (unit_seven ho)
          have h2 : v.dim.length = 7 := (unit_seven ho')
          simp [PintUnit.times, h1, h2]
        refine ⟨⟨?_, fun k hk => ?_⟩, fun a b => ?_⟩
        · show (kindOf (unitAttr (some (u.times v)))).length = 7
          rw [attr_kind h7]; exact h7
        · show (kindOf (unitAttr (some (u.times v)))).getD k 0 = u.dim.getD k 0 + v.dim.getD k 0
          rw [attr_kind h7]
          exact zipWith_getD _ (unit_seven ho) (unit_seven ho') hk
        · show worth (unitAttr (some (u.times v))) (a * b) = worth (some (oneOf u)) a * worth (some (oneOf v)) b
          rw [attr_worth rfl, worth_oneOf (unit_zero ho), worth_oneOf (unit_zero ho')]
          show a * b * (u.scale * v.scale) = _
          ring
  | div =>
    cases h
    cases v with
    | none =>
      cases u with
      | none => exact ⟨⟨rfl, fun k _ => by rw [Option.map_none, kindOf, show kindOf (unitAttr (pintQuotient none none)) = [0,0,0,0,0,0,0] from rfl, zeros_getD]; rfl⟩, fun a b => rfl⟩
      | some u =>
        have ho := hu u rfl
        refine ⟨⟨?_, fun k hk => ?_⟩, fun a b => ?_⟩
        · show (kindOf (unitAttr (some u))).length = 7
          rw [attr_kind (unit_seven ho)]; exact (unit_seven ho)
        · show (kindOf (unitAttr (some u))).getD k 0 = u.dim.getD k 0 - ([0, 0, 0, 0, 0, 0, 0] : List ℤ).getD k 0
          rw [attr_kind (unit_seven ho), zeros_getD, sub_zero]
        · show worth (unitAttr (some u)) (a / b) = worth (some (oneOf u)) a / b
          rw [attr_worth (unit_zero ho), worth_oneOf (unit_zero ho)]; ring
    | some v =>
      have ho' := hv v rfl
      have hs : v.scale ≠ 0 := ne_of_gt ho'.scale
      cases u with
      | none =>
        have h7 : ((PintUnit.plain : PintUnit ℚ).per v).dim.length = 7 := by
          have h2 : v.dim.length = 7 := (unit_seven ho')
          simp [PintUnit.per, PintUnit.plain, h2]
        refine ⟨⟨?_, fun k hk => ?_⟩, fun a b => ?_⟩
        · show (kindOf (unitAttr (some (PintUnit.plain.per v)))).length = 7
          rw [attr_kind h7]; exact h7
        · show (kindOf (unitAttr (some (PintUnit.plain.per v)))).getD k 0 = ([0, 0, 0, 0, 0, 0, 0] : List ℤ).getD k 0 - v.dim.getD k 0
          rw [attr_kind h7]
          exact zipWith_getD _ rfl (unit_seven ho') hk
        · show worth (unitAttr (some (PintUnit.plain.per v))) (a / b) = a / worth (some (oneOf v)) b
          rw [attr_worth rfl, worth_oneOf (unit_zero ho')]
          show a / b * (1 / v.scale) = _
          rw [div_mul_div_comm, mul_one]
      | some u =>
        have ho := hu u rfl
        have h7 : (u.per v).dim.length = 7 := by
          have h1 : u.dim.length = 7 := (unit_seven ho)
          have h2 : v.dim.length = 7 := (unit_seven ho')
          simp [PintUnit.per, h1, h2]
        refine ⟨⟨?_, fun k hk => ?_⟩, fun a b => ?_⟩
        · show (kindOf (unitAttr (some (u.per v)))).length = 7
          rw [attr_kind h7]; exact h7
        · show (kindOf (unitAttr (some (u.per v)))).getD k 0 = u.dim.getD k 0 - v.dim.getD k 0
          rw [attr_kind h7]
          exact zipWith_getD _ (unit_seven ho) (unit_seven ho') hk
        · show worth (unitAttr (some (u.per v))) (a / b) = worth (some (oneOf u)) a / worth (some (oneOf v)) b
          rw [attr_worth rfl, worth_oneOf (unit_zero ho), worth_oneOf (unit_zero ho')]
          show a / b * (u.scale / v.scale) = _
          rw [div_mul_div_comm]

theorem run_holds (op : CompOp) (a b : ℚ) : op.run a b = true ↔ holds op a b := by
  cases op <;> simp [CompOp.run, holds]

theorem holds_scale (op : CompOp) {a b s : ℚ} (hs : 0 < s) : holds op (a * s) (b * s) ↔ holds op a b := by
  cases op
  · exact mul_lt_mul_iff_left₀ hs
  · exact mul_le_mul_iff_left₀ hs
  · exact mul_lt_mul_iff_left₀ hs
  · exact mul_le_mul_iff_left₀ hs

/-- The core: comparisons of pint. -/
theorem pintCompare_spec {op : CompOp} {zeros : Bool} {u v : Option (PintUnit ℚ)} {f : ℚ → ℚ → Bool}
    (hu : ∀ x, u = some x → Ordinary (oneOf x)) (hv : ∀ x, v = some x → Ordinary (oneOf x))
    (hz : u = none ∨ v = none → zeros = false) (h : pintCompare op zeros u v = .ok f) :
    Compares op (u.map oneOf) (v.map oneOf) f := by
  unfold pintCompare at h
  rw [if_neg (by
    unfold shiftedUnit
    intro hh
    rw [Bool.or_eq_true] at hh
    rcases hh with hh | hh
    · cases u with
      | none => simp at hh
      | some u => exact absurd (hu u rfl).fromZero (by simpa [oneOf, FromZero] using hh)
    · cases v with
      | none => simp at hh
      | some v => exact absurd (hv v rfl).fromZero (by simpa [oneOf, FromZero] using hh))] at h
  cases u with
  | none =>
    cases v with
    | none => cases h; exact ⟨rfl, fun a b => run_holds op a b⟩
    | some v =>
      have ho := hv v rfl
      have hs : v.scale ≠ 0 := ne_of_gt ho.scale
      simp only [hz (Or.inl rfl), Bool.false_eq_true, if_false] at h
      split_ifs at h with h1
      cases h
      refine ⟨(dim_zero (unit_seven ho) h1).symm, fun a b => ?_⟩
      rw [run_holds, Option.map_some, Option.map_none, worth_oneOf (unit_zero ho), ← holds_scale op (unit_pos ho)]
      show holds op (a / v.scale * v.scale) _ ↔ holds op a (b * v.scale)
      rw [div_mul_cancel₀ _ hs]
  | some u =>
    have ho := hu u rfl
    have hs : u.scale ≠ 0 := ne_of_gt ho.scale
    cases v with
    | none =>
      simp only [hz (Or.inr rfl), Bool.false_eq_true, if_false] at h
      split_ifs at h with h1
      cases h
      refine ⟨dim_zero (unit_seven ho) h1, fun a b => ?_⟩
      rw [run_holds, Option.map_some, Option.map_none, worth_oneOf (unit_zero ho), ← holds_scale op (unit_pos ho)]
      show holds op (a * u.scale) (b / u.scale * u.scale) ↔ holds op (a * u.scale) b
      rw [div_mul_cancel₀ _ hs]
    | some v =>
      have ho' := hv v rfl
      simp only at h
      split_ifs at h with h1
      cases h
      refine ⟨h1, fun a b => ?_⟩
      rw [run_holds, Option.map_some, Option.map_some, worth_oneOf (unit_zero ho), worth_oneOf (unit_zero ho'), ← holds_scale op (unit_pos ho)]
      show holds op (a * u.scale) (b * v.scale / u.scale * u.scale) ↔ _
      rw [div_mul_cancel₀ _ hs]

/-- The units of a patch, with their factor. -/
theorem computes_factor {op : ArithOp} {u v : Option (Quant ℚ)} {w : Option (Quant ℚ)} {f : ℚ → ℚ → ℚ}
    (h : Computes op (u.map fun q => oneOf q.unit) (v.map fun q => oneOf q.unit) w f) :
    Computes op u v w fun a b => f (a * factorOf u) (b * factorOf v) := by
  refine ⟨?_, fun a b => ?_⟩
  · have := h.kind
    rwa [kind_one, kind_one] at this
  · rw [h.value, ← worth_one, ← worth_one]

theorem compares_factor {op : CompOp} {u v : Option (Quant ℚ)} {f : ℚ → ℚ → Bool}
    (h : Compares op (u.map fun q => oneOf q.unit) (v.map fun q => oneOf q.unit) f) :
    Compares op u v fun a b => f (a * factorOf u) (b * factorOf v) := by
  refine ⟨?_, fun a b => ?_⟩
  · have := h.kind
    rwa [kind_one, kind_one] at this
  · rw [h.value, ← worth_one, ← worth_one]

theorem ordinary_units {u : Option (Quant ℚ)} (hu : ∀ x, u = some x → Ordinary x) :
    ∀ x, u.map Quant.unit = some x → Ordinary (oneOf x) := by
  intro x hx
  cases u with
  | none => cases hx
  | some u => cases hx; exact oneOf_ordinary (hu u rfl)

theorem quantityRule_spec {op : ArithOp} {swap zeros : Bool} {u : Option (Quant ℚ)} {v : PintUnit ℚ} {f : ℚ → ℚ → ℚ} {w : Option (Quant ℚ)}
    (hu : ∀ x, u = some x → Ordinary x) (hv : Ordinary ⟨1, v⟩) (hz : op = .add ∨ op = .sub → u = none → zeros = false)
    (h : quantityRule op swap zeros u v = .ok (f, w)) :
    if swap then Computes op (some ⟨1, v⟩) u w (fun b a => f a b) else Computes op u (some ⟨1, v⟩) w f := by
  have hv' : ∀ x, some v = some x → Ordinary (oneOf x) := by
    intro x hx; cases hx; exact hv
  unfold quantityRule at h
  cases swap with
  | true =>
    simp only [if_true] at h ⊢
    obtain ⟨⟨g, w'⟩, hg, he⟩ := except_map_ok h
    injection he with h1 h2
    subst h1 h2
    have := pintArith_spec hv' (ordinary_units hu) (fun ho hn => hz ho (by
      rcases hn with hn | hn
      · cases hn
      · cases u with
        | none => rfl
        | some u => cases hn)) hg
    have := computes_factor (u := some ⟨1, v⟩) (v := u) (f := g) (w := unitAttr w') (by rwa [Option.map_map] at this)
    refine ⟨this.kind, fun a b => ?_⟩
    rw [← this.value]
    show _ = worth _ (g (a * 1) _)
    rw [mul_one]
  | false =>
    simp only [Bool.false_eq_true, if_false] at h ⊢
    obtain ⟨⟨g, w'⟩, hg, he⟩ := except_map_ok h
    injection he with h1 h2
    subst h1 h2
    have := pintArith_spec (ordinary_units hu) hv' (fun ho hn => hz ho (by
      rcases hn with hn | hn
      · cases u with
        | none => rfl
        | some u => cases hn
      · cases hn)) hg
    have := computes_factor (u := u) (v := some ⟨1, v⟩) (f := g) (w := unitAttr w') (by rwa [Option.map_map] at this)
    refine ⟨this.kind, fun a b => ?_⟩
    rw [← this.value]
    show _ = worth _ (g _ (b * 1))
    rw [mul_one]

theorem quantityCompare_spec {op : CompOp} {swap zeros : Bool} {u : Option (Quant ℚ)} {v : PintUnit ℚ} {f : ℚ → ℚ → Bool}
    (hu : ∀ x, u = some x → Ordinary x) (hv : Ordinary ⟨1, v⟩) (hz : u = none → zeros = false)
    (h : quantityCompare op swap zeros u v = .ok f) :
    if swap then Compares op (some ⟨1, v⟩) u (fun b a => f a b) else Compares op u (some ⟨1, v⟩) f := by
  have hv' : ∀ x, some v = some x → Ordinary (oneOf x) := by
    intro x hx; cases hx; exact hv
  unfold quantityCompare at h
  cases swap with
  | true =>
    simp only [if_true] at h ⊢
    obtain ⟨g, hg, he⟩ := except_map_ok h
    subst he
    have := pintCompare_spec hv' (ordinary_units hu) (fun hn => hz (by
      rcases hn with hn | hn
      · cases hn
      · cases u with
        | none => rfl
        | some u => cases hn)) hg
    have := compares_factor (u := some ⟨1, v⟩) (v := u) (f := g) (by rwa [Option.map_map] at this)
    refine ⟨this.kind, fun a b => ?_⟩
    rw [← this.value]
    show g a _ = true ↔ g (a * 1) _ = true
    rw [mul_one]
  | false =>
    simp only [Bool.false_eq_true, if_false] at h ⊢
    obtain ⟨g, hg, he⟩ := except_map_ok h
    subst he
    have := pintCompare_spec (ordinary_units hu) hv' (fun hn => hz (by
      rcases hn with hn | hn
      · cases u with
        | none => rfl
        | some u => cases hn
      · cases hn)) hg
    have := compares_factor (u := u) (v := some ⟨1, v⟩) (f := g) (by rwa [Option.map_map] at this)
    refine ⟨this.kind, fun a b => ?_⟩
    rw [← this.value]
    show g _ b = true ↔ g _ (b * 1) = true
    rw [mul_one]

end Verif
