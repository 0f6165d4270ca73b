import Verif.Spec.Units
import Verif.Proof.Query
import Mathlib.Tactic.FieldSimp
import Mathlib.Tactic.LinearCombination
/-!
# Facts about units
-/
namespace Verif
open Spec

theorem bind_split {α β : Type} {x : Except Err α} {f : α → Except Err β} {b : β} (h : (x >>= f) = .ok b) : ∃ a, x = .ok a ∧ f a = .ok b := by
  cases x with
  | error e => cases h
  | ok a => exact ⟨a, rfl, h⟩

section
variable {K : Type} [Field K] [DecidableEq K]

omit [DecidableEq K] in
theorem amount_inj {u : Quant K} (hu : Usable u) {x y : K} (h : amount u x = amount u y) : x = y := by
  have h1 := hu.mag
  have h2 := hu.scale
  have h3 : (x - y) * (u.mag * u.unit.scale) = 0 := by simp only [amount] at h; linear_combination h
  rcases mul_eq_zero.1 h3 with h4 | h4
  · exact sub_eq_zero.1 h4
  · exact absurd h4 (mul_ne_zero h1 h2)

theorem factors_of {a b : Quant K} (hd : Comparable a b) (hb : b.mag ≠ 0) :
    conversionFactors a b = .ok ⟨a.unit.scale / b.unit.scale * a.mag, (a.unit.offset - b.unit.offset) / b.unit.scale, 1 / b.mag⟩ := by
  have hd' : a.unit.dim = b.unit.dim := hd
  simp only [conversionFactors, hd', if_true, hb, if_false]

omit [DecidableEq K] in
theorem use_amount {a b : Quant K} (hb : Usable b) (x : K) :
    amount b ((⟨a.unit.scale / b.unit.scale * a.mag, (a.unit.offset - b.unit.offset) / b.unit.scale, 1 / b.mag⟩ : Factors K).use x) = amount a x := by
  have h1 := hb.mag
  have h2 := hb.scale
  simp only [amount, Factors.use]
  field_simp
  ring

theorem factors_spec {a b : Quant K} (hb : b.unit.scale ≠ 0) {f : Factors K} (h : conversionFactors a b = .ok f) :
    Comparable a b ∧ Usable b ∧ ∀ x, amount b (f.use x) = amount a x := by
  simp only [conversionFactors] at h
  split at h
  case isFalse => cases h
  case isTrue hd =>
    split at h
    · cases h
    · next hm =>
      cases h
      exact ⟨hd, ⟨hm, hb⟩, fun x => use_amount ⟨hm, hb⟩ x⟩

omit [DecidableEq K] in
theorem sameAmounts_map {a b : Quant K} {f : K → K} (h : ∀ x, amount b (f x) = amount a x) (l : List K) : SameAmounts a b l (l.map f) := by
  induction l with
  | nil => exact .nil
  | cons x l ih => exact .cons (h x) ih

omit [DecidableEq K] in
theorem sameAmounts_refl (a : Quant K) (l : List K) : SameAmounts a a l l := by
  induction l with
  | nil => exact .nil
  | cons x l ih => exact .cons rfl ih

theorem convertArray_spec {l l' : List K} {a b : Quant K} (hb : b.unit.scale ≠ 0) (h : convertArray l (some b) (some a) = .ok l') :
    Comparable a b ∧ Usable b ∧ SameAmounts a b l l' := by
  simp only [convertArray] at h
  obtain ⟨f, h1, rfl⟩ := except_map_ok h
  obtain ⟨h2, h3, h4⟩ := factors_spec hb h1
  exact ⟨h2, h3, sameAmounts_map h4 l⟩

/-! ### The cache -/

/-- What every entry of a cache which has only seen units from zero is good for: converting between any units equal to its keys. -/
def FactorsOk (cache : FactorCache K) : Prop :=
  ∀ e ∈ cache, ∀ a b : Quant K, FromZero a → FromZero b → e.1.1.sameKey a = true → e.1.2.sameKey b = true →
    Comparable a b ∧ ∀ x, amount b (e.2.use x) = amount a x

theorem sameKey_iff {a b : Quant K} : a.sameKey b = true ↔ a.unit.dim = b.unit.dim ∧ a.base = b.base := by
  simp only [Quant.sameKey, Bool.and_eq_true, decide_eq_true_eq]

theorem entry_ok {s d a b : Quant K} {f : Factors K} (hs : FromZero s) (hd : FromZero d) (hds : d.unit.scale ≠ 0) (h : conversionFactors s d = .ok f)
    (ha : FromZero a) (hb : FromZero b) (h1 : s.sameKey a = true) (h2 : d.sameKey b = true) :
    Comparable a b ∧ ∀ x, amount b (f.use x) = amount a x := by
  obtain ⟨g1, g2, g3⟩ := factors_spec hds h
  rw [sameKey_iff] at h1 h2
  have g1' : s.unit.dim = d.unit.dim := g1
  refine ⟨?_, ?_⟩
  · show a.unit.dim = b.unit.dim
    rw [← h1.1, ← h2.1, g1']
  · intro x
    have h3 := g3 x
    have e1 := h1.2
    have e2 := h2.2
    simp only [Quant.base, FromZero] at *
    rw [hs, ha] at e1
    rw [hd, hb] at e2
    simp only [amount, hs, hd, ha, hb] at *
    linear_combination h3 + x * e1 - f.use x * e2

theorem cachedFactors_ok {cache : FactorCache K} (hc : FactorsOk cache) {s d : Quant K} (hs : FromZero s) (hd : FromZero d) (hds : d.unit.scale ≠ 0) :
    FactorsOk (cachedFactors cache s d).2 := by
  simp only [cachedFactors]
  split
  · exact hc
  · split
    · next f hf =>
      intro e he a b ha hb h1 h2
      rcases List.mem_append.1 he with h | h
      · exact hc e h a b ha hb h1 h2
      · rw [List.mem_singleton] at h
        subst h
        exact entry_ok hs hd hds hf ha hb h1 h2
    · exact hc

theorem cacheAfter_ok {calls : List (Quant K × Quant K)}
    (h : ∀ c ∈ calls, FromZero c.1 ∧ FromZero c.2 ∧ c.2.unit.scale ≠ 0) : FactorsOk (cacheAfter calls) := by
  simp only [cacheAfter]
  have key : ∀ (calls : List (Quant K × Quant K)) (cache : FactorCache K), FactorsOk cache →
      (∀ c ∈ calls, FromZero c.1 ∧ FromZero c.2 ∧ c.2.unit.scale ≠ 0) →
      FactorsOk (calls.foldl (fun cache c => (cachedFactors cache c.1 c.2).2) cache) := by
    intro calls
    induction calls with
    | nil => intro cache h1 _; exact h1
    | cons c calls ih =>
      intro cache h1 h2
      have h3 := h2 c (List.mem_cons_self ..)
      exact ih _ (cachedFactors_ok h1 h3.1 h3.2.1 h3.2.2) fun c' hc' => h2 c' (List.mem_cons_of_mem _ hc')
  exact key calls [] (fun e he => absurd he List.not_mem_nil) h

end

/-! ### Coordinates -/

theorem convertUnits_map {a b : Quant ℚ} {f : Factors ℚ} (h : conversionFactors a b = .ok f) (x : ℚ) : convertUnits x (some b) (some a) = .ok (f.use x) := by
  simp only [convertUnits, h, Except.map]

theorem range_labels {r : RangeCoord} (hv : r.Valid) : (Coord.range r).labels = (progression r.start r.step r.len).map some := by
  simp only [Coord.labels, hv.values_eq]

theorem convertRange_spec {c : UCoord} {r : RangeCoord} (hr : c.coord = .range r) (hv : r.Valid) {u a : Quant ℚ}
    (ha : a = c.units.getD u) (hd : Comparable a u) (hu : Usable u) (hau : Usable a) :
    ∃ c', c.convertRange r (some u) = .ok c' ∧ Relabeled a u c c' := by
  have main : ∃ g : ℚ → ℚ, (∃ m t : ℚ, m ≠ 0 ∧ ∀ x, g x = m * x + t) ∧ (∀ x, convertUnits x (some u) c.units = .ok (g x)) ∧ ∀ x, amount u (g x) = amount a x := by
    cases hcu : c.units with
    | none =>
      rw [hcu] at ha
      refine ⟨id, ⟨1, 0, one_ne_zero, fun x => by simp⟩, fun x => rfl, fun x => ?_⟩
      rw [ha]; rfl
    | some b =>
      rw [hcu] at ha
      have hab : a = b := ha
      subst hab
      refine ⟨_, ?_, fun x => convertUnits_map (factors_of hd hu.mag) x, fun x => use_amount hu x⟩
      refine ⟨a.unit.scale / u.unit.scale * a.mag * (1 / u.mag), (a.unit.offset - u.unit.offset) / u.unit.scale * (1 / u.mag), ?_, fun x => ?_⟩
      · have h1 := hu.mag; have h2 := hu.scale; have h3 := hau.mag; have h4 := hau.scale
        exact mul_ne_zero (mul_ne_zero (div_ne_zero h4 h2) h3) (one_div_ne_zero h1)
      · simp only [Factors.use]; ring
  obtain ⟨g, ⟨m, t, hm, hg⟩, h1, h2⟩ := main
  have hlen : (r.len : ℚ) ≠ 0 := by have := hv.len_pos; positivity
  have hstep : (g r.stop - g r.start) / r.len = m * r.step := by
    rw [hg, hg, hv.stop_eq]; field_simp; ring
  have hstop : g r.stop = g r.start + m * r.step * r.len := by rw [hg, hg, hv.stop_eq]; ring
  have hst : m * r.step ≠ 0 := mul_ne_zero hm hv.step_ne
  have hmk := mkRange_canonical (start := g r.start) (step := m * r.step) (n := r.len) hst hv.len_pos
  rw [← hstop] at hmk
  refine ⟨⟨.float, .range ⟨g r.start, g r.stop, m * r.step, r.len⟩, some u⟩, ?_, ?_⟩
  · simp only [UCoord.convertRange, h1, bind, Except.bind, hstep, hmk]; rfl
  · refine ⟨rfl, ⟨progression r.start r.step r.len, progression (g r.start) (m * r.step) r.len, ?_, ?_, ?_⟩, fun _ _ => ⟨_, rfl⟩⟩
    · rw [hr]; exact range_labels hv
    · exact range_labels (r := ⟨g r.start, g r.stop, m * r.step, r.len⟩) ⟨hst, hv.len_pos, hstop⟩
    · have : progression (g r.start) (m * r.step) r.len = (progression r.start r.step r.len).map g := by
        simp only [progression, List.map_map]
        apply List.map_congr_left
        intro i _
        simp only [Function.comp_apply, hg]; ring
      rw [this]
      exact sameAmounts_map h2 _

theorem storable_cases {k : Kind} {l : List ℚ} (hs : Storable l) : ∃ d, getCoordData k l = .ok d ∧ d.labels = l.map some := by
  obtain ⟨d, h1, h2, _⟩ := C14_represents_partial k l hs
  exact ⟨d, h1, h2⟩

theorem convertArr_spec {c : UCoord} {vs : List ℚ} (hr : c.coord = .mono vs ∨ c.coord = .arr vs) (hk : c.kind ≠ .time) {u a : Quant ℚ}
    (ha : a = c.units.getD u) (hd : Comparable a u) (hu : Usable u) (hs : LabelsFit a u c) :
    ∃ c', c.convertArr vs (some u) = .ok c' ∧ Relabeled a u c c' := by
  have hl : c.coord.labels = vs.map some := by rcases hr with h | h <;> rw [h] <;> rfl
  have hne : ∀ r, c.coord ≠ .range r := by intro r; rcases hr with h | h <;> rw [h] <;> intro hh <;> cases hh
  cases hcu : c.units with
  | none =>
    rw [hcu] at ha
    have hab : a = u := ha
    subst hab
    refine ⟨c.setLabeled (some a), by simp only [UCoord.convertArr, hcu], ?_, ⟨vs, vs, hl, hl, sameAmounts_refl _ _⟩, fun r h => absurd h (hne r)⟩
    simp only [UCoord.setLabeled, checkTimeUnits]
    split <;> simp_all
  | some b =>
    rw [hcu] at ha
    have hab : a = b := ha
    subst hab
    have h1 := factors_of hd hu.mag
    have h2 := sameAmounts_map (a := a) (b := u) (fun x => use_amount hu x) vs
    obtain ⟨d, h3, h4⟩ := storable_cases (k := .float) (hs vs hr _ h2)
    refine ⟨⟨.float, d, some u⟩, ?_, rfl, ⟨vs, _, hl, h4, h2⟩, fun r h => absurd h (hne r)⟩
    simp only [UCoord.convertArr, hcu, convertArray, h1, Except.map, bind, Except.bind, h3]; rfl

theorem convert_spec {c : UCoord} (hc : Numeric c) {u a : Quant ℚ} (ha : a = c.units.getD u) (hd : Comparable a u) (hu : Usable u) (hau : Usable a)
    (hs : LabelsFit a u c) : ∃ c', c.convert (some u) = .ok c' ∧ Relabeled a u c c' := by
  simp only [UCoord.convert]
  have hk := hc.number
  split
  · next r hr =>
    obtain ⟨h1, h2, h3⟩ := hc.valid r hr
    rw [if_neg hk]
    exact convertRange_spec hr ⟨h1, h2, h3⟩ ha hd hu hau
  · next vs hr => rw [if_neg hk]; exact convertArr_spec (.inl hr) hk ha hd hu hs
  · next vs hr => rw [if_neg hk]; exact convertArr_spec (.inr hr) hk ha hd hu hs
  · next n hr => exact absurd hr (hc.whole n)

theorem convert_refused {c : UCoord} (hc : Numeric c) {u a : Quant ℚ} (ha : c.units = some a) (hd : ¬ Comparable a u) : c.convert (some u) = .error .unitError := by
  have hf : conversionFactors a u = .error .unitError := by 
    simp only [conversionFactors]; rw [if_neg (show ¬ a.unit.dim = u.unit.dim from hd)]
  simp only [UCoord.convert]
  have hk := hc.number
  split
  · next r hr => rw [if_neg hk]; simp only [UCoord.convertRange, ha, convertUnits, hf, Except.map, bind, Except.bind]
  · next vs hr => rw [if_neg hk]; simp only [UCoord.convertArr, ha, convertArray, hf, Except.map, bind, Except.bind]
  · next vs hr => rw [if_neg hk]; simp only [UCoord.convertArr, ha, convertArray, hf, Except.map, bind, Except.bind]
  · next n hr => exact absurd hr (hc.whole n)

/-! ### Patches -/

theorem changeCoords_spec {f : UCoord → Option (Quant ℚ) → Except Err UCoord} :
    ∀ {kw : Dict (Option (Quant ℚ))} {m m' : Dict (List String × UCoord)}, kw.keys.Nodup → changeCoords f kw m = .ok m' →
      OnlyNamed kw.keys m m' ∧ m'.keys = m.keys ∧
        ∀ name u, Dict.get? kw name = some u → ∃ ds c c', m.get? name = some (ds, c) ∧ m'.get? name = some (ds, c') ∧ f c u = .ok c'
  | [], m, m', _, h => by
    simp only [changeCoords] at h
    cases h
    exact ⟨⟨fun _ _ => rfl, fun _ => rfl⟩, rfl, fun name u hu => by rw [Dict.get?_nil] at hu; cases hu⟩
  | (nm, u0) :: kw, m, m', hn, h => by
    simp only [changeCoords] at h
    split at h
    case h_1 => cases h
    case h_2 ds c hc =>
      obtain ⟨c', hf, h⟩ := bind_split h
      have hn' : nm ∉ Dict.keys kw ∧ (Dict.keys kw).Nodup := by simpa [Dict.keys] using hn
      obtain ⟨⟨h1, h2⟩, hk, h3⟩ := changeCoords_spec hn'.2 h
      have hmem : nm ∈ m.keys := by
        by_contra hh
        rw [← Dict.get?_eq_none] at hh
        rw [hh] at hc; cases hc
      refine ⟨⟨?_, ?_⟩, ?_, ?_⟩
      · intro name hname
        have hname' : name ≠ nm ∧ name ∉ Dict.keys kw := by simpa [Dict.keys] using hname
        rw [h1 name hname'.2, Dict.get?_set, if_neg hname'.1]
      · intro name
        rw [h2 name, Dict.get?_set]
        split
        · next e => subst e; rw [hc]; rfl
        · rfl
      · rw [hk]
        rw [Dict.keys_set, if_pos hmem]
      · intro name u hu
        rw [Dict.get?_cons] at hu
        split at hu
        · next e =>
          cases hu
          subst e
          refine ⟨ds, c, c', hc, ?_, hf⟩
          rw [h1 nm hn'.1, Dict.get?_set, if_pos rfl]
        · next e =>
          obtain ⟨ds', a, a', g1, g2, g3⟩ := h3 name u hu
          rw [Dict.get?_set, if_neg (fun e' => e e'.symm)] at g1
          exact ⟨ds', a, a', g1, g2, g3⟩

theorem changeCoords_total {f : UCoord → Option (Quant ℚ) → Except Err UCoord} :
    ∀ {kw : Dict (Option (Quant ℚ))} {m : Dict (List String × UCoord)}, kw.keys.Nodup →
      (∀ name u, Dict.get? kw name = some u → ∃ ds c c', m.get? name = some (ds, c) ∧ f c u = .ok c') → ∃ m', changeCoords f kw m = .ok m'
  | [], m, _, _ => ⟨m, rfl⟩
  | (nm, u0) :: kw, m, hn, h => by
    have hn' : nm ∉ Dict.keys kw ∧ (Dict.keys kw).Nodup := by simpa [Dict.keys] using hn
    obtain ⟨ds, c, c', h1, h2⟩ := h nm u0 (by rw [Dict.get?_cons, if_pos rfl])
    simp only [changeCoords, h1, h2, bind, Except.bind]
    apply changeCoords_total hn'.2
    intro name u hu
    have hne : nm ≠ name := by
      intro e
      subst e
      rw [Dict.get?_eq_none.2 hn'.1] at hu; cases hu
    obtain ⟨ds', a, a', g1, g2⟩ := h name u (by rw [Dict.get?_cons, if_neg hne]; exact hu)
    exact ⟨ds', a, a', by rw [Dict.get?_set, if_neg hne.symm]; exact g1, g2⟩

theorem simplifyCoords_spec : ∀ {m m' : Dict (List String × UCoord)}, simplifyCoords m = .ok m' →
    m'.keys = m.keys ∧ ∀ name ds c, m.get? name = some (ds, c) → ∃ c', m'.get? name = some (ds, c') ∧ c.simplify = .ok c'
  | [], m', h => by
    simp only [simplifyCoords] at h
    cases h
    exact ⟨rfl, fun name ds c hu => by rw [Dict.get?_nil] at hu; cases hu⟩
  | (nm, ds0, c0) :: m, m', h => by
    simp only [simplifyCoords] at h
    obtain ⟨c', hf, h⟩ := bind_split h
    obtain ⟨m1, hm, h⟩ := bind_split h
    cases h
    obtain ⟨h1, h2⟩ := simplifyCoords_spec hm
    refine ⟨by simp only [Dict.keys, List.map_cons] at *; rw [h1], ?_⟩
    intro name ds c hu
    rw [Dict.get?_cons] at hu ⊢
    split at hu
    · next e =>
      cases hu
      exact ⟨c', by rw [if_pos e], hf⟩
    · next e =>
      obtain ⟨a, g1, g2⟩ := h2 name ds c hu
      exact ⟨a, by rw [if_neg e]; exact g1, g2⟩

theorem simplifyCoords_total : ∀ {m : Dict (List String × UCoord)}, (∀ p ∈ m, ∃ c', p.2.2.simplify = .ok c') → ∃ m', simplifyCoords m = .ok m'
  | [], _ => ⟨[], rfl⟩
  | (nm, ds0, c0) :: m, h => by
    obtain ⟨c', h1⟩ := h (nm, ds0, c0) (List.mem_cons_self ..)
    obtain ⟨m', h2⟩ := simplifyCoords_total fun p hp => h p (List.mem_cons_of_mem _ hp)
    exact ⟨(nm, ds0, c') :: m', by simp only [simplifyCoords]; rw [h1, h2]; rfl⟩

end Verif
