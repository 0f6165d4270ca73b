import Verif.Model.Fourier
import Verif.Proof.Aggregate
import Verif.Proof.Dasdae
import Verif.Proof.Pad
/-! # Coordinates of Fourier transforms -/
namespace Verif
open Spec

theorem canon_fixed {c x : MCoord} (h : c.canon = .ok x) : x.canon = .ok x := by
  cases c with
  | nd a => cases h; rfl
  | one k c =>
    cases c with
    | range r => cases h; rfl
    | part n => cases h; rfl
    | mono vs =>
      obtain ⟨d, h1, rfl⟩ := except_map_ok h
      exact getCoordData_fixed h1
    | arr vs =>
      obtain ⟨d, h1, rfl⟩ := except_map_ok h
      exact getCoordData_fixed h1

/-- When coordinates can be put together. -/
theorem getCoordManager_total {coords : Dict CArg} {dims : List String} (hk : coords.keys.Nodup) (len : String → ℕ)
    (h : ∀ name a, coords.get? name = some a → ∃ ds c x, argOf name a = some (ds, c) ∧ c.canon = .ok x ∧ (∀ d ∈ ds, d ∈ dims) ∧
      (name ∈ dims → ds = [name]) ∧ (ds = [] ∨ ds.map len = c.shape))
    (hd : ∀ d ∈ dims, d ∈ coords.keys) :
    ∃ m', getCoordManager coords dims = .ok m' ∧ m'.dims = dims ∧ m'.ents.keys = coords.keys ∧
      ∀ name a ds c, coords.get? name = some a → argOf name a = some (ds, c) → ∃ x, c.canon = .ok x ∧ m'.ents.get? name = some (ds, x) := by
  obtain ⟨e, he, hek, heg⟩ := coordDimMap_total (dims := dims) hk fun name a ha => by
    obtain ⟨ds, c, x, h1, h2, h3, _⟩ := h name a ha
    exact ⟨ds, c, x, h1, h2, h3⟩
  refine ⟨⟨dims, e⟩, ?_, rfl, hek, heg⟩
  unfold getCoordManager
  simp only [bind, Except.bind, he]
  have hget : ∀ name v, Dict.get? e name = some v → (∀ d ∈ v.1, d ∈ dims) ∧ (name ∈ dims → v.1 = [name]) ∧ (v.1 = [] ∨ v.1.map len = v.2.shape) := by
    intro name v hv
    obtain ⟨a, ha⟩ := Dict.mem_keys.1 (by rw [← hek]; exact Dict.mem_keys.2 ⟨_, hv⟩ : name ∈ coords.keys)
    obtain ⟨ds, c, x, h1, h2, h3, h4, h5⟩ := h name a ha
    obtain ⟨x', w1, w2⟩ := heg name a ds c ha h1
    rw [hv] at w2; cases w2
    rw [(canon_same w1).1]
    exact ⟨h3, h4, h5⟩
  have hown : ∀ d ∈ dims, ∃ c, Dict.get? e d = some ([d], c) := by
    intro d hdm
    obtain ⟨v, hv⟩ := Dict.mem_keys.1 (by rw [hek]; exact hd d hdm : d ∈ Dict.keys e)
    have := (hget d v hv).2.1 hdm
    exact ⟨v.2, by rw [hv, ← this]⟩
  have hlen : ∀ d ∈ dims, Ents.lenOf e d = len d := by
    intro d hdm
    obtain ⟨c, hc⟩ := hown d hdm
    have := (hget d _ hc).2.2
    simp only [List.cons_ne_self, List.map_cons, List.map_nil, false_or] at this
    unfold Ents.lenOf
    rw [hc]
    simp only [MCoord.len]
    rw [← this]; rfl
  refine CM.mk?_of hown ?_
  rintro ⟨name, v⟩ hp
  obtain ⟨g1, _, g3⟩ := hget name v (Dict.get?_of_mem (by rw [hek]; exact hk) hp)
  refine ⟨g1, g3.imp_right fun h => ?_⟩
  rw [← h]
  exact List.map_congr_left fun d hd => hlen d (g1 d hd)

/-- A name without `_min`, `_max` or `_step` in it. -/
def Suffixless (s : String) : Prop := matchesPrefixSuffix [] s = false

theorem suffixless_plain {s : String} (h : Suffixless s) (dims : List String) : matchesPrefixSuffix dims s = false := by
  cases dims with
  | nil => exact h
  | cons d ds =>
    unfold Suffixless matchesPrefixSuffix at h
    simp only [List.isEmpty_nil, if_true] at h
    unfold matchesPrefixSuffix
    simp only [List.isEmpty_cons, Bool.false_eq_true, if_false]
    rw [List.any_eq_false]
    intro x _
    rw [Bool.and_eq_true, not_and]
    intro _ hc
    rw [List.any_eq_true] at hc
    obtain ⟨t, ht, hc⟩ := hc
    rw [List.any_eq_true] at hc
    obtain ⟨r, hr, hc⟩ := hc
    rw [List.any_eq_false] at h
    apply h t ht
    rw [List.any_eq_true]
    refine ⟨r, ?_, hc⟩
    rw [List.mem_tails] at hr ⊢
    exact hr.trans (List.drop_suffix _ _)

/-- What disassociating dimensions does. -/
structure Disassociated (m m' : CM) (D : List String) : Prop where
  wf : WellFormed m'
  dims : m'.dims = m.dims.filter (· ∉ D)
  named : ∀ d ∈ D, ∀ ds c, m.ents.get? d = some (ds, c) → ∃ x, c.canon = .ok x ∧ m'.ents.get? d = some ([], x)
  kept : ∀ n ∉ D, ∀ ds c, m.ents.get? n = some (ds, c) → (∀ d ∈ ds, d ∉ D) → ∃ x, c.canon = .ok x ∧ m'.ents.get? n = some (ds, x)
  lost : ∀ n ∉ D, ∀ ds c, m.ents.get? n = some (ds, c) → (∃ d ∈ ds, d ∈ D) → m'.ents.get? n = none
  none : ∀ n, m.ents.get? n = none → m'.ents.get? n = none

theorem keys_pairs {α} (D : List String) (f : String → α) : Dict.keys (D.map fun d => (d, f d)) = D := by
  unfold Dict.keys; rw [List.map_map]; exact List.map_id _

theorem get?_pairs {α} {D : List String} (f : String → α) (d : String) :
    Dict.get? (D.map fun d => (d, f d)) d = if d ∈ D then some (f d) else none := by
  induction D with
  | nil => rfl
  | cons e D ih =>
    rw [List.map_cons, Dict.get?_cons, ih]
    by_cases h : e = d
    · subst h; simp
    · simp [h, Ne.symm h]

theorem disassociate_spec {m : CM} (hw : WellFormed m) (hr : Readable m) {D : List String} (hn : D.Nodup) (hD : ∀ d ∈ D, d ∈ m.dims)
    (hs : ∀ d ∈ D, Suffixless d) : ∃ m', m.disassociate D = .ok m' ∧ Disassociated m m' D := by
  have hc : ∀ d ∈ D, ∃ v, m.ents.get? d = some v := fun d hd => by
    obtain ⟨c, _, h, _⟩ := CM.WellFormed.get_dim hw (hD d hd); exact ⟨_, h⟩
  let cd : String → MCoord := fun d => ((m.ents.get? d).map Prod.snd).getD (.one .float (.part 0))
  have hcd : ∀ d ∈ D, m.ents.get? d = some ([d], cd d) := by
    intro d hd
    obtain ⟨c, _, h, _⟩ := CM.WellFormed.get_dim hw (hD d hd)
    simp only [cd, h]; rfl
  let kw : Dict CArg := D.map fun d => (d, CArg.nested [] (cd d))
  have hmap : D.dedup.mapM (fun n => (CM.disArg m.ents n).map fun a => (n, a)) = .ok kw := by
    rw [List.dedup_eq_self.2 hn]
    apply mapM_ok'
    intro d hd
    unfold CM.disArg
    rw [hcd d hd]
    rfl
  obtain ⟨m1, h1, hd1⟩ := dropCoords_spec hw D
  have hw1 : WellFormed m1 := (CM.dropCoords_wf h1 hw).1
  have hkk : Dict.keys kw = D := keys_pairs D _
  have hkn : (Dict.keys kw).Nodup := by rw [hkk]; exact hn
  have hkg : ∀ n, Dict.get? kw n = if n ∈ D then some (CArg.nested [] (cd n)) else Option.none := fun n => get?_pairs _ n
  have hm1 : ∀ n ds c, m1.ents.get? n = some (ds, c) → m.ents.get? n = some (ds, c) := by
    intro n ds c h
    cases hm : m.ents.get? n with
    | none => rw [hd1.none n hm] at h; cases h
    | some v =>
      obtain ⟨ds', c'⟩ := v
      by_cases hb : n ∈ D ∨ ∃ d ∈ ds', d ∈ D
      · rw [hd1.gone n ds' c' hm hb] at h; cases h
      · push Not at hb
        rw [hd1.kept n ds' c' hm hb.1 hb.2] at h
        exact h
  have hpl : ∀ name ∈ Dict.keys kw, matchesPrefixSuffix m1.dims name = false := by
    rw [hkk]; exact fun n hn => suffixless_plain (hs n hn) _
  have hnd : ∀ n ∈ D, n ∉ m1.dims := by
    intro n hnD
    rw [hd1.dims, List.mem_filter]
    simp [hnD]
  obtain ⟨m', h2⟩ := update_total hw1 hkn hpl (by
    intro name a ha
    rw [hkg] at ha
    split_ifs at ha with hin
    cases ha
    obtain ⟨x, hx⟩ := hr name _ _ (hcd name hin)
    exact ⟨[], cd name, x, rfl, hx, by simp, fun h => absurd h (hnd name hin), Or.inl rfl⟩) (by
    intro n ds c h
    exact hr n ds c (hm1 n ds c h))
  have hU := update_spec hw1 hkn hpl h2
  have hdrop : dropNames kw = [] := by
    unfold dropNames
    rw [List.map_eq_nil_iff, List.filter_eq_nil_iff]
    rintro ⟨n, a⟩ hp
    obtain ⟨d, _, he⟩ := List.mem_map.1 hp
    cases he
    simp [CArg.isDrop]
  have hres : ∀ d, ¬ Resized m1 kw d := by
    rintro d ⟨hd, a, _, _, _, _, h3, _⟩
    rw [hkg] at h3
    split_ifs at h3 with hin
    exact hnd d hin hd
  refine ⟨m', ?_, ?_⟩
  · unfold CM.disassociate
    simp only [bind, Except.bind, hmap, h1, h2]
  refine ⟨(CM.update_wf h2 hw1 hkn).1, ?_, ?_, ?_, ?_, ?_⟩
  · rw [hU.dims, hdrop]
    have : (kw.filter fun p => ((argOf p.1 p.2).map Prod.fst == some [p.1]) && !m1.dims.contains p.1) = [] := by
      rw [List.filter_eq_nil_iff]
      rintro ⟨n, a⟩ hp
      obtain ⟨d, _, he⟩ := List.mem_map.1 hp
      cases he
      simp [argOf]
    rw [this]
    simp [hd1.dims]
  · intro d hd ds c h
    rw [hcd d hd] at h; cases h
    exact hU.givenC d _ [] (cd d) (by rw [hkg, if_pos hd]) rfl
  · intro n hnD ds c h hds
    exact hU.keptC n ds c (by rw [hkg, if_neg hnD]) (hd1.kept n ds c h hnD hds) fun d _ => ⟨by rw [hdrop]; simp, hres d⟩
  · intro n hnD ds c h hds
    exact hU.none n (by rw [hkg, if_neg hnD]) (hd1.gone n ds c h (Or.inr hds))
  · intro n h
    have hnD : n ∉ D := fun hc' => by obtain ⟨v, hv⟩ := hc n hc'; rw [h] at hv; cases hv
    exact hU.none n (by rw [hkg, if_neg hnD]) (hd1.none n h)

/-! ### Names -/

theorem ftName_eq {d : String} (h : ¬ "ift_".toList <+: d.toList) : ftName d = "ft_" ++ d := by
  unfold ftName
  rw [if_neg]
  rwa [List.isPrefixOf_iff_prefix]

theorem iftName_ft (d : String) : iftName ("ft_" ++ d) = d := by
  unfold iftName
  rw [if_pos]
  · rw [String.toList_append, show (3 : ℕ) = "ft_".toList.length from rfl, List.drop_left]
    exact String.ofList_toList
  · rw [String.toList_append, List.isPrefixOf_iff_prefix]
    exact List.prefix_append _ _

theorem unpaddedName_inj {a b : String} (h : unpaddedName a = unpaddedName b) : a = b := by
  unfold unpaddedName at h
  have := congrArg String.toList h
  simp only [String.toList_append, List.append_assoc, List.append_right_inj] at this
  exact String.toList_injective (List.append_cancel_right this)

theorem ft_inj {a b : String} (h : "ft_" ++ a = "ft_" ++ b) : a = b := by
  have := congrArg String.toList h
  simp only [String.toList_append, List.append_right_inj] at this
  exact String.toList_injective this

theorem ft_ne_unpadded (a b : String) : "ft_" ++ a ≠ unpaddedName b := by
  intro h
  unfold unpaddedName at h
  have := congrArg String.toList h
  simp only [String.toList_append, List.append_assoc] at this
  have h0 := congrArg (fun l => l.head?) this
  exact absurd h0 (by
    show some 'f' ≠ some '_'
    decide)

/-! ### The coordinates of the transform -/

/-- The frequencies of `n` samples with spacing `dx`. -/
def freqRange (n : ℕ) (dx : ℚ) (real : Bool) : RangeCoord :=
  let df := 1 / (n * dx)
  let s := if real then 0 else -((n / 2 : ℕ) : ℚ) * df
  let len := if real then n / 2 + 1 else n
  ⟨s, s + df * (len : ℕ), df, len⟩

theorem freqCoord_eq {n : ℕ} {dx : ℚ} (hn : 1 ≤ n) (hdx : dx ≠ 0) (real : Bool) : freqCoord n dx real = .ok (.range (freqRange n dx real)) := by
  have hn0 : (n : ℚ) ≠ 0 := by have : n ≠ 0 := by omega
                               exact_mod_cast this
  have hp : (n : ℚ) * dx ≠ 0 := mul_ne_zero hn0 hdx
  unfold freqCoord
  rw [if_neg hp]
  have hdf : 1 / ((n : ℚ) * dx) ≠ 0 := one_div_ne_zero hp
  cases real with
  | true =>
    simp only [if_true]
    have e : ((n / 2 + 1 : ℕ) : ℚ) * (1 / (n * dx)) = 0 + 1 / (n * dx) * ((n / 2 + 1 : ℕ) : ℚ) := by ring
    rw [e, mkRange_canonical hdf (by omega)]
    rfl
  | false =>
    simp only [Bool.false_eq_true, if_false]
    have e : (((n - 1) / 2 + 1 : ℕ) : ℚ) * (1 / (n * dx)) = -((n / 2 : ℕ) : ℚ) * (1 / (n * dx)) + 1 / (n * dx) * (n : ℕ) := by
      have h : (((n - 1) / 2 + 1 : ℕ) : ℚ) = (n : ℚ) - (n / 2 : ℕ) := by
        rw [eq_sub_iff_add_eq]
        have : (n - 1) / 2 + 1 + n / 2 = n := by omega
        exact_mod_cast this
      rw [h]; ring
    rw [e, mkRange_canonical hdf hn]
    rfl

theorem freqRange_valid {n : ℕ} {dx : ℚ} (hn : 1 ≤ n) (hdx : dx ≠ 0) (real : Bool) : (freqRange n dx real).Valid := by
  have hn0 : (n : ℚ) ≠ 0 := by have : n ≠ 0 := by omega
                               exact_mod_cast this
  refine ⟨one_div_ne_zero (mul_ne_zero hn0 hdx), ?_, rfl⟩
  cases real
  · exact hn
  · show 1 ≤ n / 2 + 1; omega

/-- The step of a dimension as a number. -/
def dxOf (m : CM) (d : String) : ℚ :=
  match m.ents.get? d with
  | some (_, .one k (.range r)) => stepFloat k r.step
  | _ => 0

/-- The dimensions `D` can be transformed. -/
structure FtReady (m : CM) (D : List String) : Prop where
  nodup : D.Nodup
  dims : ∀ d ∈ D, d ∈ m.dims
  even : ∀ d ∈ D, ∃ k r, m.ents.get? d = some ([d], .one k (.range r)) ∧ r.Valid
  fwd : ∀ d ∈ D, ftName d = "ft_" ++ d
  ftFree : ∀ d ∈ D, m.ents.get? ("ft_" ++ d) = none
  unFree : ∀ d ∈ D, m.ents.get? (unpaddedName d) = none
  plain : ∀ d ∈ D, Suffixless d ∧ Suffixless ("ft_" ++ d)

/-- The coordinates of a transform. -/
structure Spectrum (m q : CM) (orig : Option CM) (real : Option String) (D : List String) : Prop where
  wf : WellFormed q
  stored : ∀ n ds c, q.ents.get? n = some (ds, c) → c.canon = .ok c
  dims : q.dims = m.dims.map fun d => if d ∈ D then "ft_" ++ d else d
  ft : ∀ d ∈ D, q.ents.get? ("ft_" ++ d) =
    some (["ft_" ++ d], .one .float (.range (freqRange (m.ents.lenOf d) (dxOf m d) (decide (real = some d)))))
  old : ∀ d ∈ D, ∀ c, m.ents.get? d = some ([d], c) → q.ents.get? d = some ([], c)
  unp : ∀ o, orig = some o → ∀ d ∈ D, ∀ ds c, o.ents.get? d = some (ds, c) → q.ents.get? (unpaddedName d) = some ([], c)
  kept : ∀ n ∉ D, ∀ ds c, m.ents.get? n = some (ds, c) → (∀ d ∈ ds, d ∉ D) → ∃ x, c.canon = .ok x ∧ q.ents.get? n = some (ds, x)
  lost : ∀ n ∉ D, ∀ ds c, m.ents.get? n = some (ds, c) → (∃ d ∈ ds, d ∈ D) → q.ents.get? n = none
  none : ∀ n, m.ents.get? n = none → (∀ d ∈ D, n ≠ "ft_" ++ d) → (∀ o, orig = some o → ∀ d ∈ D, n ≠ unpaddedName d) → q.ents.get? n = none

theorem stepFloat_ne {k : Kind} {s : ℚ} (h : s ≠ 0) : stepFloat k s ≠ 0 := by
  cases k <;> simp [stepFloat, h]

/-- What is stored for one dimension. -/
def newArgs (m : CM) (orig : Option CM) (real : Option String) (d : String) : Dict CArg :=
  ("ft_" ++ d, .nested ["ft_" ++ d] (.one .float (.range (freqRange (m.ents.lenOf d) (dxOf m d) (decide (real = some d)))))) ::
    match orig with
    | none => []
    | some o => match o.ents.get? d with
      | some (_, oc) => [(unpaddedName d, .nested [] oc)]
      | none => []

theorem mem_newArgs {m : CM} {orig : Option CM} {real : Option String} {d n : String} {a : CArg} (h : (n, a) ∈ newArgs m orig real d) :
    (n = "ft_" ++ d ∧ a = .nested ["ft_" ++ d] (.one .float (.range (freqRange (m.ents.lenOf d) (dxOf m d) (decide (real = some d)))))) ∨
    (n = unpaddedName d ∧ ∃ o ds oc, orig = some o ∧ o.ents.get? d = some (ds, oc) ∧ a = .nested [] oc) := by
  unfold newArgs at h
  rw [List.mem_cons] at h
  rcases h with h | h
  · left; cases h; exact ⟨rfl, rfl⟩
  · right
    cases orig with
    | none => cases h
    | some o =>
      simp only at h
      cases ho : o.ents.get? d with
      | none => rw [ho] at h; cases h
      | some v =>
        rw [ho] at h
        simp only [List.mem_singleton, Prod.mk.injEq] at h
        exact ⟨h.1, o, v.1, v.2, rfl, ho, h.2⟩

theorem newArgs_keys {m : CM} {orig : Option CM} {real : Option String} {D : List String} (hn : D.Nodup) :
    (Dict.keys (D.flatMap (newArgs m orig real))).Nodup := by
  induction D with
  | nil => exact List.nodup_nil
  | cons d D ih =>
    rw [List.nodup_cons] at hn
    rw [List.flatMap_cons]
    unfold Dict.keys
    rw [List.map_append, List.nodup_append]
    refine ⟨?_, ih hn.2, ?_⟩
    · unfold newArgs
      cases orig with
      | none => simp
      | some o =>
        simp only
        cases o.ents.get? d with
        | none => simp
        | some v => simp [ft_ne_unpadded]
    · intro a ha b hb hab
      subst hab
      obtain ⟨⟨n, x⟩, hx, rfl⟩ := List.mem_map.1 ha
      obtain ⟨⟨n', y⟩, hy, he⟩ := List.mem_map.1 hb
      simp only at he
      subst he
      obtain ⟨e, he, hy⟩ := List.mem_flatMap.1 hy
      have hne : d ≠ e := fun h => hn.1 (h ▸ he)
      rcases mem_newArgs hx with ⟨h1, _⟩ | ⟨h1, _⟩ <;> rcases mem_newArgs hy with ⟨h2, _⟩ | ⟨h2, _⟩
      · exact hne (ft_inj (h1.symm.trans h2))
      · exact ft_ne_unpadded _ _ (h1.symm.trans h2)
      · exact ft_ne_unpadded _ _ (h2.symm.trans h1)
      · exact hne (unpaddedName_inj (h1.symm.trans h2))

theorem dftCoords_spec {m : CM} (hw : WellFormed m) (hr : Readable m) {D : List String} (hD : FtReady m D) {orig : Option CM}
    (ho : ∀ o, orig = some o → ∀ d ∈ D, ∃ ds x, o.ents.get? d = some (ds, x) ∧ x.canon = .ok x) (real : Option String) :
    ∃ q, dftCoords m orig real D (D.map (dxOf m)) = .ok q ∧ Spectrum m q orig real D := by
  obtain ⟨old, h1, hold⟩ := disassociate_spec hw hr hD.nodup hD.dims fun d hd => (hD.plain d hd).1
  have hlen : ∀ d ∈ D, 1 ≤ m.ents.lenOf d ∧ dxOf m d ≠ 0 := by
    intro d hd
    obtain ⟨k, r, h, hv⟩ := hD.even d hd
    unfold Ents.lenOf dxOf
    rw [h]
    refine ⟨?_, stepFloat_ne hv.step_ne⟩
    show 1 ≤ (Coord.range r).length
    have := hv.len_pos
    show 1 ≤ r.len
    omega
  have hnew : (D.zip (D.map (dxOf m))).mapM (fun x => freqArgs m orig real x.1 x.2) = .ok (D.map (newArgs m orig real)) := by
    have : D.zip (D.map (dxOf m)) = D.map fun d => (d, dxOf m d) := by
      conv_lhs => rw [show D.zip (D.map (dxOf m)) = (D.map id).zip (D.map (dxOf m)) by rw [List.map_id]]
      rw [List.zip_map']
      rfl
    rw [this]
    have key := mapM_ok' (fun x : String × ℚ => freqArgs m orig real x.1 x.2) (fun x => newArgs m orig real x.1) (D.map fun d => (d, dxOf m d)) (by
      intro x hx
      obtain ⟨d, hd, rfl⟩ := List.mem_map.1 hx
      obtain ⟨hl, hdx⟩ := hlen d hd
      unfold freqArgs
      simp only [freqCoord_eq hl hdx, bind, Except.bind, hD.fwd d hd]
      unfold newArgs
      cases orig with
      | none => rfl
      | some o =>
        obtain ⟨ds, x, hx, _⟩ := ho o rfl d hd
        simp only [hx]
        rfl)
    rw [key, List.map_map]
    rfl
  have hflat : (D.map (newArgs m orig real)).flatten = D.flatMap (newArgs m orig real) := rfl
  set new := D.flatMap (newArgs m orig real) with hnewdef
  have hnk : (Dict.keys new).Nodup := newArgs_keys hD.nodup
  set coords := (CM.nested old.ents).update new with hcoords
  set dims := m.dims.map fun d => if d ∈ D then "ft_" ++ d else d with hdims
  have hdims' : (m.dims.map fun d => if d ∈ D then ftName d else d) = dims := by
    rw [hdims]
    apply List.map_congr_left
    intro d _
    split_ifs with h
    · exact hD.fwd d h
    · rfl
  have hck : (Dict.keys coords).Nodup := by
    apply Dict.nodup_update
    rw [CM.nested_keys]
    exact hold.wf.names
  have hget : ∀ n, Dict.get? coords n = (Dict.get? new n).or (Dict.get? (CM.nested old.ents) n) := fun n => Dict.get?_update _ _ hnk n
  have hnewft : ∀ d ∈ D, Dict.get? new ("ft_" ++ d) = some (.nested ["ft_" ++ d]
      (.one .float (.range (freqRange (m.ents.lenOf d) (dxOf m d) (decide (real = some d)))))) := by
    intro d hd
    apply Dict.get?_of_mem hnk
    exact List.mem_flatMap.2 ⟨d, hd, List.mem_cons_self ..⟩
  have hnewun : ∀ o, orig = some o → ∀ d ∈ D, ∀ ds c, o.ents.get? d = some (ds, c) → Dict.get? new (unpaddedName d) = some (.nested [] c) := by
    intro o ho' d hd ds c hc
    apply Dict.get?_of_mem hnk
    refine List.mem_flatMap.2 ⟨d, hd, List.mem_cons_of_mem _ ?_⟩
    rw [ho']
    simp only [hc, List.mem_singleton]
  have hnewno : ∀ n, (∀ d ∈ D, n ≠ "ft_" ++ d) → (∀ o, orig = some o → ∀ d ∈ D, n ≠ unpaddedName d) → Dict.get? new n = none := by
    intro n h1 h2
    cases h : Dict.get? new n with
    | none => rfl
    | some a =>
      obtain ⟨d, hd, hm⟩ := List.mem_flatMap.1 (Dict.mem_of_get? h)
      rcases mem_newArgs hm with ⟨h3, _⟩ | ⟨h3, o, _, _, h4, _⟩
      · exact absurd h3 (h1 d hd)
      · exact absurd h3 (h2 o h4 d hd)
  have hmnot : ∀ n v, m.ents.get? n = some v → (∀ d ∈ D, n ≠ "ft_" ++ d) ∧ ∀ d ∈ D, n ≠ unpaddedName d := by
    intro n v hv
    refine ⟨fun d hd he => ?_, fun d hd he => ?_⟩
    · rw [he, hD.ftFree d hd] at hv; cases hv
    · rw [he, hD.unFree d hd] at hv; cases hv
  have holdget : ∀ n ds c, old.ents.get? n = some (ds, c) → c.canon = .ok c ∧ (n ∈ D ∧ ds = [] ∨
      n ∉ D ∧ (∀ d ∈ ds, d ∉ D) ∧ ∃ c', m.ents.get? n = some (ds, c') ∧ c'.canon = .ok c) := by
    intro n ds c hc
    cases hm : m.ents.get? n with
    | none => rw [hold.none n hm] at hc; cases hc
    | some v =>
      obtain ⟨ds', c'⟩ := v
      by_cases hn : n ∈ D
      · obtain ⟨x, h3, h4⟩ := hold.named n hn ds' c' hm
        rw [hc] at h4; cases h4
        exact ⟨canon_fixed h3, Or.inl ⟨hn, rfl⟩⟩
      · by_cases hl : ∃ d ∈ ds', d ∈ D
        · rw [hold.lost n hn ds' c' hm hl] at hc; cases hc
        · push Not at hl
          obtain ⟨x, h3, h4⟩ := hold.kept n hn ds' c' hm hl
          rw [hc] at h4; cases h4
          exact ⟨canon_fixed h3, Or.inr ⟨hn, hl, c', rfl, h3⟩⟩
  have hmd : ∀ d ∈ m.dims, (d ∈ D → "ft_" ++ d ∈ dims) ∧ (d ∉ D → d ∈ dims) := by
    intro d hd
    refine ⟨fun h => List.mem_map.2 ⟨d, hd, if_pos h⟩, fun h => List.mem_map.2 ⟨d, hd, if_neg h⟩⟩
  have hdm : ∀ e ∈ dims, (∃ d ∈ D, e = "ft_" ++ d) ∨ (e ∈ m.dims ∧ e ∉ D) := by
    intro e he
    obtain ⟨d, hd, h⟩ := List.mem_map.1 he
    split_ifs at h with hdD
    · exact Or.inl ⟨d, hdD, h.symm⟩
    · subst h; exact Or.inr ⟨hd, hdD⟩
  let len : String → ℕ := fun e => if h : ∃ d ∈ D, e = "ft_" ++ d then
    (freqRange (m.ents.lenOf h.choose) (dxOf m h.choose) (decide (real = some h.choose))).len else m.ents.lenOf e
  have hlenft : ∀ d ∈ D, len ("ft_" ++ d) = (freqRange (m.ents.lenOf d) (dxOf m d) (decide (real = some d))).len := by
    intro d hd
    have h : ∃ e ∈ D, "ft_" ++ d = "ft_" ++ e := ⟨d, hd, rfl⟩
    have he : h.choose = d := (ft_inj h.choose_spec.2).symm
    simp only [len]
    rw [dif_pos h, he]
  have hlenm : ∀ e ∈ m.dims, e ∉ D → len e = m.ents.lenOf e := by
    intro e he _
    simp only [len]
    rw [dif_neg]
    rintro ⟨d, hd, rfl⟩
    obtain ⟨c, _, h, _⟩ := CM.WellFormed.get_dim hw he
    rw [hD.ftFree d hd] at h; cases h
  obtain ⟨q, hq, hqd, hqk, hqg⟩ := getCoordManager_total hck (dims := dims) len (by
    intro n a ha
    rw [hget] at ha
    cases hn : Dict.get? new n with
    | some a' =>
      rw [hn] at ha; cases ha
      obtain ⟨d, hd, hm⟩ := List.mem_flatMap.1 (Dict.mem_of_get? hn)
      rcases mem_newArgs hm with ⟨rfl, rfl⟩ | ⟨rfl, o, ds, oc, h4, h5, rfl⟩
      · refine ⟨_, _, _, rfl, rfl, ?_, fun _ => rfl, Or.inr ?_⟩
        · intro e he
          rw [List.mem_singleton] at he
          subst he
          exact (hmd d (hD.dims d hd)).1 hd
        · rw [List.map_singleton, hlenft d hd]
          show [_] = [_]
          rfl
      · obtain ⟨ds', x, h6, h7⟩ := ho o h4 d hd
        rw [h5] at h6; cases h6
        refine ⟨[], _, _, rfl, h7, by simp, fun hin => ?_, Or.inl rfl⟩
        rcases hdm _ hin with ⟨e, _, he⟩ | ⟨he, _⟩
        · exact absurd he.symm (ft_ne_unpadded _ _)
        · obtain ⟨c, _, h, _⟩ := CM.WellFormed.get_dim hw he
          rw [hD.unFree d hd] at h; cases h
    | none =>
      rw [hn, Option.none_or, get?_nested] at ha
      cases hx : old.ents.get? n with
      | none => rw [hx] at ha; cases ha
      | some v =>
        obtain ⟨ds, c⟩ := v
        rw [hx] at ha
        cases ha
        obtain ⟨hcan, h⟩ := holdget n ds c hx
        refine ⟨ds, c, c, rfl, hcan, ?_, ?_, ?_⟩
        · intro d hd
          rcases h with ⟨_, rfl⟩ | ⟨_, h2, c', h3, _⟩
          · cases hd
          · exact (hmd d (hw.attached _ _ _ (Dict.mem_of_get? h3) d hd)).2 (h2 d hd)
        · intro hin
          rcases hdm _ hin with ⟨e, he, rfl⟩ | ⟨he, he'⟩
          · rw [hnewft e he] at hn; cases hn
          · rcases h with ⟨h1, _⟩ | ⟨_, _, c', h3, _⟩
            · exact absurd h1 he'
            · obtain ⟨c'', _, h4, _⟩ := CM.WellFormed.get_dim hw he
              rw [h3] at h4; cases h4; rfl
        · rcases h with ⟨_, rfl⟩ | ⟨h1, h2, c', h3, h4⟩
          · exact Or.inl rfl
          · by_cases h0 : ds = []
            · exact Or.inl h0
            · right
              rw [(canon_same h4).1, CM.WellFormed.shape_eq hw (Dict.mem_of_get? h3) h0]
              exact List.map_congr_left fun d hd => hlenm d (hw.attached _ _ _ (Dict.mem_of_get? h3) d hd) (h2 d hd)) (by
    intro e he
    rw [Dict.mem_keys]
    rcases hdm e he with ⟨d, hd, rfl⟩ | ⟨he1, he2⟩
    · exact ⟨_, by rw [hget, hnewft d hd]; rfl⟩
    · obtain ⟨c, _, h, _⟩ := CM.WellFormed.get_dim hw he1
      obtain ⟨x, _, hx⟩ := hold.kept e he2 _ _ h (by simpa using he2)
      have hnn := hmnot e _ h
      exact ⟨_, by rw [hget, hnewno e hnn.1 (fun o _ => hnn.2), Option.none_or, get?_nested, hx]; rfl⟩)
  have hqget : ∀ n a ds c, Dict.get? coords n = some a → argOf n a = some (ds, c) → c.canon = .ok c → q.ents.get? n = some (ds, c) := by
    intro n a ds c h2 h3 h4
    obtain ⟨x, h5, h6⟩ := hqg n a ds c h2 h3
    rw [h4] at h5; cases h5
    exact h6
  refine ⟨q, ?_, ?_⟩
  · unfold dftCoords
    simp only [bind, Except.bind, h1, hnew]
    rw [hflat, hdims']
    exact hq
  refine ⟨(CM.getCoordManager_wf hq hck).1, ?_, hqd, ?_, ?_, ?_, ?_, ?_, ?_⟩
  · intro n ds c hc
    obtain ⟨a, ha⟩ := Dict.mem_keys.1 (by rw [← hqk]; exact Dict.mem_keys.2 ⟨_, hc⟩ : n ∈ coords.keys)
    obtain ⟨ds', c', hac⟩ : ∃ ds' c', argOf n a = some (ds', c') := by
      rw [hget] at ha
      cases hn : Dict.get? new n with
      | some a' =>
        rw [hn] at ha; cases ha
        obtain ⟨d, hd, hm⟩ := List.mem_flatMap.1 (Dict.mem_of_get? hn)
        rcases mem_newArgs hm with ⟨_, rfl⟩ | ⟨_, o, ds, oc, _, _, rfl⟩
        · exact ⟨_, _, rfl⟩
        · exact ⟨_, _, rfl⟩
      | none =>
        rw [hn, Option.none_or, get?_nested] at ha
        obtain ⟨v, _, rfl⟩ := Option.map_eq_some_iff.1 ha
        exact ⟨_, _, rfl⟩
    obtain ⟨x, h5, h6⟩ := hqg n a ds' c' ha hac
    rw [hc] at h6; cases h6
    exact canon_fixed h5
  · intro d hd
    exact hqget _ _ _ _ (by rw [hget, hnewft d hd]; rfl) rfl rfl
  · intro d hd c hc
    obtain ⟨k, r, hkr, _⟩ := hD.even d hd
    rw [hkr] at hc; cases hc
    obtain ⟨x, h3, h4⟩ := hold.named d hd _ _ hkr
    cases h3
    have hnn := hmnot d _ hkr
    exact hqget d (.nested [] (.one k (.range r))) [] _ (by rw [hget, hnewno d hnn.1 (fun o _ => hnn.2), Option.none_or, get?_nested, h4]; rfl) rfl rfl
  · intro o ho' d hd ds c hc
    obtain ⟨ds', x, h6, h7⟩ := ho o ho' d hd
    rw [hc] at h6; cases h6
    exact hqget _ _ _ _ (by rw [hget, hnewun o ho' d hd _ _ hc]; rfl) rfl h7
  · intro n hn ds c hc hds
    obtain ⟨x, h3, h4⟩ := hold.kept n hn ds c hc hds
    have hnn := hmnot n _ hc
    exact ⟨x, h3, hqget n (.nested ds x) ds x (by rw [hget, hnewno n hnn.1 (fun o _ => hnn.2), Option.none_or, get?_nested, h4]; rfl) rfl (canon_fixed h3)⟩
  · intro n hn ds c hc hds
    have hnn := hmnot n _ hc
    rw [Dict.get?_eq_none, hqk, ← Dict.get?_eq_none, hget, hnewno n hnn.1 (fun o _ => hnn.2), Option.none_or, get?_nested, hold.lost n hn ds c hc hds]
    rfl
  · intro n hc h2 h3
    rw [Dict.get?_eq_none, hqk, ← Dict.get?_eq_none, hget, hnewno n h2 h3, Option.none_or, get?_nested, hold.none n hc]
    rfl

end Verif
