import Verif.Proof.Flip
/-! # Lemmas: padding and rolling a patch -/
namespace Verif
open Spec

theorem pad_index (w : String → ℕ × ℕ) (f : String → ℕ) (l : List String) : ∀ i : List ℕ, i.length = l.length →
    (((List.zip (l.map w) (l.map f)).zip i).all (fun p => Nd.inside p.1.1 p.1.2 p.2) = true ↔
      ∃ j, InRange (l.map f) j ∧ i = List.zipWith (fun d k => k + (w d).1) l j) := by
  induction l with
  | nil =>
    intro i hi
    simp only [List.length_nil, List.length_eq_zero_iff] at hi
    subst hi
    simp only [List.map_nil, List.zip_nil_left, List.all_nil, true_iff]
    exact ⟨[], .nil, rfl⟩
  | cons d l ih =>
    intro i hi
    cases i with
    | nil => simp at hi
    | cons k i =>
      simp only [List.length_cons, Nat.add_right_cancel_iff] at hi
      simp only [List.map_cons, List.zip_cons_cons, List.all_cons, Bool.and_eq_true, ih i hi]
      unfold Nd.inside
      simp only [Bool.and_eq_true, decide_eq_true_iff]
      constructor
      · rintro ⟨⟨h1, h2⟩, j, h3, rfl⟩
        refine ⟨(k - (w d).1) :: j, .cons (by omega) h3, ?_⟩
        simp only [List.zipWith_cons_cons, List.cons.injEq, and_true]; omega
      · rintro ⟨j, h1, h2⟩
        cases h1 with
        | cons h3 h4 =>
          simp only [List.zipWith_cons_cons, List.cons.injEq] at h2
          exact ⟨⟨by omega, by omega⟩, _, h4, h2.2⟩

theorem unshift (w : String → ℕ × ℕ) (l : List String) : ∀ j : List ℕ, j.length = l.length →
    List.zipWith (fun k (w : ℕ × ℕ) => k - w.1) (List.zipWith (fun d k => k + (w d).1) l j) (l.map w) = j := by
  induction l with
  | nil => intro j h; simp only [List.length_nil, List.length_eq_zero_iff] at h; subst h; rfl
  | cons d l ih =>
    intro j h
    cases j with
    | nil => simp at h
    | cons k j =>
      simp only [List.length_cons, Nat.add_right_cancel_iff] at h
      simp [ih j h]

theorem shifted_getD {l : List String} {kw : Dict (ℕ × ℕ)} {i : List ℕ} {d : String} (hd : d ∈ l) (hi : i.length = l.length) :
    (shifted l kw i).getD (l.idxOf d) 0 = i.getD (l.idxOf d) 0 + (padOf kw d).1 := by
  unfold shifted
  have h1 := List.idxOf_lt_length_of_mem hd
  have h2 : l.idxOf d < i.length := by omega
  rw [List.getD_eq_getElem?_getD, List.getElem?_zipWith, List.getElem?_eq_getElem h1, List.getElem?_eq_getElem h2,
    List.getD_eq_getElem?_getD, List.getElem?_eq_getElem h2]
  simp

theorem padCoord_eq {c : RangeCoord} (hc : c.Valid) (hs : 0 < c.step) (w : ℕ × ℕ) :
    PatchM.padCoord c w = .ok (.range ⟨c.start - w.1 * c.step, c.start - w.1 * c.step + c.step * ((w.1 + c.len + w.2 : ℕ) : ℚ), c.step, w.1 + c.len + w.2⟩) := by
  unfold PatchM.padCoord
  have hl : (1 : ℚ) ≤ c.len := by exact_mod_cast hc.len_pos
  have h0 : c.start ≤ c.start + ((c.len : ℚ) - 1) * c.step := by nlinarith
  rw [hc.cmin_eq, hc.cmax_eq, min_eq_left h0, max_eq_right h0]
  have : c.start + ((c.len : ℚ) - 1) * c.step + ((w.2 : ℚ) + 1) * c.step =
      (c.start - w.1 * c.step) + c.step * ((w.1 + c.len + w.2 : ℕ) : ℚ) := by push_cast; ring
  rw [this, mkRange_canonical hc.step_ne (by have := hc.len_pos; omega)]
  rfl

theorem labelAt_own {dims : List String} {d : String} {c : RangeCoord} (hc : c.Valid) {k : Kind} {i : List ℕ}
    (hi : i.getD (dims.idxOf d) 0 < c.len) :
    labelAt dims [d] (MCoord.one k (.range c)).arr i = some (c.start + (i.getD (dims.idxOf d) 0 : ℚ) * c.step) := by
  unfold labelAt
  simp only [MCoord.arr, List.map_cons, List.map_nil, List.getD_cons_zero]
  show ((Coord.range c).labels).getD _ none = _
  simp only [Coord.labels, hc.values_eq, progression, List.map_map]
  rw [List.getD_eq_getElem?_getD, List.getElem?_map, List.getElem?_range hi]
  rfl

theorem pad_spec {α} {p q : PatchM α} (hm : Regular p.cm) (hd : p.cm.dims ≠ []) (hsh : p.cm.shape = p.data.shape)
    {kw : Dict (ℕ × ℕ)} (hkn : kw.keys.Nodup) {fill : α}
    (hpos : ∀ d k c, d ∈ kw.keys → p.cm.ents.get? d = some ([d], .one k (.range c)) → 0 < c.step)
    (h : p.pad kw fill = .ok q) : Padded p q kw fill := by
  have hshape : p.data.shape = p.cm.dims.map p.cm.ents.lenOf := by
    rw [← hsh]; unfold CM.shape; rw [if_neg hd]
  unfold PatchM.pad at h
  split at h
  · cases h
  rename_i hmem
  have hmem' : ∀ d ∈ kw.keys, d ∈ p.cm.dims := by
    intro d hd
    by_contra hc
    obtain ⟨r, hr, rfl⟩ := List.mem_map.1 hd
    exact hmem (List.any_eq_true.2 ⟨r, hr, by simp [hc]⟩)
  simp only [bind, Except.bind] at h
  split at h
  · cases h
  rename_i new hnew
  split at h
  · cases h
  rename_i cm hcm
  obtain ⟨rfl, hs⟩ := new_ok h
  have e0 : (p.cm.dims.map fun d => (Dict.get? kw d).getD (0, 0)) = p.cm.dims.map (padOf kw) := rfl
  rw [e0]
  have hnk := Dict.mapM_keys hnew
  -- the coordinates given to update
  have hget : ∀ d a, Dict.get? new d = some a → ∃ w k c, Dict.get? kw d = some w ∧ p.cm.ents.get? d = some ([d], .one k (.range c)) ∧
      c.Valid ∧ c.len = lenDim p.cm d ∧
      a = .simple (.one k (.range ⟨c.start - w.1 * c.step, c.start - w.1 * c.step + c.step * ((w.1 + c.len + w.2 : ℕ) : ℚ), c.step, w.1 + c.len + w.2⟩)) := by
    intro d a ha
    obtain ⟨w, h1, h2⟩ := Dict.mapM_get? hnew d ha
    unfold PatchM.padOne at h2
    simp only at h2
    have hdk : d ∈ kw.keys := Dict.mem_keys.2 ⟨_, h1⟩
    split at h2
    · rename_i ds k c hc
      obtain ⟨hc', hl⟩ := dim_one hm (hmem' d hdk) hc
      have hv : c.Valid := hm.classes _ _ _ _ (Dict.mem_of_get? hc)
      rw [padCoord_eq hv (hpos d k c hdk hc')] at h2
      cases h2
      exact ⟨w, k, c, h1, hc', hv, hl, rfl⟩
    · cases h2
  have hkeys : ∀ n ∈ Dict.keys new, n ∈ p.cm.ents.keys := by
    intro n hn
    obtain ⟨a, ha⟩ := Dict.mem_keys.1 hn
    obtain ⟨_, _, _, _, h1, _⟩ := hget n a ha
    exact Dict.mem_keys.2 ⟨_, h1⟩
  have hU := update_spec hm.wf (by rw [hnk]; exact hkn) (fun n hn => hm.plain n (hkeys n hn)) hcm
  have hdn : dropNames new = [] := by
    unfold dropNames
    rw [List.map_eq_nil_iff, List.filter_eq_nil_iff]
    intro r hr
    have := (Dict.mem_iff (by rw [hnk]; exact hkn) (k := r.1) (v := r.2)).1 hr
    obtain ⟨_, _, _, _, _, _, _, h1⟩ := hget _ _ this
    rw [h1]; simp [CArg.isDrop]
  have hdims : cm.dims = p.cm.dims := by
    rw [hU.dims, hdn]
    have : (new.filter fun q => ((argOf q.1 q.2).map Prod.fst == some [q.1]) && !p.cm.dims.contains q.1) = [] := by
      rw [List.filter_eq_nil_iff]
      intro r hr
      have : r.1 ∈ p.cm.dims := hmem' _ (by rw [← hnk]; exact List.mem_map_of_mem hr)
      simp [this]
    rw [this]; simp
  have hres : ∀ e, Resized p.cm new e ↔ padOf kw e ≠ (0, 0) := by
    intro e
    constructor
    · rintro ⟨h1, a', ds, c1, ds', c2, h2, h3, h4, h5⟩
      obtain ⟨w, k, c, g1, g2, g3, g4, rfl⟩ := hget _ _ h2
      cases h3
      rw [h4] at g2; cases g2
      unfold padOf
      rw [g1]
      rintro hw
      simp only [Option.getD_some] at hw
      subst hw
      apply h5
      show (0 : ℕ) + c.len + 0 = c.len
      omega
    · intro hw
      unfold padOf at hw
      cases hk : Dict.get? kw e with
      | none => rw [hk] at hw; simp at hw
      | some w =>
        rw [hk] at hw
        have hek : e ∈ Dict.keys new := by rw [hnk]; exact Dict.mem_keys.2 ⟨_, hk⟩
        obtain ⟨a, ha⟩ := Dict.mem_keys.1 hek
        obtain ⟨w', k, c, g1, g2, g3, g4, rfl⟩ := hget _ _ ha
        rw [hk] at g1; cases g1
        refine ⟨hmem' e (Dict.mem_keys.2 ⟨_, hk⟩), _, _, _, _, _, ha, rfl, g2, ?_⟩
        show w.1 + c.len + w.2 ≠ c.len
        intro hc
        apply hw
        simp only [Option.getD_some]
        exact Prod.ext (by show w.1 = 0; omega) (by show w.2 = 0; omega)
  have hshq : (p.data.pad (p.cm.dims.map (padOf kw)) fill).shape = p.cm.dims.map fun d => (padOf kw d).1 + lenDim p.cm d + (padOf kw d).2 := by
    unfold Nd.pad
    simp only [hshape]
    rw [List.zipWith_map, List.zipWith_self]
    rfl
  have hin : ∀ i, InRange p.data.shape i → InRange (p.data.pad (p.cm.dims.map (padOf kw)) fill).shape (shifted p.cm.dims kw i) := by
    intro i hi
    rw [hshq]
    rw [hshape] at hi
    unfold shifted
    clear * - hi
    generalize p.cm.dims = l at hi
    induction l generalizing i with
    | nil => cases hi; exact .nil
    | cons d l ih =>
      cases hi with
      | cons h1 h2 =>
        refine List.Forall₂.cons ?_ (ih _ h2)
        show _ + _ < _ + p.cm.ents.lenOf d + _
        omega
  have hown : ∀ d k c, d ∈ kw.keys → p.cm.ents.get? d = some ([d], .one k (.range c)) → ∀ i,
      InRange (p.data.pad (p.cm.dims.map (padOf kw)) fill).shape i →
      label (⟨cm, p.data.pad (p.cm.dims.map (padOf kw)) fill⟩ : PatchM α) d i =
        some (some (c.start + ((i.getD (p.cm.dims.idxOf d) 0 : ℚ) - (padOf kw d).1) * c.step)) := by
    intro d k c hdk hc i hi
    obtain ⟨a, ha⟩ := Dict.mem_keys.1 (hnk ▸ hdk)
    obtain ⟨w, k', c', g1, g2, g3, g4, rfl⟩ := hget _ _ ha
    rw [hc] at g2; cases g2
    obtain ⟨x, h1, h2⟩ := hU.givenC d _ _ _ ha rfl
    cases h1
    unfold label
    simp only [h2]
    have hpw : padOf kw d = w := by unfold padOf; rw [g1]; rfl
    have hlt : i.getD (p.cm.dims.idxOf d) 0 < w.1 + c.len + w.2 := by
      rw [hshq] at hi
      have := inRange_getD hi (hmem' d hdk)
      rw [hpw, ← g4] at this
      exact this
    rw [hdims, labelAt_own (k := k) ?_ hlt]
    · congr 2
      rw [hpw]; ring
    · exact ⟨g3.step_ne, by have := g3.len_pos; show 1 ≤ w.1 + c.len + w.2; omega, rfl⟩
  refine ⟨hdims, hshq, ?_, ?_, ?_, ?_, ?_, ?_⟩
  · intro i hi
    refine ⟨hin i hi, ?_⟩
    show (if _ then _ else _) = _
    have hlen : i.length = p.cm.dims.length := by rw [hshape] at hi; simpa using inRange_length hi
    have := (pad_index (padOf kw) p.cm.ents.lenOf p.cm.dims (shifted p.cm.dims kw i) (by simp [shifted, hlen])).2
      ⟨i, hshape ▸ hi, rfl⟩
    rw [← hshape] at this
    rw [if_pos this]
    congr 1
    exact unshift (padOf kw) p.cm.dims i hlen
  · intro i hi hno
    have hlen : i.length = p.cm.dims.length := by
      have := inRange_length hi
      simp only at this
      rw [this, hshq]; simp
    show (if _ then _ else _) = _
    rw [if_neg]
    intro hall
    rw [hshape] at hall
    obtain ⟨j, h1, h2⟩ := (pad_index (padOf kw) p.cm.ents.lenOf p.cm.dims i hlen).1 hall
    exact hno j (hshape ▸ h1) h2
  · intro d k c hdk hc i hi
    rw [hown d k c hdk hc i hi]
    unfold posAlong
    simp only [hdims]
  · intro name ds c hn hcase hsto i hi
    have hlen : i.length = p.cm.dims.length := by rw [hshape] at hi; simpa using inRange_length hi
    by_cases hk : name ∈ kw.keys
    · obtain ⟨a, ha⟩ := Dict.mem_keys.1 (hnk ▸ hk)
      obtain ⟨w, k', c', g1, g2, g3, g4, rfl⟩ := hget _ _ ha
      rw [hn] at g2; cases g2
      have := hown name k' c' hk hn _ (hin i hi)
      rw [this,
        shifted_getD (hmem' name hk) hlen]
      unfold label
      rw [hn]
      simp only
      rw [labelAt_own (k := k') g3]
      · push_cast
        congr 2; ring
      · rw [g4]
        rw [hshape] at hi
        exact inRange_getD hi (hmem' name hk)
    · have hz := hcase.resolve_left hk
      have hnn : Dict.get? new name = none := Dict.get?_eq_none.2 (hnk ▸ hk)
      obtain ⟨x, h1, h2⟩ := hU.kept name ds c hnn hn (fun d hdd => ⟨by simp [hdn], fun hr => (hres d).1 hr (hz d hdd)⟩)
      unfold label
      rw [hn]
      simp only [h2]
      cases ds with
      | nil => rfl
      | cons d0 ds =>
        simp only [hdims, h1.2 hsto]
        congr 1
        unfold labelAt
        congr 1
        refine List.map_congr_left fun d hdd => ?_
        rw [shifted_getD (hm.wf.attached _ _ _ (Dict.mem_of_get? hn) d hdd) hlen, hz d hdd]
        rfl
  · intro name ds c hn hk hw
    have hnn : Dict.get? new name = none := Dict.get?_eq_none.2 (hnk ▸ hk)
    obtain ⟨d, hdd, hw⟩ := hw
    exact hU.lost name ds c hnn hn ⟨d, hdd, Or.inr ((hres d).2 hw)⟩
  · intro name hn
    refine hU.none name ?_ hn
    rw [Dict.get?_eq_none]
    intro hk
    obtain ⟨v, hv⟩ := Dict.mem_keys.1 (hkeys name hk)
    rw [hn] at hv; cases hv

theorem turned_lt {n : ℕ} {v : ℤ} : ∀ j ∈ turned n v, j < n := by
  intro j hj
  obtain ⟨i, hi, rfl⟩ := List.mem_map.1 hj
  have hn : 0 < n := by have := List.mem_range.1 hi; omega
  have := Int.emod_lt_of_pos ((i : ℤ) - v) (show (0 : ℤ) < n by exact_mod_cast hn)
  have := Int.emod_nonneg ((i : ℤ) - v) (show (n : ℤ) ≠ 0 by omega)
  omega

theorem roll_origin {dims : List String} (hn : dims.Nodup) {dim : String} (hd : dim ∈ dims) {f : String → ℕ} {red : String → List ℕ} {v : ℤ}
    (hr : ∀ d, red d = if d = dim then turned (f dim) v else List.range (f d)) {i : List ℕ} (hi : InRange (dims.map f) i) :
    i.set (dims.idxOf dim) (((i.getD (dims.idxOf dim) 0 : ℤ) - v) % (f dim : ℤ)).toNat = origin dims red i := by
  have hlen : i.length = dims.length := by simpa using inRange_length hi
  unfold origin
  apply List.ext_getElem
  · simp [hlen]
  · intro j h1 h2
    simp only [List.length_set] at h1
    have hj : j < dims.length := by omega
    rw [List.getElem_zipWith, List.getElem_map, hr, List.getElem_set]
    have hij : i[j] < f dims[j] := by
      have := List.Forall₂.get hi h1 (by simpa using hj)
      simpa using this
    by_cases he : dims.idxOf dim = j
    · have : dims[j] = dim := by simp [← he]
      rw [if_pos he, if_pos this]
      unfold turned
      rw [this] at hij
      have hg : i.getD (dims.idxOf dim) 0 = i[j] := by
        rw [he, List.getD_eq_getElem?_getD, List.getElem?_eq_getElem h1]; rfl
      rw [hg]
      generalize i[j] = x at hij ⊢
      rw [List.getD_eq_getElem?_getD, List.getElem?_map, List.getElem?_range hij]
      rfl
    · have hne : dims[j] ≠ dim := by
        rintro rfl
        exact he (hn.idxOf_getElem j hj)
      rw [if_neg he, if_neg hne]
      generalize i[j] = x at hij ⊢
      rw [List.getD_eq_getElem?_getD, List.getElem?_range hij]
      rfl

theorem rollList_eq (l : List ℚ) (v : ℤ) : PatchM.rollList l v = takeIdx l (turned l.length v) := by
  unfold PatchM.rollList turned takeIdx
  rw [List.filterMap_map, ← List.filterMap_eq_map]
  refine List.filterMap_congr ?_
  intro i hi
  have : (((i : ℤ) - v) % (l.length : ℤ)).toNat < l.length := turned_lt (v := v) _ (List.mem_map.2 ⟨i, hi, rfl⟩)
  simp only [Function.comp, List.getElem?_eq_getElem this, List.getD_eq_getElem?_getD]
  rfl

theorem roll_spec {α} {p q : PatchM α} (hm : Regular p.cm) (hd : p.cm.dims ≠ []) (hsh : p.cm.shape = p.data.shape)
    {dim : String} {v : ℤ} {upd : Bool} (h : p.roll dim v upd = .ok q) :
    dim ∈ p.cm.dims ∧ (upd = true → Thinned p q dim (turned (lenDim p.cm dim) v)) ∧
      (upd = false → q.cm = p.cm) ∧ q.data.shape = p.data.shape ∧
      (∀ i, InRange q.data.shape i → q.data.get i = p.data.get (origin p.cm.dims (keepAlong p.cm dim (turned (lenDim p.cm dim) v)) i)) ∧
      Regular q.cm ∧ q.cm.shape = q.data.shape := by
  have hshape : p.data.shape = p.cm.dims.map p.cm.ents.lenOf := by
    rw [← hsh]; unfold CM.shape; rw [if_neg hd]
  unfold PatchM.roll at h
  by_cases hdim : dim ∈ p.cm.dims
  · simp only [hdim, not_true_eq_false, if_false] at h
    split at h
    · rename_i ds k c hc
      obtain ⟨hc', hl⟩ := dim_one hm hdim hc
      have hwf := hm.classes _ _ _ _ (Dict.mem_of_get? hc)
      have hv := hasVals hwf (by simp)
      have hax : p.data.shape.getD (p.cm.dims.idxOf dim) 0 = lenDim p.cm dim := by
        rw [hshape, List.getD_eq_getElem?_getD, List.getElem?_map, List.getElem?_eq_getElem (List.idxOf_lt_length_of_mem hdim)]
        simp [lenDim]
      have d2 : ∀ i, InRange p.data.shape i → (p.data.roll v (p.cm.dims.idxOf dim)).get i =
          p.data.get (origin p.cm.dims (keepAlong p.cm dim (turned (lenDim p.cm dim) v)) i) := by
        intro i hi
        rw [hshape] at hi
        rw [← roll_origin hm.distinct hdim (f := p.cm.ents.lenOf) (v := v) (red := keepAlong p.cm dim (turned (lenDim p.cm dim) v)) (fun d => rfl) hi]
        show p.data.get _ = _
        rw [hax]; rfl
      cases upd with
      | false =>
        simp only [Bool.false_eq_true, if_false] at h
        obtain ⟨rfl, hs⟩ := new_ok h
        exact ⟨hdim, by simp, fun _ => rfl, rfl, d2, hm, hs⟩
      | true =>
        simp only [if_true, bind, Except.bind] at h
        split at h
        · cases h
        rename_i d hgd
        split at h
        · cases h
        rename_i cm hcm
        obtain ⟨rfl, hs⟩ := new_ok h
        have hvl : c.values.length = lenDim p.cm dim := by
          rw [show c.values.length = (Coord.range c).length from hv.length, hl]; rfl
        rw [rollList_eq, hvl] at hgd
        have hb : ∀ j ∈ turned (lenDim p.cm dim) v, j < (Coord.range c).length := by
          rw [hl]; exact turned_lt
        refine ⟨hdim, fun _ => ?_, by simp, rfl, d2, thin_regular hm hdim hc' (fun r hr => wf_of_data hgd hr) hcm, hs⟩
        refine thin_core hm hd hsh hdim hc' hb (Or.inr ⟨hgd, hv.take _⟩) (fun r hr => wf_of_data hgd hr) ?_ d2 hcm
        show p.data.shape = _
        rw [hshape]
        refine List.map_congr_left fun d _ => ?_
        unfold keepAlong turned
        split_ifs with he
        · rw [he]; simp [lenDim]
        · simp [lenDim]
    · cases h
  · simp only [hdim, not_false_eq_true, if_true] at h
    cases h

end Verif
