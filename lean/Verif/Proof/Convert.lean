import Verif.Model.Convert
import Verif.Spec.Convert
import Verif.Proof.FourierCoords
/-! # Lemmas: conversions of patches -/
namespace Verif
open Spec
variable {α : Type}

/-- Arrays given back to `get_coord`. -/
theorem plain_canon {c y : MCoord} (hw : ∀ k d, c = .one k d → d.Wf) (hc : c.canon = .ok y) :
    ∃ x, c.plain.canon = .ok x ∧ SameValues c x ∧ ∀ k r, c = .one k (.range r) → 2 ≤ r.len → x = c := by
  by_cases hp : ∃ k n, c = .one k (.part n)
  · obtain ⟨k, n, rfl⟩ := hp
    exact ⟨_, rfl, ⟨rfl, fun _ => rfl⟩, fun k r h => by cases h⟩
  have hp' : ∀ k n, c ≠ .one k (.part n) := fun k n h => hp ⟨k, n, h⟩
  obtain ⟨x, h1, _, h2, h3⟩ := readCoord_spec (c := c) (st := none) (fun s h => by cases h) hw (fun k => hp' k 1) hc
  refine ⟨x, ?_, h2, fun k r h hr => h3 k r h (Or.inl hr)⟩
  cases c with
  | nd a => exact h1
  | one k c =>
    have hv : ∀ r, c = .range r → r.Valid := by rintro r rfl; exact hw k _ rfl
    rw [show (MCoord.one k c).kind? = some k from rfl, readCoord_listed hv (fun n h => hp' k n (by rw [h]))] at h1
    cases c with
    | part n => exact absurd rfl (hp' k n)
    | range r => exact h1
    | mono vs => exact h1
    | arr vs => exact h1

theorem plain_shape {c : MCoord} (hw : ∀ k d, c = .one k d → d.Wf) : c.plain.shape = c.shape := by
  cases c with
  | nd a => rfl
  | one k c =>
    cases c with
    | range r =>
      have hv : r.Valid := hw k _ rfl
      show (MCoord.one k (.arr r.values)).shape = _
      rw [one_shape, one_shape]
      show [r.values.length] = [r.len]
      rw [hv.values_eq]
      simp [progression]
    | mono vs => rfl
    | arr vs => rfl
    | part n => rfl

theorem get?_append {β : Type} (d e : Dict β) (n : String) : Dict.get? (d ++ e) n = (Dict.get? d n).or (Dict.get? e n) := by
  unfold Dict.get?
  rw [List.find?_append]
  cases List.find? (fun p => p.1 == n) d <;> rfl

/-- The coordinates put together, those that are missing included. -/
theorem shapedManager_total {coords : Dict CArg} {dims : List String} {shape : List ℕ} (hk : coords.keys.Nodup) (hnd : dims.Nodup) {len : String → ℕ}
    (hl : ∀ d ∈ dims, shape.getD (dims.idxOf d) 0 = len d)
    (h : ∀ name a, coords.get? name = some a → ∃ ds c x, argOf name a = some (ds, c) ∧ c.canon = .ok x ∧ (∀ d ∈ ds, d ∈ dims) ∧
      (name ∈ dims → ds = [name]) ∧ (ds = [] ∨ ds.map len = c.shape)) :
    ∃ m, shapedManager coords dims shape = .ok m ∧ m.dims = dims ∧
      (∀ name a ds c, coords.get? name = some a → argOf name a = some (ds, c) → ∃ x, c.canon = .ok x ∧ m.ents.get? name = some (ds, x)) ∧
      (∀ d ∈ dims, coords.get? d = none → m.ents.get? d = some ([d], .one .float (.part (len d)))) ∧
      (∀ n, n ∉ dims → coords.get? n = none → m.ents.get? n = none) ∧ ∀ d ∈ dims, m.ents.lenOf d = len d := by
  obtain ⟨e, he, hek, heg⟩ := coordDimMap_total (dims := dims) hk fun name a ha => by
    obtain ⟨ds, c, x, h1, h2, h3, _⟩ := h name a ha
    exact ⟨ds, c, x, h1, h2, h3⟩
  set miss : Ents := (dims.filter fun d => !(Dict.keys e).contains d).map fun d => (d, [d], MCoord.one .float (.part (shape.getD (dims.idxOf d) 0))) with hmiss
  have hmk : Dict.keys miss = dims.filter fun d => !(Dict.keys e).contains d := by
    rw [hmiss]; unfold Dict.keys; rw [List.map_map]; exact List.map_id' _
  have hmg : ∀ d ∈ dims, d ∉ Dict.keys e → Dict.get? miss d = some ([d], .one .float (.part (len d))) := by
    intro d hd hde
    rw [← hl d hd]
    refine Dict.get?_of_mem (by rw [hmk]; exact hnd.filter _) ?_
    rw [hmiss]
    exact List.mem_map.2 ⟨d, List.mem_filter.2 ⟨hd, by simpa using hde⟩, rfl⟩
  have hmn : ∀ n, n ∉ dims → Dict.get? miss n = none := by
    intro n hn
    rw [Dict.get?_eq_none, hmk, List.mem_filter]
    exact fun hc => hn hc.1
  have hkeys : (Dict.keys (e ++ miss)).Nodup := by
    have : Dict.keys (e ++ miss) = Dict.keys e ++ Dict.keys miss := by unfold Dict.keys; exact List.map_append
    rw [this, List.nodup_append]
    refine ⟨by rw [hek]; exact hk, by rw [hmk]; exact hnd.filter _, ?_⟩
    intro a ha b hb hab
    subst hab
    rw [hmk, List.mem_filter] at hb
    simp [ha] at hb
  have hget : ∀ name v, Dict.get? (e ++ miss) name = some v → (∀ d ∈ v.1, d ∈ dims) ∧ (name ∈ dims → v.1 = [name]) ∧ (v.1 = [] ∨ v.1.map len = v.2.shape) := by
    intro name v hv
    rw [get?_append] at hv
    cases hev : Dict.get? e name with
    | some w =>
      rw [hev, Option.some_or] at hv; cases hv
      obtain ⟨a, ha⟩ := Dict.mem_keys.1 (by rw [← hek]; exact Dict.mem_keys.2 ⟨_, hev⟩ : name ∈ coords.keys)
      obtain ⟨ds, c, x, h1, h2, h3, h4, h5⟩ := h name a ha
      obtain ⟨x', w1, w2⟩ := heg name a ds c ha h1
      rw [hev] at w2; cases w2
      rw [(canon_same w1).1]
      exact ⟨h3, h4, h5⟩
    | none =>
      rw [hev, Option.none_or] at hv
      have hnd' : name ∈ dims := by
        by_contra hc
        rw [hmn name hc] at hv; cases hv
      rw [hmg name hnd' (Dict.get?_eq_none.1 hev)] at hv; cases hv
      exact ⟨by simpa using hnd', fun _ => rfl, Or.inr rfl⟩
  have hown : ∀ d ∈ dims, ∃ c, Dict.get? (e ++ miss) d = some ([d], c) := by
    intro d hd
    have : ∃ v, Dict.get? (e ++ miss) d = some v := by
      rw [get?_append]
      by_cases hde : d ∈ Dict.keys e
      · obtain ⟨v, hv⟩ := Dict.mem_keys.1 hde
        exact ⟨v, by rw [hv]; rfl⟩
      · rw [Dict.get?_eq_none.2 hde, hmg d hd hde]
        exact ⟨_, rfl⟩
    obtain ⟨v, hv⟩ := this
    have := (hget d v hv).2.1 hd
    exact ⟨v.2, by rw [hv, ← this]⟩
  have hlen : ∀ d ∈ dims, Ents.lenOf (e ++ miss) d = len d := by
    intro d hd
    obtain ⟨c, hc⟩ := hown d hd
    have := (hget d _ hc).2.2
    simp only [List.cons_ne_self, List.map_cons, List.map_nil, false_or] at this
    unfold Ents.lenOf
    rw [hc]
    simp only [MCoord.len]
    rw [← this]; rfl
  refine ⟨⟨dims, e ++ miss⟩, ?_, rfl, ?_, ?_, ?_, hlen⟩
  · unfold shapedManager
    simp only [bind, Except.bind, he]
    refine CM.mk?_of hown ?_
    rintro ⟨name, v⟩ hp
    obtain ⟨g1, _, g3⟩ := hget name v (Dict.get?_of_mem hkeys hp)
    refine ⟨g1, g3.imp_right fun h => ?_⟩
    rw [← h]
    exact List.map_congr_left fun d hd => hlen d (g1 d hd)
  · intro name a ds c ha hac
    obtain ⟨x, h1, h2⟩ := heg name a ds c ha hac
    refine ⟨x, h1, ?_⟩
    show Dict.get? (e ++ miss) name = _
    rw [get?_append, h2]; rfl
  · intro d hd hc
    have hde : d ∉ Dict.keys e := by rw [hek]; exact Dict.get?_eq_none.1 hc
    show Dict.get? (e ++ miss) d = _
    rw [get?_append, Dict.get?_eq_none.2 hde, hmg d hd hde]; rfl
  · intro n hn hc
    have hne : n ∉ Dict.keys e := by rw [hek]; exact Dict.get?_eq_none.1 hc
    show Dict.get? (e ++ miss) n = _
    rw [get?_append, Dict.get?_eq_none.2 hne, hmn n hn]; rfl

/-- A patch converted back, from the coordinates that are kept. -/
theorem converted {p : PatchM α} (hm : Regular p.cm) (hr : Readable p.cm) (hd : p.cm.dims ≠ []) (hsh : p.cm.shape = p.data.shape) {coords : Dict CArg} (hk : coords.keys.Nodup)
    (hget : ∀ name a, coords.get? name = some a → ∃ ds c, p.cm.ents.get? name = some (ds, c) ∧ argOf name a = some (ds, c.plain))
    (hmiss : ∀ d ∈ p.cm.dims, coords.get? d = none → ∃ c, p.cm.ents.get? d = some ([d], c) ∧ Blank c) :
    ∃ q, patchOf p.data coords p.cm.dims = .ok q ∧ Converted p q fun n => n ∈ p.cm.dims ∨ n ∈ coords.keys := by
  have hwf : ∀ name ds c, p.cm.ents.get? name = some (ds, c) → ∀ k d, c = .one k d → d.Wf := by
    rintro name ds c hc k d rfl
    exact hm.classes name ds k d (Dict.mem_of_get? hc)
  have hl : ∀ d ∈ p.cm.dims, p.data.shape.getD (p.cm.dims.idxOf d) 0 = p.cm.ents.lenOf d := by
    intro d hdm
    rw [← hsh]
    unfold CM.shape
    rw [if_neg hd]
    have hi := List.idxOf_lt_length_iff.2 hdm
    rw [List.getD_eq_getElem?_getD, List.getElem?_map, List.getElem?_eq_getElem hi]
    simp
  obtain ⟨m, h1, h2, h3, h4, h5, h6⟩ := shapedManager_total (shape := p.data.shape) (len := p.cm.ents.lenOf) hk hm.distinct hl (by
    intro name a ha
    obtain ⟨ds, c, hc, hac⟩ := hget name a ha
    obtain ⟨y, hy⟩ := hr name ds c hc
    obtain ⟨x, hx, _⟩ := plain_canon (hwf name ds c hc) hy
    refine ⟨ds, c.plain, x, hac, hx, hm.wf.attached name ds c (Dict.mem_of_get? hc), ?_, ?_⟩
    · intro hn
      obtain ⟨c', _, hc', _⟩ := CM.WellFormed.get_dim hm.wf hn
      rw [hc] at hc'; cases hc'; rfl
    · rw [plain_shape (hwf name ds c hc)]
      by_cases h0 : ds = []
      · exact Or.inl h0
      · exact Or.inr (CM.WellFormed.shape_eq hm.wf (Dict.mem_of_get? hc) h0).symm)
  have hms : m.shape = p.data.shape := by
    rw [← hsh]
    unfold CM.shape
    rw [h2]
    congr 1
    exact List.map_congr_left h6
  refine ⟨⟨m, p.data⟩, ?_, h2, rfl, hms, ?_, ?_, ?_⟩
  · unfold patchOf
    simp only [bind, Except.bind, h1]
    unfold PatchM.new
    rw [if_pos hms]
  · intro name ds c hkept hc
    cases hcn : coords.get? name with
    | some a =>
      obtain ⟨ds', c', hc', hac⟩ := hget name a hcn
      rw [hc] at hc'; cases hc'
      obtain ⟨x, g1, g2⟩ := h3 name a ds c.plain hcn hac
      obtain ⟨y, hy⟩ := hr name ds c hc
      obtain ⟨x', e1, e2, _⟩ := plain_canon (hwf name ds c hc) hy
      rw [g1] at e1; cases e1
      exact ⟨x, g2, e2⟩
    | none =>
      have hnd : name ∈ p.cm.dims := by
        rcases hkept with hn | hn
        · exact hn
        · exact absurd hn (Dict.get?_eq_none.1 hcn)
      obtain ⟨c', hc', k, n, rfl⟩ := hmiss name hnd hcn
      rw [hc] at hc'; cases hc'
      refine ⟨_, h4 name hnd hcn, ?_⟩
      have : p.cm.ents.lenOf name = n := by unfold Ents.lenOf; rw [hc]; rfl
      rw [this]
      exact ⟨rfl, fun _ => rfl⟩
  · intro name ds k r hkept hc h2r
    cases hcn : coords.get? name with
    | some a =>
      obtain ⟨ds', c', hc', hac⟩ := hget name a hcn
      rw [hc] at hc'; cases hc'
      obtain ⟨x, g1, g2⟩ := h3 name a ds _ hcn hac
      obtain ⟨y, hy⟩ := hr name ds _ hc
      obtain ⟨x', e1, _, e3⟩ := plain_canon (hwf name ds _ hc) hy
      rw [g1] at e1; cases e1
      rw [← e3 k r rfl h2r]; exact g2
    | none =>
      have hnd : name ∈ p.cm.dims := by
        rcases hkept with hn | hn
        · exact hn
        · exact absurd hn (Dict.get?_eq_none.1 hcn)
      obtain ⟨c', hc', k', n, rfl⟩ := hmiss name hnd hcn
      rw [hc] at hc'; cases hc'
  · intro n hn
    push Not at hn
    exact h5 n hn.1 (Dict.get?_eq_none.2 hn.2)

end Verif
