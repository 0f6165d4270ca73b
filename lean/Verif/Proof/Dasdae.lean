import Verif.Spec.Dasdae
import Verif.Proof.Merge
/-! # Lemmas on saving and reading patches -/
namespace Verif
open Spec
variable {α ν : Type}

/-! ### Text -/

theorem removeGo_skip (sub t s : List Char) : removeGo sub t.length (t ++ s) = removeGo sub 0 s := by
  induction t with
  | nil => rfl
  | cons c t ih => exact ih

theorem removeGo_none {sub : List Char} : ∀ {s : List Char}, ¬ sub <:+: s → removeGo sub 0 s = s
  | [], _ => rfl
  | c :: s, h => by
    have h1 : sub.isPrefixOf (c :: s) = false := by
      rw [← Bool.not_eq_true, List.isPrefixOf_iff_prefix]
      exact fun hp => h hp.isInfix
    rw [removeGo, h1, if_neg (by simp), removeGo_none fun hi => h (hi.trans (List.suffix_cons c s).isInfix)]

theorem removeAll_prefix {sub s : String} (hs : sub.toList ≠ []) (h : Lacks sub s) : removeAll sub (sub ++ s) = s := by
  unfold removeAll
  rw [String.toList_append]
  cases hc : sub.toList with
  | nil => exact absurd hc hs
  | cons c t =>
    have h1 : (c :: t).isPrefixOf (c :: t ++ s.toList) = true := by
      rw [List.isPrefixOf_iff_prefix]; exact List.prefix_append _ _
    rw [List.cons_append] at h1 ⊢
    rw [removeGo, h1, if_pos rfl]
    show String.ofList (removeGo (c :: t) t.length (t ++ s.toList)) = s
    rw [removeGo_skip, ← hc, removeGo_none h, String.ofList_toList]

theorem hasPrefix_append (pre s : String) : hasPrefix pre (pre ++ s) = true := by
  unfold hasPrefix
  rw [String.toList_append, List.isPrefixOf_iff_prefix]
  exact List.prefix_append _ _

theorem string_append_inj {pre a b : String} (h : pre ++ a = pre ++ b) : a = b := by
  have := congrArg String.toList h
  rw [String.toList_append, String.toList_append, List.append_right_inj] at this
  exact String.toList_injective this

theorem splitComma_join {l : List String} (h : ∀ d ∈ l, ',' ∉ d.toList) (hn : l ≠ []) : splitComma (joinComma l) = l := by
  unfold splitComma joinComma
  rw [String.toList_ofList, List.splitOn_intercalate _ (by
    intro x hx; obtain ⟨d, hd, rfl⟩ := List.mem_map.1 hx; exact h d hd) (by simpa using hn), List.map_map]
  conv_rhs => rw [← List.map_id l]
  exact List.map_congr_left fun d _ => String.ofList_toList

theorem splitComma_empty : splitComma "" = [""] := by decide +kernel

theorem joinComma_eq_empty {l : List String} (h : ∀ d ∈ l, DimName d) : joinComma l = "" ↔ l = [] := by
  constructor
  · intro he
    by_contra hn
    have := splitComma_join (fun d hd => (h d hd).2) hn
    rw [he, splitComma_empty] at this
    exact (h "" (by rw [← this]; simp)).1 rfl
  · rintro rfl; rfl

/-! ### Dictionaries -/

theorem set_fresh {β : Type} {d : Dict β} {k : String} {v : β} (h : k ∉ d.keys) : d.set k v = d ++ [(k, v)] := by
  have : (d.any fun p => p.1 == k) = false := by
    rw [List.any_eq_false]
    intro p hp
    simp only [beq_iff_eq]
    rintro rfl
    exact h (List.mem_map_of_mem hp)
  unfold Dict.set
  rw [this]; rfl

theorem update_fresh {β : Type} : ∀ {e d : Dict β}, (d.keys ++ e.keys).Nodup → d.update e = d ++ e
  | [], d, _ => by simp [Dict.update]
  | p :: e, d, h => by
    have hk : p.1 ∉ d.keys := by
      intro hm
      rw [List.nodup_append] at h
      exact h.2.2 p.1 hm p.1 (by simp [Dict.keys]) rfl
    have h' : ((d ++ [p] : Dict β).keys ++ Dict.keys e).Nodup := by
      have e1 : (d ++ [p] : Dict β).keys ++ Dict.keys e = d.keys ++ Dict.keys (p :: e) := by simp [Dict.keys]
      rw [e1]; exact h
    have := update_fresh (e := e) (d := d ++ [p]) h'
    show Dict.update (d.set p.1 p.2) e = _
    rw [set_fresh hk, this]
    simp

theorem update_nil {β : Type} {e : Dict β} (h : e.keys.Nodup) : Dict.update [] e = e := by
  rw [update_fresh (by simpa [Dict.keys] using h)]; rfl

theorem get?_filterMap_val {β γ : Type} {d : Dict β} (f : String → β → Option γ) (hn : d.keys.Nodup) (k : String) :
    Dict.get? (d.filterMap fun e => (f e.1 e.2).map fun v => (e.1, v)) k = (d.get? k).bind (f k) := by
  induction d with
  | nil => rfl
  | cons p d ih =>
    have hn' : (Dict.keys d).Nodup := (List.nodup_cons.1 hn).2
    have hp : p.1 ∉ Dict.keys d := (List.nodup_cons.1 hn).1
    rw [Dict.get?_cons, List.filterMap_cons]
    by_cases hk : p.1 = k
    · subst hk
      simp only [if_pos, Option.bind_some]
      cases hf : f p.1 p.2 with
      | none =>
        simp only [Option.map_none]
        rw [ih hn', Dict.get?_eq_none.2 hp]
        rfl
      | some v =>
        simp only [Option.map_some]
        rw [Dict.get?_cons]
        simp
    · rw [if_neg hk]
      cases hf : f p.1 p.2 with
      | none => simp only [Option.map_none]; exact ih hn'
      | some v =>
        simp only [Option.map_some]
        rw [Dict.get?_cons, if_neg hk]
        exact ih hn'

/-! ### One coordinate -/

theorem getCoordData_step {k : Kind} {l : List ℚ} (h : 2 ≤ l.length) (st : Option ℚ) : getCoordData k l st = getCoordData k l :=
  (getCoordData_two h).trans (getCoordData_two h).symm

/-- What `get_coord` gives it gives again. -/
theorem getCoordData_fixed {k : Kind} {l : List ℚ} {st : Option ℚ} {d : Coord} (h : getCoordData k l st = .ok d) :
    (MCoord.one k d).canon = .ok (.one k d) := by
  match l, h with
  | [], h => cases h; rfl
  | [x], h =>
    cases st with
    | none => cases h; rfl
    | some s =>
      obtain ⟨r, _, rfl⟩ := except_map_ok h
      rfl
  | a :: b :: l, h =>
    rcases getCoordData_cases k (l := a :: b :: l) (by simp) st with ⟨h1, _⟩ | ⟨h1, _⟩ | ⟨_, _, e, _, h1 | ⟨_, h1⟩⟩
    · have h0 := h; rw [h1] at h0; cases h0
      rw [getCoordData_step (by simp)] at h
      simp only [MCoord.canon]; rw [h]; rfl
    · have h0 := h; rw [h1] at h0; cases h0
      rw [getCoordData_step (by simp)] at h
      simp only [MCoord.canon]; rw [h]; rfl
    · rw [h] at h1; cases h1; rfl
    · rw [h] at h1; cases h1

theorem range_getD {β : Type} (l : List (Option β)) : ((List.range l.length).map fun i : ℕ => l.getD i none) = l := by
  apply List.ext_getElem (by simp)
  intro i h1 h2
  simp [h2]

theorem readCoord_listed {k : Kind} {c : Coord} (hv : ∀ r, c = .range r → r.Valid) (hp : ∀ n, c ≠ .part n) (st : Option ℚ) :
    readCoord (some k) (MCoord.one k c).arr st = (getCoordData k c.vals st).map (.one k) := by
  have hl : c.labels = c.vals.map some := by
    cases c with
    | part n => exact absurd rfl (hp n)
    | range r => rfl
    | mono vs => rfl
    | arr vs => rfl
  have h1 : ((List.range ((MCoord.one k c).arr.shape.getD 0 0)).map fun i : ℕ => (MCoord.one k c).arr.get [i]) = c.vals.map some := by
    rw [← hl, ← range_getD c.labels, labels_length' hv]
    rfl
  unfold readCoord
  simp only [h1]
  rw [if_pos (by simp)]
  simp

theorem readCoord_part {k : Kind} {n : ℕ} (hn : n ≠ 1) (st : Option ℚ) :
    readCoord (some k) (MCoord.one k (.part n)).arr st = .ok (.one k (.part n)) := by
  have h1 : ((List.range ((MCoord.one k (.part n)).arr.shape.getD 0 0)).map fun i : ℕ => (MCoord.one k (.part n)).arr.get [i]) =
      List.replicate n none := by
    rw [← range_getD (List.replicate n (none : Option ℚ)), List.length_replicate]
    rfl
  unfold readCoord
  simp only [h1]
  by_cases h0 : n = 0
  · subst h0; rfl
  · rw [if_neg (by simpa using h0), if_neg (by simpa using hn)]
    simp

theorem same_of_list {k : Kind} {c : Coord} {d : Coord} (hl : d.length = c.length) (h : Storable c.vals → d.labels = c.labels) :
    SameValues (.one k c) (.one k d) := by
  refine ⟨by rw [one_shape, one_shape, hl], fun hs => ?_⟩
  show (⟨[d.length], fun i => d.labels.getD (i.getD 0 0) none⟩ : Nd (Option ℚ)) = ⟨[c.length], fun i => c.labels.getD (i.getD 0 0) none⟩
  rw [h (hs k c rfl), hl]

/-- A coordinate written and read. -/
theorem readCoord_spec {c y : MCoord} {st : Option ℚ} (hst : ∀ s, st = some s → s ≠ 0) (hw : ∀ k d, c = .one k d → d.Wf)
    (hnull : ∀ k, c ≠ .one k (.part 1)) (hc : c.canon = .ok y) :
    ∃ x, readCoord c.kind? c.arr st = .ok x ∧ (x.canon = .ok x ∧ ((∀ k d, x = .one k d → d.Wf) ∧ ∀ a, x = .nd a → c = .nd a)) ∧ SameValues c x ∧
      ∀ k r, c = .one k (.range r) → 2 ≤ r.len ∨ st = some r.step → x = c := by
  cases c with
  | nd a => exact ⟨.nd a, rfl, ⟨rfl, fun k d h => (by cases h), fun _ h => h⟩, ⟨rfl, fun _ => rfl⟩, fun k r h => by cases h⟩
  | one k c =>
    have hwf := hw k c rfl
    have hv : ∀ r, c = .range r → r.Valid := by rintro r rfl; exact hwf
    by_cases hp : ∃ n, c = .part n
    · obtain ⟨n, rfl⟩ := hp
      exact ⟨_, readCoord_part (fun h => hnull k (by rw [h])) st, ⟨rfl, fun k d h => (by cases h; trivial), fun _ h => by cases h⟩, ⟨rfl, fun _ => rfl⟩, fun k r h => by cases h⟩
    · have hp' : ∀ n, c ≠ .part n := fun n h => hp ⟨n, h⟩
      have hlen : c.vals.length = c.length := by
        have := labels_length' hv
        cases c with
        | part n => exact absurd rfl (hp' n)
        | range r => simpa [Coord.labels, Coord.vals] using this
        | mono vs => rfl
        | arr vs => rfl
      have hl : c.labels = c.vals.map some := by
        cases c with
        | part n => exact absurd rfl (hp' n)
        | range r => rfl
        | mono vs => rfl
        | arr vs => rfl
      have key : ∃ d, getCoordData k c.vals st = .ok d ∧ d.Wf ∧ d.length = c.length ∧ (Storable c.vals → d.labels = c.labels) ∧
          ∀ r, c = .range r → 2 ≤ r.len ∨ st = some r.step → d = c := by
        by_cases h2 : 2 ≤ c.vals.length
        · rw [getCoordData_step h2]
          cases c with
          | part n => exact absurd rfl (hp' n)
          | range r =>
            have hr := hv r rfl
            refine ⟨.range r, ?_, hr, rfl, fun _ => rfl, fun _ _ _ => rfl⟩
            show getCoordData k r.values = _
            rw [hr.values_eq, getCoordData_progression k _ _ r.len hr.step_ne (le_trans h2 (le_of_eq hlen))]
            rw [← hr.stop_eq]
          | mono vs =>
            obtain ⟨d, h1, _⟩ := except_map_ok hc
            exact ⟨d, h1, getCoordData_wf h1, getCoordData_length h1, fun hs => getCoordData_labels hs h1, fun r h => by cases h⟩
          | arr vs =>
            obtain ⟨d, h1, _⟩ := except_map_ok hc
            exact ⟨d, h1, getCoordData_wf h1, getCoordData_length h1, fun hs => getCoordData_labels hs h1, fun r h => by cases h⟩
        · have h1 : c.vals.length = 1 := by
            have : c.vals ≠ [] := by
              cases c with
              | part n => exact absurd rfl (hp' n)
              | range r =>
                have := (hv r rfl).len_pos
                intro h0
                rw [h0] at hlen
                have : (0 : ℕ) = r.len := hlen
                omega
              | mono vs => exact hwf.2
              | arr vs => exact hwf
            have := List.length_pos_iff.2 this
            omega
          obtain ⟨x, hx⟩ := List.length_eq_one_iff.1 h1
          rw [hl, hx, ← hlen, h1]
          cases st with
          | none =>
            refine ⟨.mono [x], rfl, getCoordData_wf (k := k) (l := [x]) rfl, rfl, fun _ => rfl, ?_⟩
            rintro r rfl (h | h)
            · have : (1 : ℕ) = r.len := by rw [← h1]; exact hlen
              omega
            · cases h
          | some s =>
            have hs := hst s rfl
            have hm := mkRange_canonical (start := x) hs (le_refl 1)
            simp only [Nat.cast_one, mul_one] at hm
            have hv1 : RangeCoord.Valid ⟨x, x + s, s, 1⟩ := mkRange_valid hs hm
            refine ⟨.range ⟨x, x + s, s, 1⟩, by simp only [getCoordData, hm]; rfl, hv1, rfl, fun _ => ?_, ?_⟩
            · show List.map some (RangeCoord.values _) = _
              rw [hv1.values_eq]
              simp [progression]
            · rintro r rfl h
              have hr := hv r rfl
              have hlen1 : r.len = 1 := by rw [← h1]; exact hlen.symm
              have hstep : s = r.step := by
                rcases h with h | h
                · omega
                · exact Option.some.inj h
              have hx' : r.start = x := by
                have : r.values = [x] := hx
                rw [hr.values_eq, hlen1] at this
                simpa [progression] using this
              have := hr.stop_eq
              rw [hlen1] at this
              obtain ⟨a, b, e, n⟩ := r
              simp only at hx' hstep hlen1 this
              subst hx' hstep hlen1
              rw [this]; simp
      obtain ⟨d, h1, hwd, h2, h3, h4⟩ := key
      refine ⟨.one k d, ?_, ⟨getCoordData_fixed h1, fun k' d' h => (by cases h; exact hwd), fun _ h => by cases h⟩, same_of_list h2 h3, ?_⟩
      · show readCoord (some k) _ st = _
        rw [readCoord_listed hv hp', h1]; rfl
      · intro k' r h hr
        cases h
        rw [h4 r rfl hr]

/-! ### One patch -/

theorem prefix_ne {pre pre' s s' : String} (h : ∃ i : ℕ, i < pre.toList.length ∧ i < pre'.toList.length ∧ pre.toList[i]? ≠ pre'.toList[i]?) :
    pre ++ s ≠ pre' ++ s' := by
  obtain ⟨i, h1, h2, h3⟩ := h
  intro he
  have := congrArg (fun x => x.toList[i]?) he
  simp only [String.toList_append] at this
  rw [List.getElem?_append_left h1, List.getElem?_append_left h2] at this
  exact h3 this

theorem no_prefix {pre pre' s : String} (h : ∃ i : ℕ, i < pre.toList.length ∧ i < pre'.toList.length ∧ pre.toList[i]? ≠ pre'.toList[i]?) :
    hasPrefix pre (pre' ++ s) = false := by
  obtain ⟨i, h1, h2, h3⟩ := h
  rw [← Bool.not_eq_true]
  unfold hasPrefix
  rw [List.isPrefixOf_iff_prefix]
  intro hp
  obtain ⟨t, ht⟩ := hp
  have := congrArg (fun x => x[i]?) ht
  simp only [String.toList_append] at this
  rw [List.getElem?_append_left h1, List.getElem?_append_left h2] at this
  exact h3 this

theorem nodup_prefix {β γ : Type} {d : Dict β} (pre : String) (f : String × β → γ) (h : d.keys.Nodup) :
    (Dict.keys (d.map fun e => (pre ++ e.1, f e))).Nodup := by
  have : Dict.keys (d.map fun e => (pre ++ e.1, f e)) = d.keys.map (pre ++ ·) := by simp [Dict.keys]
  rw [this]
  exact h.map fun a b hab => string_append_inj hab

theorem dump_keys (p : DPatch α ν) : p.dump.keys = p.attrs.keys ++ ["coords", "dims"] := by
  simp [DPatch.dump, Dict.keys]

theorem dump_nodup {p : DPatch α ν} (h : Saveable p) : p.dump.keys.Nodup := by
  rw [dump_keys, List.nodup_append]
  refine ⟨h.distinct, by decide, ?_⟩
  intro a ha b hb
  have := h.attrs a ha
  simp only [List.mem_cons, List.not_mem_nil, or_false] at hb
  rcases hb with rfl | rfl
  · exact this.2.1
  · exact this.2.2.1

theorem savedAttrs_nodup {p : DPatch α ν} (hw : WellFormed p.cm) (h : Saveable p) : p.savedAttrs.keys.Nodup := by
  unfold DPatch.savedAttrs Dict.keys
  rw [List.map_append, List.map_append, List.nodup_append, List.nodup_append]
  refine ⟨⟨nodup_prefix "_attrs_" (fun e => e.2) (dump_nodup h), by simp, ?_⟩, nodup_prefix "_cdims_" (fun e : String × List String × MCoord => (H5Val.text (joinComma e.2.1) : H5Val ν)) hw.names, ?_⟩
  · intro a ha b hb
    obtain ⟨x, hx, rfl⟩ := List.mem_map.1 ha
    obtain ⟨y, hy, rfl⟩ := List.mem_map.1 hx
    simp only [List.map_cons, List.map_nil, List.mem_singleton] at hb
    subst hb
    exact prefix_ne (pre' := "_dims") (s' := "") ⟨1, by decide, by decide, by decide⟩
  · intro a ha b hb
    obtain ⟨x, hx, rfl⟩ := List.mem_map.1 hb
    obtain ⟨y, hy, rfl⟩ := List.mem_map.1 hx
    rcases List.mem_append.1 ha with ha | ha
    · obtain ⟨x, hx, rfl⟩ := List.mem_map.1 ha
      obtain ⟨y, hy, rfl⟩ := List.mem_map.1 hx
      exact prefix_ne ⟨1, by decide, by decide, by decide⟩
    · simp only [List.map_cons, List.map_nil, List.mem_singleton] at ha
      subst ha
      exact prefix_ne (pre := "_dims") (s := "") ⟨1, by decide, by decide, by decide⟩

theorem savedNodes_nodup {p : DPatch α ν} (hw : WellFormed p.cm) : p.savedNodes.keys.Nodup := by
  unfold DPatch.savedNodes Dict.keys
  rw [List.map_append, List.nodup_append]
  refine ⟨nodup_prefix "_coord_" (fun e : String × List String × MCoord => (H5Node.coord e.2.2.kind? e.2.2.arr : H5Node α)) hw.names, by split_ifs <;> simp, ?_⟩
  intro a ha b hb
  obtain ⟨x, hx, rfl⟩ := List.mem_map.1 ha
  obtain ⟨y, hy, rfl⟩ := List.mem_map.1 hx
  split_ifs at hb
  · cases hb
  · simp only [List.map_cons, List.map_nil, List.mem_singleton] at hb
    subst hb
    exact prefix_ne (pre' := "data") (s' := "") ⟨0, by decide, by decide, by decide⟩

theorem legal_coord {name : String} (h : '/' ∉ name.toList) : legalNode ("_coord_" ++ name) = true := by
  unfold legalNode
  simp only [Bool.and_eq_true, decide_eq_true_eq, Bool.not_eq_true']
  refine ⟨⟨?_, ?_⟩, ?_⟩
  · intro he
    have := congrArg String.toList he
    simp at this
  · intro he
    have := congrArg (fun s => s.toList.length) he
    simp at this
  · rw [String.toList_append]
    simp [h]

/-- Into an empty group, a patch is written as it is. -/
theorem savePatch_fresh {p : DPatch α ν} (hw : WellFormed p.cm) (h : Saveable p) {name : String} (hn : legalNode name = true) :
    savePatch {} name p = .ok ⟨p.savedAttrs, p.savedNodes⟩ := by
  unfold savePatch
  rw [if_pos, update_nil (savedAttrs_nodup hw h), update_nil (savedNodes_nodup hw)]
  rw [hn, Bool.true_and, List.all_eq_true]
  intro e he
  unfold DPatch.savedNodes at he
  rcases List.mem_append.1 he with he | he
  · obtain ⟨x, hx, rfl⟩ := List.mem_map.1 he
    exact legal_coord (h.coords x.1 (List.mem_map_of_mem hx)).2.2
  · split_ifs at he
    · cases he
    · rw [List.mem_singleton] at he
      subst he
      exact show legalNode "data" = true by decide

theorem readAttrs_saved {p : DPatch α ν} (h : Saveable p) : readAttrs (⟨p.savedAttrs, p.savedNodes⟩ : H5Group α ν) = p.dump := by
  unfold readAttrs
  have hf : (p.savedAttrs.filter fun e => hasPrefix "_attrs_" e.1) = p.dump.map fun e => ("_attrs_" ++ e.1, e.2) := by
    unfold DPatch.savedAttrs
    rw [List.filter_append, List.filter_append]
    have h1 : ((p.dump.map fun e => ("_attrs_" ++ e.1, e.2)).filter fun e => hasPrefix "_attrs_" e.1) = p.dump.map fun e => ("_attrs_" ++ e.1, e.2) := by
      rw [List.filter_eq_self]
      intro e he
      obtain ⟨x, _, rfl⟩ := List.mem_map.1 he
      exact hasPrefix_append _ _
    have h2 : ([(("_dims" : String), (H5Val.text (joinComma p.cm.dims) : H5Val ν))].filter fun e => hasPrefix "_attrs_" e.1) = [] := by
      rw [List.filter_eq_nil_iff]
      intro e he
      rw [List.mem_singleton] at he
      subst he
      simp only [show hasPrefix "_attrs_" "_dims" = false by decide, Bool.false_eq_true, not_false_eq_true]
    have h3 : ((p.cm.ents.map fun e => ("_cdims_" ++ e.1, (H5Val.text (joinComma e.2.1) : H5Val ν))).filter fun e => hasPrefix "_attrs_" e.1) = [] := by
      rw [List.filter_eq_nil_iff]
      intro e he
      obtain ⟨x, _, rfl⟩ := List.mem_map.1 he
      rw [no_prefix ⟨1, by decide, by decide, by decide⟩]
      simp
    rw [h1, h2, h3, List.append_nil, List.append_nil]
  simp only [hf, List.map_map]
  have hm : (p.dump.map ((fun e : String × H5Val ν => (removeAll "_attrs_" e.1, e.2)) ∘ fun e => ("_attrs_" ++ e.1, e.2))) = p.dump := by
    conv_rhs => rw [← List.map_id p.dump]
    apply List.map_congr_left
    rintro ⟨k, v⟩ he
    have hk : k ∈ p.dump.keys := List.mem_map_of_mem he
    have hl : Lacks "_attrs_" k := by
      rw [dump_keys] at hk
      rcases List.mem_append.1 hk with hk | hk
      · exact (h.attrs k hk).1
      · simp only [List.mem_cons, List.not_mem_nil, or_false] at hk
        rcases hk with rfl | rfl <;> (unfold Lacks; decide)
    simp only [Function.comp_apply, id]
    rw [removeAll_prefix (by decide) hl]
  rw [hm, update_nil (dump_nodup h)]

theorem dump_coords {p : DPatch α ν} (h : Saveable p) : p.dump.get? "coords" = some (.coords p.summaries) :=
  Dict.get?_of_mem (dump_nodup h) (by simp [DPatch.dump])

theorem dump_dims {p : DPatch α ν} (h : Saveable p) : p.dump.get? "dims" = some (.text (joinComma p.cm.dims)) :=
  Dict.get?_of_mem (dump_nodup h) (by simp [DPatch.dump])

theorem plain_dump (p : DPatch α ν) : plainAttrs p.dump = p.attrs := by
  unfold plainAttrs DPatch.dump
  rw [List.filterMap_append, List.filterMap_map]
  simp

theorem readDims_saved {p : DPatch α ν} (hw : WellFormed p.cm) (h : Saveable p) :
    readDims (⟨p.savedAttrs, p.savedNodes⟩ : H5Group α ν) = .ok p.cm.dims := by
  unfold readDims
  have : Dict.get? p.savedAttrs "_dims" = some (.text (joinComma p.cm.dims)) :=
    Dict.get?_of_mem (savedAttrs_nodup hw h) (by unfold DPatch.savedAttrs; simp)
  simp only [this]
  by_cases hd : p.cm.dims = []
  · rw [if_pos ((joinComma_eq_empty h.dims).2 hd), hd]
  · rw [if_neg (fun he => hd ((joinComma_eq_empty h.dims).1 he)), splitComma_join (fun d hm => (h.dims d hm).2) hd]

theorem readData_saved {p : DPatch α ν} (hw : WellFormed p.cm) (hs : p.data.shape ≠ []) :
    readData (⟨p.savedAttrs, p.savedNodes⟩ : H5Group α ν) = .ok p.data := by
  unfold readData
  have : Dict.get? p.savedNodes "data" = some (.data p.data) :=
    Dict.get?_of_mem (savedNodes_nodup hw) (by unfold DPatch.savedNodes; rw [if_neg hs]; simp)
  simp only [this]

theorem mapM_map_congr {β γ δ : Type} {f : γ → Except Err δ} {g : β → Except Err δ} (q : β → γ) : ∀ {l : List β}, (∀ x ∈ l, f (q x) = g x) →
    (l.map q).mapM f = l.mapM g
  | [], _ => rfl
  | x :: l, h => by
    rw [List.map_cons, List.mapM_cons, List.mapM_cons, h x (by simp), mapM_map_congr q fun y hy => h y (by simp [hy])]

theorem dynAttr_short {s : Dict (H5Summary ν)} {name second : String} (h : '_' ∉ name.toList) (hd : name ≠ "d") (h2 : '_' ∉ second.toList) :
    dynAttr s (name ++ ("_" ++ second)) = (s.get? name).map fun x => (x, second) := by
  unfold dynAttr
  have : (name ++ ("_" ++ second)).toList.splitOn '_' = [name.toList, second.toList] := by
    have e : (name ++ ("_" ++ second)).toList = ['_'].intercalate [name.toList, second.toList] := by
      rw [String.toList_append, String.toList_append]
      simp [List.intercalate, List.intersperse]
    rw [e]
    apply List.splitOn_intercalate
    · intro l hl
      simp only [List.mem_cons, List.not_mem_nil, or_false] at hl
      rcases hl with rfl | rfl
      · exact h
      · exact h2
    · simp
  rw [this]
  simp only [List.map_cons, List.map_nil, String.ofList_toList]
  rw [if_neg hd]

theorem summaries_get (p : DPatch α ν) (name : String) {ds : List String} {c : MCoord} (h : p.cm.ents.get? name = some (ds, c)) (ht : Tells c) :
    p.summaries.get? name = some ⟨c.stepOf, p.units.get? name⟩ := by
  unfold DPatch.summaries
  have := Dict.get?_map_val p.cm.ents (fun n (e : List String × MCoord) => (match e.2 with
    | .one _ (.part _) => (⟨none, none⟩ : H5Summary ν)
    | c => ⟨c.stepOf, p.units.get? n⟩)) name
  rw [h] at this
  refine this.trans ?_
  simp only [Option.map_some]
  cases c with
  | nd a => rfl
  | one k c =>
    cases c with
    | part n => exact absurd ht id
    | range r => rfl
    | mono vs => rfl
    | arr vs => rfl

theorem summaries_step {p : DPatch α ν} (hc : ∀ name ds k c, (name, ds, MCoord.one k c) ∈ p.cm.ents → c.Wf) {name : String} {x : H5Summary ν}
    (h : p.summaries.get? name = some x) {s : ℚ} (hs : x.step = some s) : s ≠ 0 := by
  have hm := Dict.mem_of_get? h
  unfold DPatch.summaries at hm
  obtain ⟨⟨n, ds, c⟩, he, hx⟩ := List.mem_map.1 hm
  simp only [Prod.mk.injEq] at hx
  obtain ⟨rfl, rfl⟩ := hx
  cases c with
  | nd a => cases hs
  | one k c =>
    cases c with
    | part n => cases hs
    | mono vs => cases hs
    | arr vs => cases hs
    | range r =>
      cases hs
      exact (hc _ _ _ _ he : r.Valid).step_ne

theorem coordStep_ne {p : DPatch α ν} (hc : ∀ name ds k c, (name, ds, MCoord.one k c) ∈ p.cm.ents → c.Wf) {name : String} {s : ℚ}
    (h : coordStep p.summaries name = some s) : s ≠ 0 := by
  unfold coordStep dynAttr at h
  split at h
  · rename_i x hx
    split at hx
    · simp only [Option.map_eq_some_iff, Prod.mk.injEq] at hx
      obtain ⟨y, h1, rfl, _⟩ := hx
      exact summaries_step hc h1 h
    · cases hx
  · cases h

theorem dims_join {p : DPatch α ν} (h : Saveable p) {ds : List String} (hd : ∀ d ∈ ds, d ∈ p.cm.dims) :
    (splitComma (joinComma ds)).filter (· ≠ "") = ds := by
  by_cases hn : ds = []
  · subst hn; decide
  · rw [splitComma_join (fun d hm => (h.dims d (hd d hm)).2) hn, List.filter_eq_self]
    intro d hm
    simpa using (h.dims d (hd d hm)).1

/-- A patch written into an empty group is read back. -/
theorem readPatch_saved {p : DPatch α ν} (hw : WellFormed p.cm) (hc : ∀ name ds k c, (name, ds, MCoord.one k c) ∈ p.cm.ents → c.Wf)
    (hr : Readable p.cm) (h : Saveable p) (hs : p.cm.shape = p.data.shape) (hs' : p.data.shape ≠ []) :
    ∃ q, readPatch (⟨p.savedAttrs, p.savedNodes⟩ : H5Group α ν) = .ok q ∧ ReadBack p q ∧
      (WellFormed q.cm ∧ (∀ name ds k c, (name, ds, MCoord.one k c) ∈ q.cm.ents → c.Wf) ∧ q.cm.shape = q.data.shape ∧
        ∀ name ds a, q.cm.ents.get? name = some (ds, .nd a) → p.cm.ents.get? name = some (ds, .nd a)) := by
  -- the coordinates
  have hsum : readSummaries p.dump = p.summaries := by
    unfold readSummaries; rw [dump_coords h]
  have hrc : ∀ name ds c, p.cm.ents.get? name = some (ds, c) → ∃ x, readCoord c.kind? c.arr (coordStep p.summaries name) = .ok x ∧
      (x.canon = .ok x ∧ ((∀ k d, x = .one k d → d.Wf) ∧ ∀ a, x = .nd a → c = .nd a)) ∧ SameValues c x ∧
      ∀ k r, c = .one k (.range r) → 2 ≤ r.len ∨ coordStep p.summaries name = some r.step → x = c := by
    intro name ds c hn
    obtain ⟨y, hy⟩ := hr name ds c hn
    have hm := Dict.mem_of_get? hn
    exact readCoord_spec (fun s hs => coordStep_ne hc hs) (by rintro k d rfl; exact hc _ _ _ _ hm)
      (by rintro k rfl; exact h.nulls _ _ _ hm) hy
  obtain ⟨cs, hcs⟩ := Dict.mapM_total (d := p.cm.ents)
    (f := fun e => readCoord e.2.2.kind? e.2.2.arr (coordStep p.summaries e.1)) (by
      rintro ⟨name, ds, c⟩ he
      obtain ⟨x, hx, _⟩ := hrc name ds c (Dict.get?_of_mem hw.names he)
      exact ⟨x, hx⟩)
  have hck : Dict.keys cs = p.cm.ents.keys := Dict.mapM_keys
    (f := fun e : String × List String × MCoord => readCoord e.2.2.kind? e.2.2.arr (coordStep p.summaries e.1)) hcs
  have hcn : (Dict.keys cs).Nodup := by rw [hck]; exact hw.names
  have hcg : ∀ name ds c, p.cm.ents.get? name = some (ds, c) → ∃ x, Dict.get? cs name = some x ∧
      (x.canon = .ok x ∧ ((∀ k d, x = .one k d → d.Wf) ∧ ∀ a, x = .nd a → c = .nd a)) ∧ SameValues c x ∧
      ∀ k r, c = .one k (.range r) → 2 ≤ r.len ∨ coordStep p.summaries name = some r.step → x = c := by
    intro name ds c hn
    obtain ⟨x, h1, h2⟩ := hrc name ds c hn
    obtain ⟨v, v1, v2⟩ := mapM_get?' (f := fun e : String × List String × MCoord => readCoord e.2.2.kind? e.2.2.arr (coordStep p.summaries e.1)) hcs name hn
    simp only at v2
    rw [h1] at v2; cases v2
    exact ⟨x, v1, h2⟩
  have hA : readArrays (⟨p.savedAttrs, p.savedNodes⟩ : H5Group α ν) p.summaries = .ok cs := by
    unfold readArrays
    have hf : (p.savedNodes.filter fun e => hasPrefix "_coord_" e.1) = p.cm.ents.map fun e => ("_coord_" ++ e.1, .coord e.2.2.kind? e.2.2.arr) := by
      unfold DPatch.savedNodes
      rw [List.filter_append]
      have h1 : ((p.cm.ents.map fun e => ("_coord_" ++ e.1, (H5Node.coord e.2.2.kind? e.2.2.arr : H5Node α))).filter fun e => hasPrefix "_coord_" e.1) =
          p.cm.ents.map fun e => ("_coord_" ++ e.1, .coord e.2.2.kind? e.2.2.arr) := by
        rw [List.filter_eq_self]
        intro e he
        obtain ⟨x, _, rfl⟩ := List.mem_map.1 he
        exact hasPrefix_append _ _
      rw [h1, if_neg hs']
      have h2 : ([(("data" : String), H5Node.data p.data)].filter fun e => hasPrefix "_coord_" e.1) = [] := by
        rw [List.filter_eq_nil_iff]
        intro e he
        rw [List.mem_singleton] at he
        subst he
        simp only [show hasPrefix "_coord_" "data" = false by decide, Bool.false_eq_true, not_false_eq_true]
      rw [h2, List.append_nil]
    simp only [hf]
    rw [mapM_map_congr (fun e : String × List String × MCoord => ("_coord_" ++ e.1, H5Node.coord e.2.2.kind? e.2.2.arr))
      (g := fun e : String × List String × MCoord => (readCoord e.2.2.kind? e.2.2.arr (coordStep p.summaries e.1)).map fun c => (e.1, c)) (by
        rintro ⟨name, ds, c⟩ he
        simp only
        rw [removeAll_prefix (by decide) (h.coords name (List.mem_map_of_mem he)).1]), hcs]
    simp only [bind, Except.bind, pure, Except.pure]
    rw [update_nil hcn]
  -- with their dimensions
  have hds : ∀ name ds c, p.cm.ents.get? name = some (ds, c) → ∀ d ∈ ds, d ∈ p.cm.dims := fun name ds c hn =>
    hw.attached _ _ _ (Dict.mem_of_get? hn)
  obtain ⟨args, hargs⟩ := Dict.mapM_total (d := p.cm.ents)
    (f := fun e => match Dict.get? cs e.1 with
      | some c => (.ok (CArg.nested e.2.1 c) : Except Err CArg)
      | none => .error .assertionError) (by
      rintro ⟨name, ds, c⟩ he
      obtain ⟨x, hx, _⟩ := hcg name ds c (Dict.get?_of_mem hw.names he)
      simp only [hx]
      exact ⟨_, rfl⟩)
  have hak : Dict.keys args = p.cm.ents.keys := Dict.mapM_keys
    (f := fun e : String × List String × MCoord => match Dict.get? cs e.1 with
      | some c => (.ok (CArg.nested e.2.1 c) : Except Err CArg)
      | none => .error .assertionError) hargs
  have han : (Dict.keys args).Nodup := by rw [hak]; exact hw.names
  have hag : ∀ name ds c, p.cm.ents.get? name = some (ds, c) → ∃ x, Dict.get? cs name = some x ∧ Dict.get? args name = some (.nested ds x) := by
    intro name ds c hn
    obtain ⟨x, h1, _⟩ := hcg name ds c hn
    obtain ⟨v, v1, v2⟩ := mapM_get?' (f := fun e : String × List String × MCoord => match Dict.get? cs e.1 with
      | some c => (.ok (CArg.nested e.2.1 c) : Except Err CArg)
      | none => .error .assertionError) hargs name hn
    simp only [h1] at v2
    cases v2
    exact ⟨x, h1, v1⟩
  have hB : readArgs (⟨p.savedAttrs, p.savedNodes⟩ : H5Group α ν) cs = .ok args := by
    unfold readArgs
    have hf : (p.savedAttrs.filter fun e => hasPrefix "_cdims" e.1) = p.cm.ents.map fun e => ("_cdims_" ++ e.1, .text (joinComma e.2.1)) := by
      unfold DPatch.savedAttrs
      rw [List.filter_append, List.filter_append]
      have h1 : ((p.dump.map fun e => ("_attrs_" ++ e.1, e.2)).filter fun e => hasPrefix "_cdims" e.1) = [] := by
        rw [List.filter_eq_nil_iff]
        intro e he
        obtain ⟨x, _, rfl⟩ := List.mem_map.1 he
        rw [no_prefix ⟨1, by decide, by decide, by decide⟩]
        simp
      have h2 : ([(("_dims" : String), (H5Val.text (joinComma p.cm.dims) : H5Val ν))].filter fun e => hasPrefix "_cdims" e.1) = [] := by
        rw [List.filter_eq_nil_iff]
        intro e he
        rw [List.mem_singleton] at he
        subst he
        simp only [show hasPrefix "_cdims" "_dims" = false by decide, Bool.false_eq_true, not_false_eq_true]
      have h3 : ((p.cm.ents.map fun e => ("_cdims_" ++ e.1, (H5Val.text (joinComma e.2.1) : H5Val ν))).filter fun e => hasPrefix "_cdims" e.1) =
          p.cm.ents.map fun e => ("_cdims_" ++ e.1, .text (joinComma e.2.1)) := by
        rw [List.filter_eq_self]
        intro e he
        obtain ⟨x, _, rfl⟩ := List.mem_map.1 he
        have : "_cdims_" ++ x.1 = "_cdims" ++ ("_" ++ x.1) := by
          rw [← String.append_assoc]; rfl
        rw [this]
        exact hasPrefix_append _ _
      rw [h1, h2, h3, List.nil_append, List.nil_append]
    simp only [hf]
    rw [mapM_map_congr (fun e : String × List String × MCoord => ("_cdims_" ++ e.1, (H5Val.text (joinComma e.2.1) : H5Val ν)))
      (g := fun e : String × List String × MCoord => (match Dict.get? cs e.1 with
      | some c => (.ok (CArg.nested e.2.1 c) : Except Err CArg)
      | none => .error .assertionError).map fun c => (e.1, c)) (by
        rintro ⟨name, ds, c⟩ he
        simp only
        have hn := Dict.get?_of_mem hw.names he
        rw [removeAll_prefix (by decide) (h.coords name (List.mem_map_of_mem he)).2.1]
        obtain ⟨x, hx, _⟩ := hag name ds c hn
        simp only [hx]
        rw [dims_join h (hds name ds c hn)]
        rfl), hargs]
    simp only [bind, Except.bind, pure, Except.pure]
    rw [update_nil han]
  -- the manager
  have hmem : ∀ name a, Dict.get? args name = some a → ∃ ds c x, p.cm.ents.get? name = some (ds, c) ∧ a = .nested ds x ∧ Dict.get? cs name = some x := by
    intro name a ha
    obtain ⟨⟨ds, c⟩, hn⟩ := Dict.mem_keys.1 (by rw [← hak]; exact Dict.mem_keys.2 ⟨_, ha⟩ : name ∈ p.cm.ents.keys)
    obtain ⟨x, h1, h2⟩ := hag name ds c hn
    rw [ha] at h2; cases h2
    exact ⟨ds, c, x, hn, rfl, h1⟩
  obtain ⟨e, he, hek, heg⟩ := coordDimMap_total (coords := args) (dims := p.cm.dims) han (by
    intro name a ha
    obtain ⟨ds, c, x, hn, rfl, hx⟩ := hmem name a ha
    obtain ⟨x', h1, h2, _⟩ := hcg name ds c hn
    rw [hx] at h1; cases h1
    exact ⟨ds, x, x, rfl, h2.1, hds name ds c hn⟩)
  have hee : ∀ name ds c, p.cm.ents.get? name = some (ds, c) → ∃ x, Dict.get? e name = some (ds, x) ∧ SameValues c x ∧
      (∀ k r, c = .one k (.range r) → 2 ≤ r.len ∨ coordStep p.summaries name = some r.step → x = c) ∧
      (∀ k d, x = .one k d → d.Wf) ∧ ∀ a, x = .nd a → c = .nd a := by
    intro name ds c hn
    obtain ⟨x, h1, h2⟩ := hag name ds c hn
    obtain ⟨x', g1, g2, g3, g4⟩ := hcg name ds c hn
    rw [h1] at g1; cases g1
    obtain ⟨y, y1, y2⟩ := heg name _ ds x h2 rfl
    rw [g2.1] at y1; cases y1
    exact ⟨x, y2, g3, g4, g2.2⟩
  have hkk : Dict.keys e = p.cm.ents.keys := by rw [hek, hak]
  have hlen : ∀ d ∈ p.cm.dims, Ents.lenOf e d = p.cm.ents.lenOf d := by
    intro d hd
    obtain ⟨c, n, h1, _⟩ := CM.WellFormed.get_dim hw hd
    obtain ⟨x, x1, x2, _⟩ := hee d [d] c h1
    unfold Ents.lenOf
    rw [h1, x1]
    exact SameValues.len x2
  have hmk : CM.mk? p.cm.dims e = .ok ⟨p.cm.dims, e⟩ := by
    apply CM.mk?_of
    · intro d hd
      obtain ⟨c, n, h1, _⟩ := CM.WellFormed.get_dim hw hd
      obtain ⟨x, x1, _⟩ := hee d [d] c h1
      exact ⟨x, x1⟩
    · rintro ⟨name, ds, x⟩ hp
      have hn := Dict.get?_of_mem (by rw [hkk]; exact hw.names) hp
      obtain ⟨⟨ds', c⟩, hn'⟩ := Dict.mem_keys.1 (by rw [← hkk]; exact Dict.mem_keys.2 ⟨_, hn⟩ : name ∈ p.cm.ents.keys)
      obtain ⟨x', x1, x2, _⟩ := hee name ds' c hn'
      rw [hn] at x1; cases x1
      refine ⟨hds name ds c hn', ?_⟩
      by_cases hne : ds = []
      · exact Or.inl hne
      · right
        show ds.map (Ents.lenOf e) = x.shape
        rw [x2.1, CM.WellFormed.shape_eq hw (Dict.mem_of_get? hn') hne]
        exact List.map_congr_left fun d hd => hlen d (hds name ds c hn' d hd)
  have hgm : getCoordManager args p.cm.dims = .ok ⟨p.cm.dims, e⟩ := by
    unfold getCoordManager
    rw [he]
    exact hmk
  have hshape : (⟨p.cm.dims, e⟩ : CM).shape = p.data.shape := by
    rw [← hs]
    unfold CM.shape
    simp only
    rw [List.map_congr_left hlen]
  refine ⟨⟨⟨p.cm.dims, e⟩, p.data, p.attrs, cs.filterMap fun e => (coordUnits p.attrs p.summaries e.1).map fun u => (e.1, u)⟩, ?_, ?_⟩
  · unfold readPatch
    simp only [readAttrs_saved h, hsum, readDims_saved hw h, hA, readData_saved hw hs', bind, Except.bind, hB, hgm, dump_dims h, plain_dump, ne_eq, not_true_eq_false, if_false, hshape]
  · refine ⟨⟨rfl, rfl, fun _ => rfl, hkk, ?_, ?_, ?_⟩, CM.mk?_wf hmk (by rw [hkk]; exact hw.names), ?_, hshape, ?_⟩
    · intro name ds c hn
      obtain ⟨x, h1, h2, _⟩ := hee name ds c hn
      exact ⟨x, h1, h2⟩
    · intro name ds k r hn hlong
      obtain ⟨x, h1, _, h3, _⟩ := hee name ds _ hn
      rw [h3 k r rfl] at h1
      · exact h1
      · rcases hlong with hl | ⟨hl1, hl2⟩
        · exact Or.inl hl
        · right
          unfold coordStep
          have : name ++ "_step" = name ++ ("_" ++ "step") := rfl
          rw [this, dynAttr_short hl1 hl2 (by decide), summaries_get p name hn trivial]
          rfl
    · intro name ds c hn ht hsn
      show Dict.get? (cs.filterMap fun e => (coordUnits p.attrs p.summaries e.1).map fun u => (e.1, u)) name = _
      rw [get?_filterMap_val (fun n _ => coordUnits p.attrs p.summaries n) hcn]
      obtain ⟨x, hx, _⟩ := hag name ds c hn
      rw [hx]
      simp only [Option.bind_some]
      unfold coordUnits
      have h0 : p.attrs.get? (name ++ "_units") = none := by
        rw [Dict.get?_eq_none]
        intro hk
        exact (h.attrs _ hk).2.2.2 name (Dict.mem_keys.2 ⟨_, hn⟩) rfl
      rw [h0]
      simp only
      rw [if_neg hsn.2.2]
      have : name ++ "_units" = name ++ ("_" ++ "units") := rfl
      rw [this, dynAttr_short hsn.1 hsn.2.1 (by decide), summaries_get p name hn ht]
      rfl
    · intro name ds k c hm
      have hn : Dict.get? e name = some (ds, .one k c) := Dict.get?_of_mem (by rw [hkk]; exact hw.names) hm
      obtain ⟨⟨ds', c'⟩, hn'⟩ := Dict.mem_keys.1 (by rw [← hkk]; exact Dict.mem_keys.2 ⟨_, hn⟩ : name ∈ p.cm.ents.keys)
      obtain ⟨x, h1, _, _, h3, _⟩ := hee name ds' c' hn'
      rw [hn] at h1; cases h1
      exact h3 k c rfl
    · intro name ds a hn
      obtain ⟨⟨ds', c'⟩, hn'⟩ := Dict.mem_keys.1 (by rw [← hkk]; exact Dict.mem_keys.2 ⟨_, hn⟩ : name ∈ p.cm.ents.keys)
      obtain ⟨x, h1, _, _, _, h3⟩ := hee name ds' c' hn'
      simp only at hn
      rw [hn] at h1; cases h1
      rw [hn', h3 a rfl]

end Verif
