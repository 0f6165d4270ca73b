import Verif.Spec.PatchAttrs
import Verif.Proof.Merge
import Verif.Proof.Relative
import Verif.Proof.UpdateDim
import Verif.Props.CoordLimits
/-! # Lemmas: attributes and coordinates -/
namespace Verif
open Spec

variable {ν α : Type}

/-! ### Dictionaries -/

theorem Dict.mem_keys_update {β : Type} (d e : Dict β) (k : String) : k ∈ (d.update e).keys ↔ k ∈ d.keys ∨ k ∈ e.keys := by
  unfold Dict.update
  induction e generalizing d with
  | nil => simp [Dict.keys]
  | cons p e ih =>
    have hc : Dict.keys (p :: e) = p.1 :: Dict.keys e := rfl
    rw [List.foldl_cons, ih, Dict.keys_set, hc, List.mem_cons]
    split_ifs with h
    · constructor
      · rintro (h1 | h1)
        · exact Or.inl h1
        · exact Or.inr (Or.inr h1)
      · rintro (h1 | rfl | h1)
        · exact Or.inl h1
        · exact Or.inl h
        · exact Or.inr h1
    · rw [List.mem_append, List.mem_singleton]; tauto

theorem Dict.mem_keys_filter {β : Type} (d : Dict β) (g : String × β → Bool) {k : String} (h : k ∈ Dict.keys (d.filter g)) : k ∈ d.keys := by
  simp only [Dict.keys, List.mem_map, List.mem_filter] at h ⊢
  obtain ⟨x, ⟨h1, _⟩, h2⟩ := h
  exact ⟨x, h1, h2⟩

theorem Dict.mem_keys_filter_name {β : Type} (d : Dict β) (g : String → Bool) {k : String} : k ∈ Dict.keys (d.filter fun e => g e.1) ↔ k ∈ d.keys ∧ g k = true := by
  simp only [Dict.keys, List.mem_map, List.mem_filter]
  constructor
  · rintro ⟨x, ⟨h1, h3⟩, h2⟩; exact ⟨⟨x, h1, h2⟩, by rw [← h2]; exact h3⟩
  · rintro ⟨⟨x, h1, h2⟩, h3⟩; exact ⟨x, ⟨h1, by rw [h2]; exact h3⟩, h2⟩

/-! ### Names -/

theorem isCoordStr_iff {d s : String} : isCoordStr d s = true ↔ ∃ f ∈ coordFields, ∃ x y, s = d ++ x ++ "_" ++ f ++ y := by
  unfold isCoordStr
  simp only [Bool.and_eq_true, List.isPrefixOf_iff_prefix, List.any_eq_true]
  constructor
  · rintro ⟨⟨t, ht⟩, f, hf, r, hr, ⟨y, hy⟩⟩
    rw [List.mem_tails] at hr
    obtain ⟨x, hx⟩ := hr
    refine ⟨f, hf, String.ofList x, String.ofList y, ?_⟩
    rw [← String.toList_inj]
    rw [← ht, List.drop_left] at hx
    rw [← hy] at hx
    simp only [String.toList_append, String.toList_ofList] at hx ⊢
    rw [← ht, ← hx]
    simp
  · rintro ⟨f, hf, x, y, rfl⟩
    refine ⟨⟨(x ++ "_" ++ f ++ y).toList, by simp⟩, f, hf, ("_" ++ f ++ y).toList, ?_, ⟨y.toList, by simp⟩⟩
    rw [List.mem_tails]
    exact ⟨x.toList, by simp⟩

theorem splitOn_word {l m : List Char} (hl : '_' ∉ l) (hm : '_' ∉ m) : (l ++ '_' :: m).splitOn '_' = [l, m] := by
  have h := List.splitOn_intercalate (ls := [l, m]) '_' (by simp [hl, hm]) (by simp)
  simpa [List.intercalate] using h

theorem field_plain {f : String} (h : f ∈ coordFields) : '_' ∉ f.toList := by
  simp only [coordFields, List.mem_cons, List.not_mem_nil, or_false] at h
  rcases h with rfl | rfl | rfl | rfl | rfl <;> decide

theorem firstPart_word {d z : String} (hd : '_' ∉ d.toList) : firstPart (d ++ ("_" ++ z)) = d := by
  unfold firstPart
  rw [← String.toList_inj, String.toList_ofList, String.toList_append, List.takeWhile_append_of_pos]
  · simp
  · intro c hc
    simp only [decide_eq_true_eq]
    rintro rfl
    exact hd hc

theorem not_coordStr_old (d : String) : isCoordStr d ("d_" ++ d) = false := by
  rw [← Bool.not_eq_true, isCoordStr_iff]
  rintro ⟨f, hf, x, y, h⟩
  have h := congrArg (fun s : String => s.toList.length) h
  simp only [String.toList_append, List.length_append] at h
  have h2 : "d_".toList.length = 2 := rfl
  have h3 : "_".toList.length = 1 := rfl
  have h4 : 3 ≤ f.toList.length := by
    simp only [coordFields, List.mem_cons, List.not_mem_nil, or_false] at hf
    rcases hf with rfl | rfl | rfl | rfl | rfl <;> decide
  omega

theorem parts_field {d f : String} (hd : '_' ∉ d.toList) (hf : f ∈ coordFields) :
    firstPart (d ++ "_" ++ f) = d ∧ secondPart (d ++ "_" ++ f) = f := by
  have h : (d ++ "_" ++ f).toList.splitOn '_' = [d.toList, f.toList] := by
    rw [show (d ++ "_" ++ f).toList = d.toList ++ '_' :: f.toList by simp]
    exact splitOn_word hd (field_plain hf)
  refine ⟨?_, by unfold secondPart; rw [h]; simp⟩
  rw [String.append_assoc]
  exact firstPart_word hd

theorem looks_field {d f : String} (hf : f ∈ coordFields) : isCoordStr d (d ++ "_" ++ f) = true :=
  isCoordStr_iff.2 ⟨f, hf, "", "", by simp⟩

/-! ### What attributes say about a dimension -/

theorem mem_topLevel {pl : Dict (AttrVal ν)} {d f : String} : f ∈ (topLevel pl d).keys ↔
    (∃ key ∈ pl.keys, isCoordStr d key = true ∧ secondPart key = f) ∨ f = "step" ∧ "d_" ++ d ∈ pl.keys := by
  have hfound : f ∈ (Dict.update [] ((pl.filter fun e => isCoordStr d e.1).map fun e => (secondPart e.1, e.2))).keys ↔
      ∃ key ∈ pl.keys, isCoordStr d key = true ∧ secondPart key = f := by
    rw [Dict.mem_keys_update]
    simp only [Dict.keys, List.map_nil, List.not_mem_nil, false_or, List.map_map, List.mem_map, List.mem_filter, Function.comp]
    constructor
    · rintro ⟨x, ⟨h1, h2⟩, h3⟩; exact ⟨x.1, ⟨x, h1, rfl⟩, h2, h3⟩
    · rintro ⟨_, ⟨x, h1, rfl⟩, h2, h3⟩; exact ⟨x, ⟨h1, h2⟩, h3⟩
  unfold topLevel
  cases hg : pl.get? ("d_" ++ d) with
  | none =>
    have : "d_" ++ d ∉ pl.keys := Dict.get?_eq_none.1 hg
    simp only [hfound, this, and_false, or_false]
  | some v =>
    have : "d_" ++ d ∈ pl.keys := Dict.mem_keys.2 ⟨v, hg⟩
    simp only [Dict.keys_set, this, and_true]
    split_ifs with h
    · rw [hfound]
      constructor
      · exact Or.inl
      · rintro (h1 | rfl)
        · exact h1
        · exact hfound.1 h
    · rw [List.mem_append, List.mem_singleton, hfound]

theorem topLevel_nil {pl : Dict (AttrVal ν)} {d : String} (h : ∀ key ∈ pl.keys, ¬ LooksLike d key) : topLevel pl d = [] := by
  have : ∀ f, f ∉ (topLevel pl d).keys := by
    intro f hf
    rcases mem_topLevel.1 hf with ⟨key, h1, h2, _⟩ | ⟨_, h1⟩
    · exact h key h1 (Or.inl (isCoordStr_iff.1 h2))
    · exact h _ h1 (Or.inr rfl)
  cases ht : topLevel pl d with
  | nil => rfl
  | cons p l => exact absurd (by rw [ht]; simp [Dict.keys]) (this p.1)

theorem get?_addTopLevel (req : List String) (pl : Dict (AttrVal ν)) (ds : List String) (out : Dict (CoordInfo ν)) (n : String) :
    (ds.foldl (addTopLevel req pl) out).get? n = if n ∈ ds ∧ meetsRequired req (topLevel pl n).keys = true then some (topLevel pl n) else out.get? n := by
  induction ds generalizing out with
  | nil => simp
  | cons d ds ih =>
    rw [List.foldl_cons, ih]
    by_cases h : n ∈ ds ∧ meetsRequired req (topLevel pl n).keys = true
    · rw [if_pos h, if_pos ⟨List.mem_cons_of_mem _ h.1, h.2⟩]
    · rw [if_neg h]
      unfold addTopLevel
      split_ifs with h1 h2 h2
      · rw [Dict.get?_set]
        rw [List.mem_cons] at h2
        rcases h2 with ⟨rfl | h3, h4⟩
        · rw [if_pos rfl]
        · exact absurd ⟨h3, h4⟩ h
      · rw [Dict.get?_set, if_neg]
        rintro rfl
        exact h2 ⟨List.mem_cons_self, h1⟩
      · rw [List.mem_cons] at h2
        rcases h2 with ⟨rfl | h3, h4⟩
        · exact absurd h4 h1
        · exact absurd ⟨h3, h4⟩ h
      · rfl

theorem addTopLevel_mem {req : List String} {pl : Dict (AttrVal ν)} {ds : List String} {out : Dict (CoordInfo ν)} {e : String × CoordInfo ν}
    (h : e ∈ ds.foldl (addTopLevel req pl) out) : e ∈ out ∨ e.1 ∈ ds := by
  induction ds generalizing out with
  | nil => exact Or.inl h
  | cons d ds ih =>
    rw [List.foldl_cons] at h
    rcases ih h with h1 | h1
    · unfold addTopLevel at h1
      split_ifs at h1
      · by_cases hd : e.1 = d
        · exact Or.inr (by rw [hd]; exact List.mem_cons_self)
        · refine Or.inl ?_
          unfold Dict.set at h1
          split_ifs at h1
          · rw [List.mem_map] at h1
            obtain ⟨x, hx, hxe⟩ := h1
            split_ifs at hxe with h2
            · exact absurd (by rw [← hxe]) hd
            · rw [← hxe]; exact hx
          · rw [List.mem_append, List.mem_singleton] at h1
            rcases h1 with h1 | rfl
            · exact h1
            · exact absurd rfl hd
      · exact Or.inl h1
    · exact Or.inr (List.mem_cons_of_mem _ h1)

theorem addTopLevel_same {req : List String} {pl : Dict (AttrVal ν)} {ds : List String} {out : Dict (CoordInfo ν)}
    (h : ∀ d ∈ ds, meetsRequired req (topLevel pl d).keys = false) : ds.foldl (addTopLevel req pl) out = out := by
  induction ds with
  | nil => rfl
  | cons d ds ih =>
    rw [List.foldl_cons, addTopLevel, h d List.mem_cons_self]
    exact ih fun d' hd' => h d' (List.mem_cons_of_mem _ hd')

theorem popped_iff {out : Dict (CoordInfo ν)} {key : String} : popped out key = true ↔
    ∃ e ∈ out, (∃ f ∈ e.2.keys, key = e.1 ++ "_" ++ f) ∨ "step" ∈ e.2.keys ∧ key = "d_" ++ e.1 := by
  unfold popped
  simp only [List.any_eq_true, Bool.or_eq_true, Bool.and_eq_true, beq_iff_eq, List.contains_iff_mem]

theorem meetsRequired_nil {keys : List String} : meetsRequired [] keys = true ↔ keys ≠ [] := by
  unfold meetsRequired
  cases keys <;> simp

theorem meetsRequired_limits {keys : List String} (h : meetsRequired ["min", "max"] keys = true) : "min" ∈ keys ∧ "max" ∈ keys := by
  unfold meetsRequired at h
  simp only [Bool.and_eq_true, List.all_cons, List.all_nil, List.contains_iff_mem] at h
  exact ⟨h.2.1, h.2.2.1⟩

/-! ### Separating -/

theorem separate_ok {obj rest : Attrs ν} {dims req : List String} {info : Dict (CoordInfo ν)} (h : separateCoordInfo obj dims req = some (info, rest)) :
    info = (usedDims req obj dims).foldl (addTopLevel req obj.plain) (obj.coords.filter fun e => meetsRequired req e.2.keys) ∧
    rest = ⟨obj.plain.filter fun e => !popped info e.1, usedDims req obj dims, []⟩ := by
  unfold separateCoordInfo at h
  split_ifs at h
  · simp only [Option.some.injEq, Prod.mk.injEq] at h
    obtain ⟨h1, h2⟩ := h
    refine ⟨h1.symm, ?_⟩
    rw [← h2, ← h1]

theorem separate_some {obj : Attrs ν} {dims req : List String} (h : ∃ d ∈ usedDims req obj dims, d ∉ obj.plain.keys) :
    ∃ r, separateCoordInfo obj dims req = some r := by
  unfold separateCoordInfo
  rw [if_neg]
  · exact ⟨_, rfl⟩
  · obtain ⟨d, hd, hn⟩ := h
    simp only [Bool.and_eq_true, List.all_eq_true, List.contains_iff_mem, not_and]
    intro _ hall
    exact hn (hall d hd)

theorem usedDims_given {req : List String} {obj : Attrs ν} {dims : List String} (h : obj.dims = dims) (hd : dims ≠ []) : usedDims req obj dims = dims := by
  unfold usedDims
  have : dimsIn req obj = dims := by
    unfold dimsIn
    rw [if_pos (by rw [h]; exact hd), h]
  rw [this, if_pos hd]

/-! ### Summaries -/

theorem summary_keys (units : Dict ν) (name : String) (c : MCoord) : Dict.keys (summaryOf units name c) = coordFields := rfl

theorem cast_summary (units : Dict ν) (name : String) (c : MCoord) : castSummary (summaryOf units name c) = summaryOf units name c := by
  cases c <;> rfl

theorem keys_summaries (units : Dict ν) (m : CM) : (m.summaries units).keys = m.ents.keys := by
  unfold CM.summaries Dict.keys; rw [List.map_map]; rfl

theorem get?_summaries (units : Dict ν) (m : CM) (n : String) : (m.summaries units).get? n = (m.ents.get? n).map fun e => summaryOf units n e.2 :=
  Dict.get?_map_val m.ents (fun n e => summaryOf units n e.2) n

theorem describes_summary (units : Dict ν) (name : String) (c : MCoord) : Describes units name c (summaryOf units name c) := by
  refine ⟨rfl, ?_, ?_, ?_, ?_, ?_⟩
  · rintro k l rfl hl m hm
    change some (AttrVal.ofOption (MCoord.one k l).lowest) = _
    cases hlo : (MCoord.one k l).lowest with
    | some a => rw [isMin_unique (lowest_isMin hl hlo) hm]; rfl
    | none =>
      exfalso
      cases l with
      | range r => cases hlo
      | mono vs => cases vs with
        | nil => exact absurd hm.1 (by simp [Coord.vals])
        | cons v vs => cases hlo
      | arr vs => cases vs with
        | nil => exact absurd hm.1 (by simp [Coord.vals])
        | cons v vs => cases hlo
      | part n => exact absurd hm.1 (by simp [Coord.vals])
  · rintro k l rfl hl m hm
    change some (AttrVal.ofOption (MCoord.one k l).highest) = _
    cases hlo : (MCoord.one k l).highest with
    | some a =>
      have h := highest_isMax hl hlo
      rw [le_antisymm (hm.2 a h.1) (h.2 m hm.1)]; rfl
    | none =>
      exfalso
      cases l with
      | range r => cases hlo
      | mono vs => cases vs with
        | nil => exact absurd hm.1 (by simp [Coord.vals])
        | cons v vs => cases hlo
      | arr vs => cases vs with
        | nil => exact absurd hm.1 (by simp [Coord.vals])
        | cons v vs => cases hlo
      | part n => exact absurd hm.1 (by simp [Coord.vals])
  · rintro k r rfl; rfl
  · intro h
    cases c with
    | nd a => rfl
    | one k l => cases l with
      | range r => exact absurd rfl (h k r)
      | _ => rfl
  · intro h
    have hx : ((units.get? name).map AttrVal.val).getD .null = (units.get? name).elim .null .val := by
      cases units.get? name <;> rfl
    rw [← hx]
    cases c with
    | nd a => rfl
    | one k l => cases l with
      | part n => exact absurd rfl (h k n)
      | _ => rfl

/-! ### Building attributes -/

theorem build_ok {pl : Dict (AttrVal ν)} {ds : List String} {co : Dict (CoordInfo ν)} {a : Attrs ν} (h : Attrs.build ⟨pl, ds, co⟩ = .ok a) (hd : a.dims = ds)
    (hco : ∀ e ∈ co, meetsRequired ["min", "max"] e.2.keys = true) (htop : ∀ d ∈ ds, "min" ∉ (topLevel pl d).keys ∨ "max" ∉ (topLevel pl d).keys) :
    a.coords = co.map (fun e => (e.1, castSummary e.2)) ∧ a.plain = pl.filter fun e => !popped co e.1 := by
  unfold Attrs.build at h
  cases hs : separateCoordInfo (⟨pl, ds, co⟩ : Attrs ν) ds ["min", "max"] with
  | none => rw [hs] at h; cases h
  | some r =>
    obtain ⟨info, rest⟩ := r
    rw [hs] at h
    simp only [Except.ok.injEq] at h
    obtain ⟨h1, h2⟩ := separate_ok hs
    have hco' : co.filter (fun e => meetsRequired ["min", "max"] e.2.keys) = co := List.filter_eq_self.2 hco
    have hu : ∀ d ∈ usedDims ["min", "max"] (⟨pl, ds, co⟩ : Attrs ν) ds, d ∈ ds := by
      by_cases hds : ds = []
      · intro d hdu
        rw [← hd, ← h]
        simp only
        rw [if_pos]
        · rw [h2]; exact hdu
        · rw [h2]; exact List.ne_nil_of_mem hdu
      · rw [usedDims_given rfl hds]; exact fun d hd => hd
    have hinfo : info = co := by
      rw [h1, hco']
      apply addTopLevel_same
      intro d hdu
      rw [← Bool.not_eq_true]
      intro hm
      have := meetsRequired_limits hm
      rcases htop d (hu d hdu) with h3 | h3
      · exact h3 this.1
      · exact h3 this.2
    refine ⟨by rw [← h, hinfo], ?_⟩
    rw [← h]
    simp only
    rw [h2, hinfo]

theorem build_dims {obj a : Attrs ν} (h : obj.build = .ok a) (hd : obj.dims ≠ []) : a.dims = obj.dims := by
  unfold Attrs.build at h
  split at h
  · cases h
  · next info rest hs =>
    cases h
    have := (separate_ok hs).2
    simp only [this, usedDims_given (obj := obj) rfl hd]
    rw [if_pos hd]

theorem cast_summaries (units : Dict ν) (m : CM) : (m.summaries units).map (fun e => (e.1, castSummary e.2)) = m.summaries units := by
  unfold CM.summaries
  rw [List.map_map]
  apply List.map_congr_left
  intro e _
  simp only [Function.comp, cast_summary]

theorem limits_summaries (units : Dict ν) (m : CM) : ∀ e ∈ m.summaries units, meetsRequired ["min", "max"] e.2.keys = true := by
  intro e he
  unfold CM.summaries at he
  obtain ⟨x, _, rfl⟩ := List.mem_map.1 he
  simp only [summary_keys]
  rfl

theorem popped_summaries {units : Dict ν} {m : CM} {name key : String} (hn : name ∈ m.ents.keys) (h : FieldOf name key) : popped (m.summaries units) key = true := by
  rw [popped_iff]
  obtain ⟨x, hx, rfl⟩ := List.mem_map.1 hn
  refine ⟨(x.1, summaryOf units x.1 x.2.2), List.mem_map.2 ⟨x, hx, rfl⟩, ?_⟩
  simp only [summary_keys]
  rcases h with ⟨f, hf, rfl⟩ | rfl
  · exact Or.inl ⟨f, hf, rfl⟩
  · exact Or.inr ⟨by decide, rfl⟩

theorem popped_summaries_iff {units : Dict ν} {m : CM} {key : String} : popped (m.summaries units) key = true ↔ ∃ name ∈ m.ents.keys, FieldOf name key := by
  refine ⟨?_, fun ⟨_, h1, h2⟩ => popped_summaries h1 h2⟩
  rw [popped_iff]
  rintro ⟨e, he, h⟩
  obtain ⟨x, hx, rfl⟩ := List.mem_map.1 he
  simp only [summary_keys] at h
  refine ⟨x.1, List.mem_map.2 ⟨x, hx, rfl⟩, ?_⟩
  rcases h with h | h
  · exact Or.inl h
  · exact Or.inr h.2

/-- Attributes built from coordinates tell what these are. -/
theorem build_summaries {pl : Dict (AttrVal ν)} {units : Dict ν} {m : CM} {a : Attrs ν} (h : Attrs.build ⟨pl, m.dims, m.summaries units⟩ = .ok a) (hd : a.dims = m.dims)
    (htop : ∀ d ∈ m.dims, "min" ∉ (topLevel pl d).keys ∨ "max" ∉ (topLevel pl d).keys) :
    a.coords = m.summaries units ∧ a.plain = pl.filter fun e => !popped (m.summaries units) e.1 := by
  have := build_ok h hd (limits_summaries units m) htop
  rw [cast_summaries] at this
  exact this

/-! ### Updating coordinates by attributes -/

theorem updateEntry_name [DecidableEq ν] {units : Dict ν} {info : Dict (CoordInfo ν)} {e e' : String × List String × MCoord} (h : updateEntry units info e = .ok e') :
    e'.1 = e.1 ∧ e'.2.1 = e.2.1 := by
  unfold updateEntry at h
  split at h
  · cases h; exact ⟨rfl, rfl⟩
  · simp only at h
    split_ifs at h
    · cases h; exact ⟨rfl, rfl⟩
    · cases hc : e.2.2.updateInfo (infoDiff _ (summaryOf units e.1 e.2.2)) with
      | error x => rw [hc] at h; cases h
      | ok c => rw [hc] at h; cases h; exact ⟨rfl, rfl⟩

theorem entries_names [DecidableEq ν] {units : Dict ν} {info : Dict (CoordInfo ν)} {l r : Ents} (h : l.mapM (updateEntry units info) = .ok r) : r.keys = l.keys := by
  have := mapM_forall₂ h
  clear h
  unfold Dict.keys
  induction this with
  | nil => rfl
  | cons h1 _ ih => rw [List.map_cons, List.map_cons, (updateEntry_name h1).1, ih]

theorem mem_putBack {dims : List String} {info : Dict (CoordInfo ν)} {key : String} (h : key ∈ (putBack dims info).keys) :
    ∃ e ∈ info, e.1 ∉ dims ∧ ∃ f ∈ e.2.keys, key = e.1 ++ "_" ++ f := by
  unfold putBack Dict.keys at h
  simp only [List.mem_map, List.mem_flatMap, List.mem_filter] at h
  obtain ⟨x, ⟨e, ⟨he, hn⟩, g, hg, rfl⟩, rfl⟩ := h
  refine ⟨e, he, ?_, g.1, List.mem_map.2 ⟨g, hg, rfl⟩, rfl⟩
  simpa using hn

/-- The dimensions looked for are those of the patch. -/
theorem usedDims_sub {all : List String} (hall : ∀ d ∈ all, '_' ∉ d.toList) {m : CM} {a : Attrs ν} (hm : CoordsFrom all m) (ha : GoesWith all m a) :
    (∀ d ∈ usedDims [] a m.dims, d ∈ m.dims) ∧
    ∀ d ∈ m.dims, d ∉ usedDims [] a m.dims → ∀ key ∈ a.plain.keys, ∀ f ∈ coordFields, key = d ++ "_" ++ f → f = "units" ∨ f = "dtype" := by
  rcases ha.dims with h | ⟨h1, h2⟩
  · rw [usedDims_given h hm.some]
    exact ⟨fun d hd => hd, fun d hd hn => absurd hd hn⟩
  · have hin : dimsIn [] a = (((a.plain.keys.filter (isCoordStr "")).map firstPart).dedup.filter fun d =>
        meetsStrictly [] (((a.plain.keys.filter (isCoordStr "")).filter fun k => firstPart k == d).map secondPart)) := by
      unfold dimsIn
      rw [if_neg (by simp [h1])]
    have hsub : ∀ d ∈ dimsIn [] a, d ∈ m.dims := by
      intro d hd
      rw [hin, List.mem_filter, List.mem_dedup, List.mem_map] at hd
      obtain ⟨⟨key, hkey, rfl⟩, _⟩ := hd
      rw [List.mem_filter] at hkey
      obtain ⟨f, hf, x, y, hxy⟩ := isCoordStr_iff.1 hkey.2
      obtain ⟨d, hd, z, hz⟩ := h2 key hkey.1 f hf x y (by rw [hxy]; simp)
      rw [hz, String.append_assoc, firstPart_word (hall d (hm.dims d hd))]
      exact hd
    unfold usedDims
    by_cases he : dimsIn [] a = []
    · rw [if_neg (by simp [he])]
      exact ⟨fun d hd => hd, fun d hd hn => absurd hd hn⟩
    · rw [if_pos he]
      refine ⟨hsub, ?_⟩
      rintro d hd hn key hkey f hf rfl
      by_contra hne
      apply hn
      obtain ⟨p1, p2⟩ := parts_field (hall d (hm.dims d hd)) hf
      have hk : d ++ "_" ++ f ∈ a.plain.keys.filter (isCoordStr "") :=
        List.mem_filter.2 ⟨hkey, isCoordStr_iff.2 ⟨f, hf, d, "", by simp⟩⟩
      rw [hin, List.mem_filter, List.mem_dedup, List.mem_map]
      refine ⟨⟨_, hk, p1⟩, ?_⟩
      unfold meetsStrictly
      change List.any _ _ = true
      rw [List.any_eq_true]
      refine ⟨f, List.mem_map.2 ⟨_, List.mem_filter.2 ⟨hk, by rw [p1]; exact beq_self_eq_true _⟩, p2⟩, ?_⟩
      simp only [List.contains_iff_mem, List.mem_cons, List.not_mem_nil, or_false, Bool.not_eq_true', ← Bool.not_eq_true]
      exact hne

/-- What is left of the attributes when the information about coordinates has been taken out. -/
theorem rest_clear {all : List String} (hall : ∀ d ∈ all, '_' ∉ d.toList) {m : CM} {a rest : Attrs ν} {info : Dict (CoordInfo ν)} (hm : CoordsFrom all m)
    (ha : GoesWith all m a) (hs : separateCoordInfo a m.dims [] = some (info, rest)) :
    (∀ d ∈ m.dims, ∀ f ∈ (topLevel (rest.plain.update (putBack m.dims info)) d).keys, f = "units" ∨ f = "dtype" ∨ f = "step") ∧
    ∀ key ∈ (rest.plain.update (putBack m.dims info)).keys, (∃ name ∈ m.ents.keys, FieldOf name key) ∨ SilentOn all key := by
  obtain ⟨h1, h2⟩ := separate_ok hs
  obtain ⟨hu1, hu2⟩ := usedDims_sub hall hm ha
  have hback : ∀ key ∈ (putBack m.dims info).keys, ∃ name ∈ m.ents.keys, name ∉ m.dims ∧ ∃ f ∈ coordFields, key = name ++ "_" ++ f := by
    intro key hkey
    obtain ⟨e, he, hed, f, hf, rfl⟩ := mem_putBack hkey
    rw [h1] at he
    rcases addTopLevel_mem he with h3 | h3
    · obtain ⟨h4, h5⟩ := ha.coords e.1 e.2 (List.mem_filter.1 h3).1
      exact ⟨e.1, h4, hed, f, h5 f hf, rfl⟩
    · exact absurd (hu1 _ h3) hed
  have hrest : ∀ key ∈ rest.plain.keys, key ∈ a.plain.keys ∧ popped info key = false := by
    intro key hkey
    rw [h2] at hkey
    have := (Dict.mem_keys_filter_name a.plain (fun k => !popped info k)).1 hkey
    exact ⟨this.1, by simpa using this.2⟩
  have hgone : ∀ d ∈ m.dims, d ∈ usedDims [] a m.dims → ∀ key ∈ rest.plain.keys, ¬ FieldOf d key := by
    intro d hd hdu key hkey hfield
    obtain ⟨h3, h4⟩ := hrest key hkey
    have hin : ∀ f, f ∈ (topLevel a.plain d).keys → (d, topLevel a.plain d) ∈ info := by
      intro f hf
      apply Dict.mem_of_get?
      rw [h1, get?_addTopLevel, if_pos]
      exact ⟨hdu, meetsRequired_nil.2 (List.ne_nil_of_mem hf)⟩
    rw [← Bool.not_eq_true] at h4
    apply h4
    rw [popped_iff]
    rcases hfield with ⟨f, hf, rfl⟩ | rfl
    · have hmem : f ∈ (topLevel a.plain d).keys := mem_topLevel.2 (Or.inl ⟨_, h3, looks_field hf, (parts_field (hall d (hm.dims d hd)) hf).2⟩)
      exact ⟨_, hin f hmem, Or.inl ⟨f, hmem, rfl⟩⟩
    · have hmem : "step" ∈ (topLevel a.plain d).keys := mem_topLevel.2 (Or.inr ⟨rfl, h3⟩)
      exact ⟨_, hin _ hmem, Or.inr ⟨hmem, rfl⟩⟩
  constructor
  · intro d hd f hf
    rcases mem_topLevel.1 hf with ⟨key, hkey, hlook, hsec⟩ | ⟨h3, _⟩
    · have hl : LooksLike d key := Or.inl (isCoordStr_iff.1 hlook)
      rcases (Dict.mem_keys_update _ _ _).1 hkey with h4 | h4
      · obtain ⟨h5, _⟩ := hrest key h4
        obtain ⟨_, hfield⟩ := ha.clear key h5 d (hm.dims d hd) hl
        by_cases hdu : d ∈ usedDims [] a m.dims
        · exact absurd hfield (hgone d hd hdu key h4)
        · rcases hfield with ⟨f', hf', rfl⟩ | rfl
          · rw [(parts_field (hall d (hm.dims d hd)) hf').2] at hsec
            subst hsec
            rcases hu2 d hd hdu _ h5 f' hf' rfl with h6 | h6
            · exact Or.inl h6
            · exact Or.inr (Or.inl h6)
          · rw [not_coordStr_old] at hlook; cases hlook
      · obtain ⟨name, h5, h6, f', hf', rfl⟩ := hback key h4
        exact absurd (hm.names name h5 f' hf' d (hm.dims d hd) hl ▸ hd) h6
    · exact Or.inr (Or.inr h3)
  · intro key hkey
    rcases (Dict.mem_keys_update _ _ _).1 hkey with h4 | h4
    · by_cases hs : SilentOn all key
      · exact Or.inr hs
      · unfold SilentOn at hs
        push Not at hs
        obtain ⟨d, hd, hl⟩ := hs
        obtain ⟨h5, h6⟩ := ha.clear key (hrest key h4).1 d hd hl
        obtain ⟨c, _, hg, _⟩ := CM.WellFormed.get_dim hm.wf h5
        exact Or.inl ⟨d, Dict.mem_keys.2 ⟨_, hg⟩, h6⟩
    · obtain ⟨name, h5, _, f, hf, rfl⟩ := hback key h4
      exact Or.inl ⟨name, h5, Or.inl ⟨f, hf, rfl⟩⟩

theorem coordsFrom_congr {all : List String} {m m' : CM} (hm : CoordsFrom all m) (hd : m'.dims = m.dims) (hk : m'.ents.keys = m.ents.keys) (hw : WellFormed m') :
    CoordsFrom all m' :=
  ⟨hw, by rw [hd]; exact hm.some, by rw [hd]; exact hm.dims, by unfold NamesDiffer; rw [hk]; exact hm.names⟩

theorem updateFrom_spec [DecidableEq ν] {all : List String} (hall : ∀ d ∈ all, '_' ∉ d.toList) {m cm : CM} {a at' : Attrs ν} {units : Dict ν} (hm : CoordsFrom all m)
    (ha : GoesWith all m a) (h : m.updateFromAttrs units a = .ok (cm, at')) :
    at'.dims = cm.dims ∧ CoordsFrom all cm ∧ at'.coords = cm.summaries units ∧ ∀ key ∈ at'.plain.keys, SilentOn all key := by
  unfold CM.updateFromAttrs at h
  cases hs : separateCoordInfo a m.dims [] with
  | none => rw [hs] at h; cases h
  | some r =>
    obtain ⟨info, rest⟩ := r
    rw [hs] at h
    simp only at h
    obtain ⟨ents, he, h⟩ := bind_split h
    obtain ⟨cm', hc, h⟩ := bind_split h
    obtain ⟨at2, hb, h⟩ := bind_split h
    cases h
    have hk : Dict.keys ents = m.ents.keys := entries_names he
    obtain ⟨hcm, _⟩ := CM.mk?_ok hc
    have hw : WellFormed cm := CM.mk?_wf hc (by rw [hk]; exact hm.wf.names)
    have hdims : cm.dims = m.dims := by rw [hcm]
    have hkeys : cm.ents.keys = m.ents.keys := by rw [hcm]; exact hk
    obtain ⟨hr1, hr2⟩ := rest_clear hall hm ha hs
    have hd : at'.dims = cm.dims := build_dims hb (by rw [hdims]; exact hm.some)
    obtain ⟨hb1, hb2⟩ := build_summaries hb hd (by
      intro d hdm
      refine Or.inl fun hmin => ?_
      rcases hr1 d (hdims ▸ hdm) "min" hmin with h1 | h1 | h1 <;> exact absurd h1 (by decide))
    refine ⟨hd, coordsFrom_congr hm hdims hkeys hw, hb1, ?_⟩
    intro key hkey
    rw [hb2] at hkey
    obtain ⟨h1, h2⟩ := (Dict.mem_keys_filter_name _ (fun k => !popped (cm.summaries units) k)).1 hkey
    rcases hr2 key h1 with ⟨name, h3, h4⟩ | h3
    · rw [popped_summaries (by rw [hkeys]; exact h3) h4] at h2
      cases h2
    · exact h3

/-! ### Histories -/

/-- What is true of all patches. -/
structure Told {α ν : Type} (all : List String) (p : LPatch α ν) : Prop where
  cm : CoordsFrom all p.cm
  dims : p.attrs.dims = p.cm.dims
  coords : p.attrs.coords = p.cm.summaries p.units
  silent : ∀ key ∈ p.attrs.plain.keys, SilentOn all key
  shape : p.cm.shape = p.data.shape

theorem fromParts_ok {data : Nd α} {cm : CM} {a : Attrs ν} {units : Dict ν} {p : LPatch α ν} (h : LPatch.fromParts data cm a units = .ok p) :
    p = ⟨cm, data, a, units⟩ ∧ a.dims = cm.dims ∧ cm.shape = data.shape := by
  unfold LPatch.fromParts at h
  split_ifs at h with h1 h2
  cases h
  push Not at h1 h2
  exact ⟨rfl, h1.symm, h2⟩

theorem silent_top {all : List String} {pl : Dict (AttrVal ν)} (hs : ∀ key ∈ pl.keys, SilentOn all key) {d : String} (hd : d ∈ all) : topLevel pl d = [] :=
  topLevel_nil fun key hk => hs key hk d hd

theorem make_told {all : List String} {data : Nd α} {cm : CM} {a : Attrs ν} {units : Dict ν} {p : LPatch α ν} (hm : CoordsFrom all cm)
    (hs : ∀ key ∈ a.plain.keys, SilentOn all key) (h : LPatch.make data cm a units = .ok p) : Told all p := by
  unfold LPatch.make at h
  obtain ⟨a', ha, h⟩ := bind_split h
  obtain ⟨rfl, hd, hsh⟩ := fromParts_ok h
  obtain ⟨h1, h2⟩ := build_summaries ha hd (by
    intro d hdm
    rw [silent_top hs (hm.dims d hdm)]
    exact Or.inl (by simp [Dict.keys]))
  refine ⟨hm, hd, h1, ?_, hsh⟩
  intro key hk
  simp only at hk
  rw [h2] at hk
  exact hs key (Dict.mem_keys_filter _ _ hk)

theorem silent_history {all : List String} : SilentOn all "history" := by
  rintro d - (⟨f, hf, x, y, h⟩ | h)
  · have h1 : '_' ∈ ("history" : String).toList := by rw [h]; simp
    exact absurd h1 (by decide)
  · have h1 : '_' ∈ ("history" : String).toList := by rw [h]; simp
    exact absurd h1 (by decide)

theorem history_told [DecidableEq ν] {all : List String} (hall : ∀ d ∈ all, '_' ∉ d.toList) {p : LPatch α ν} (h : ClearHistory all p) : Told all p := by
  induction h with
  | made hm hs h => exact make_told hm hs h
  | madeFrom hm ha h =>
    unfold LPatch.makeFrom at h
    obtain ⟨r, hr, h⟩ := bind_split h
    obtain ⟨rfl, hd, hsh⟩ := fromParts_ok h
    obtain ⟨_, h1, h2, h3⟩ := updateFrom_spec hall hm ha hr
    exact ⟨h1, hd, h2, h3, hsh⟩
  | @attrs p q kw _ hk h ih =>
    unfold LPatch.updateAttrs at h
    have hsum : ∀ name info, (name, info) ∈ p.attrs.coords → name ∈ p.cm.ents.keys ∧ ∀ f ∈ info.keys, f ∈ coordFields := by
      intro name info hmem
      rw [ih.coords] at hmem
      obtain ⟨x, hx, he⟩ := List.mem_map.1 hmem
      cases he
      exact ⟨List.mem_map.2 ⟨x, hx, rfl⟩, fun f hf => hf⟩
    split_ifs at h with hh
    · have hpl : ∀ key ∈ (p.attrs.plain.update kw).keys, SilentOn all key := by
        intro key hkey
        rcases (Dict.mem_keys_update _ _ _).1 hkey with h1 | h1
        · exact ih.silent key h1
        · rw [hh, List.mem_singleton] at h1
          rw [h1]; exact silent_history
      cases hb : Attrs.build { p.attrs with plain := p.attrs.plain.update kw } with
      | error e => rw [hb] at h; cases h
      | ok a =>
        rw [hb] at h
        cases h
        have hb' : Attrs.build ⟨p.attrs.plain.update kw, p.cm.dims, p.cm.summaries p.units⟩ = .ok a := by rw [← ih.dims, ← ih.coords]; exact hb
        have hd : a.dims = p.cm.dims := build_dims hb' ih.cm.some
        obtain ⟨h1, h2⟩ := build_summaries hb' hd (by
          intro d hdm
          rw [silent_top hpl (ih.cm.dims d hdm)]
          exact Or.inl (by simp [Dict.keys]))
        refine ⟨ih.cm, hd, h1, ?_, ih.shape⟩
        intro key hkey
        simp only at hkey
        rw [h2] at hkey
        exact hpl key (Dict.mem_keys_filter _ _ hkey)
    · obtain ⟨r, hr, h⟩ := bind_split h
      have hgo : GoesWith all p.cm { p.attrs with plain := p.attrs.plain.update kw } := by
        refine ⟨?_, Or.inl ih.dims, hsum⟩
        intro key hkey
        rcases (Dict.mem_keys_update _ _ _).1 hkey with h1 | h1
        · intro d hd hl; exact absurd hl (ih.silent key h1 d hd)
        · exact hk key h1
      obtain ⟨_, h1, h2, h3⟩ := updateFrom_spec hall ih.cm hgo hr
      exact make_told h1 h3 h
  | @withAttrs p q a _ ha h ih =>
    unfold LPatch.updateWith at h
    obtain ⟨r, hr, h⟩ := bind_split h
    obtain ⟨rfl, hd, hsh⟩ := fromParts_ok h
    obtain ⟨_, h1, h2, h3⟩ := updateFrom_spec hall ih.cm ha hr
    exact ⟨h1, hd, h2, h3, hsh⟩
  | @coords p q data cm units _ hm h ih =>
    unfold LPatch.recoord at h
    obtain ⟨rfl, hd, hsh⟩ := fromParts_ok h
    exact ⟨hm, rfl, rfl, ih.silent, hsh⟩

end Verif
