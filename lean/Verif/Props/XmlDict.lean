import Verif.Spec.XmlDict
import Mathlib.Data.List.Nodup
import Mathlib.Data.List.Perm.Basic
/-! # C110: XML turned into dictionaries -/
namespace Verif
open Spec

theorem replaceKey_keys (key : String) (v : XmlValue) (d : List (String × XmlValue)) : (replaceKey key v d).map Prod.fst = d.map Prod.fst := by
  induction d with
  | nil => rfl
  | cons x d ih =>
    unfold replaceKey
    split
    · rename_i h; simp [h]
    · simp [ih]

theorem lookup_replaceKey {key : String} {v : XmlValue} {d : List (String × XmlValue)} (hk : (d.lookup key).isSome) (t : String) :
    (replaceKey key v d).lookup t = if t = key then some v else d.lookup t := by
  induction d with
  | nil => simp at hk
  | cons x d ih =>
    obtain ⟨a, b⟩ := x
    unfold replaceKey
    by_cases h : a = key
    · subst h
      simp only [if_true, List.lookup_cons]
      by_cases ht : t = a
      · simp [ht]
      · simp [ht, beq_false_of_ne ht]
    · have hk' : (d.lookup key).isSome := by
        rw [List.lookup_cons, beq_false_of_ne (Ne.symm h)] at hk
        exact hk
      simp only [if_neg h, List.lookup_cons]
      by_cases ht : t = a
      · subst ht
        simp [h]
      · rw [beq_false_of_ne ht]
        exact ih hk'

theorem lookup_none_iff {d : List (String × XmlValue)} {t : String} : d.lookup t = none ↔ t ∉ d.map Prod.fst := by
  induction d with
  | nil => simp
  | cons x d ih =>
    obtain ⟨a, b⟩ := x
    rw [List.lookup_cons]
    by_cases h : t = a
    · simp [h]
    · rw [beq_false_of_ne h]
      simp only [ih, List.map_cons, List.mem_cons, h, false_or]

theorem lookup_append_single {d : List (String × XmlValue)} {key : String} (v : XmlValue) (hk : d.lookup key = none) (t : String) :
    (d ++ [(key, v)]).lookup t = if t = key then some v else d.lookup t := by
  rw [List.lookup_append]
  by_cases h : t = key
  · subst h
    simp [hk]
  · have : List.lookup t [(key, v)] = none := by rw [List.lookup_cons, beq_false_of_ne h]; rfl
    rw [this, if_neg h, Option.or_none]

/-- No list. -/
def Single : XmlValue → Prop
  | .list _ => False
  | _ => True

theorem xmlValue_single (e : XmlElement) : Single (xmlValue e) := by
  obtain ⟨t, x, cs⟩ := e
  cases cs <;> simp [xmlValue, Single]

theorem lookup_addChild {d : List (String × XmlValue)} {key : String} {v : XmlValue} {vs : List XmlValue} (hs : ∀ x ∈ vs, Single x)
    (h : d.lookup key = underTag vs) (t : String) :
    (addChild d key v).lookup t = if t = key then underTag (vs ++ [v]) else d.lookup t := by
  unfold addChild
  match vs, hs, h with
  | [], _, h =>
    simp only [underTag] at h
    simp only [h]
    rw [lookup_append_single v h]
    rfl
  | [x], hs, h =>
    simp only [underTag] at h
    have hx := hs x (by simp)
    have : (d.lookup key).isSome := by rw [h]; rfl
    cases x with
    | list l => exact hx.elim
    | text y => simp only [h]; rw [lookup_replaceKey this]; rfl
    | dict y => simp only [h]; rw [lookup_replaceKey this]; rfl
  | x :: y :: vs, _, h =>
    simp only [underTag] at h
    have : (d.lookup key).isSome := by rw [h]; rfl
    simp only [h]
    rw [lookup_replaceKey this]
    rfl

theorem keys_addChild {d : List (String × XmlValue)} (hd : (d.map Prod.fst).Nodup) (key : String) (v : XmlValue) :
    ((addChild d key v).map Prod.fst).Nodup := by
  unfold addChild
  split
  · rw [replaceKey_keys]; exact hd
  · rw [replaceKey_keys]; exact hd
  · rename_i h
    rw [List.map_append, List.nodup_append]
    refine ⟨hd, by simp, fun a ha b hb => ?_⟩
    simp only [List.map_cons, List.map_nil, List.mem_singleton] at hb
    subst hb
    exact fun g => (lookup_none_iff.1 h) (g ▸ ha)

theorem order_addChild (d : List (String × XmlValue)) (key : String) (v : XmlValue) :
    (addChild d key v).map Prod.fst = if key ∈ d.map Prod.fst then d.map Prod.fst else d.map Prod.fst ++ [key] := by
  have hsome : ∀ x, d.lookup key = some x → key ∈ d.map Prod.fst := by
    intro x hx
    by_contra h
    rw [lookup_none_iff.2 h] at hx
    cases hx
  unfold addChild
  split
  · rename_i h
    rw [replaceKey_keys, if_pos (hsome _ h)]
  · rename_i h
    rw [replaceKey_keys, if_pos (hsome _ h)]
  · rename_i h
    rw [if_neg (lookup_none_iff.1 h), List.map_append]
    rfl

theorem eraseDups_snoc (l : List String) (t : String) : (l ++ [t]).eraseDups = if t ∈ l then l.eraseDups else l.eraseDups ++ [t] := by
  rw [List.eraseDups_append]
  by_cases h : t ∈ l <;> simp [h, List.removeAll, List.eraseDups_cons]

theorem xmlChildren_spec (cs : List XmlElement) : ∀ (d : List (String × XmlValue)) (before : List XmlElement),
    d.map Prod.fst = (before.map XmlElement.tag).eraseDups → (d.map Prod.fst).Nodup → (∀ t, d.lookup t = underTag ((before.filter fun c => c.tag = t).map xmlValue)) →
    (xmlChildren d cs).map Prod.fst = ((before ++ cs).map XmlElement.tag).eraseDups ∧ ((xmlChildren d cs).map Prod.fst).Nodup ∧
      ∀ t, (xmlChildren d cs).lookup t = underTag (((before ++ cs).filter fun c => c.tag = t).map xmlValue) := by
  induction cs with
  | nil => intro d before ho hn h; simpa [xmlChildren] using ⟨ho, hn, h⟩
  | cons c cs ih =>
    intro d before ho hn h
    have := ih (addChild d c.tag (xmlValue c)) (before ++ [c]) (by
      rw [order_addChild, List.map_append, List.map_singleton, eraseDups_snoc, ho]
      simp only [List.mem_eraseDups]) (keys_addChild hn _ _) (fun t => by
      rw [lookup_addChild (vs := (before.filter fun b => b.tag = c.tag).map xmlValue) (by
        intro x hx
        obtain ⟨e, _, rfl⟩ := List.mem_map.1 hx
        exact xmlValue_single e) (h _)]
      by_cases ht : t = c.tag
      · subst ht
        simp
      · rw [if_neg ht, h t, List.filter_append]
        simp [Ne.symm ht])
    rw [List.append_assoc] at this
    rw [xmlChildren]
    exact this

/-- An element without children becomes its text. One with children becomes a dictionary with one key for each tag among them, in the order in which the
tags appear first, under which is the value of the child with that tag, or the list of the values if there are several, in their order. -/
theorem C110_children (e : XmlElement) :
    (e.children = [] → xmlValue e = .text e.text) ∧
    (e.children ≠ [] → ∃ d, xmlValue e = .dict d ∧ d.map Prod.fst = (e.children.map XmlElement.tag).eraseDups ∧ (d.map Prod.fst).Nodup ∧
      ∀ t, d.lookup t = underTag ((e.children.filter fun c => c.tag = t).map xmlValue)) := by
  obtain ⟨tag, text, cs⟩ := e
  cases cs with
  | nil => exact ⟨fun _ => by rw [xmlValue]; rfl, fun h => absurd rfl h⟩
  | cons c cs =>
    refine ⟨fun h => by simp [XmlElement.children] at h, fun _ => ⟨_, by rw [xmlValue], ?_⟩⟩
    exact xmlChildren_spec (c :: cs) [] [] (by simp) (by simp) (by intro t; rfl)

/-! ### No text is lost, none is added -/

theorem listTexts_append (a b : List XmlValue) : listTexts (a ++ b) = listTexts a ++ listTexts b := by
  induction a with
  | nil => simp [listTexts]
  | cons x a ih => simp [listTexts, ih]

theorem dictTexts_append (a b : List (String × XmlValue)) : dictTexts (a ++ b) = dictTexts a ++ dictTexts b := by
  induction a with
  | nil => simp [dictTexts]
  | cons x a ih => obtain ⟨k, v⟩ := x; simp [dictTexts, ih]

theorem dictTexts_replace {key : String} {old new v : XmlValue} (hnew : XmlValue.texts new = XmlValue.texts old ++ XmlValue.texts v)
    {d : List (String × XmlValue)} (h : d.lookup key = some old) :
    (dictTexts (replaceKey key new d)).Perm (dictTexts d ++ (XmlValue.texts v).map fun x => (key :: x.1, x.2)) := by
  induction d with
  | nil => simp at h
  | cons x d ih =>
    obtain ⟨a, b⟩ := x
    unfold replaceKey
    by_cases ha : a = key
    · subst ha
      simp only [List.lookup_cons, beq_self_eq_true, Option.some.injEq] at h
      subst h
      simp only [if_true, dictTexts, hnew, List.map_append, List.append_assoc]
      exact List.Perm.append_left _ List.perm_append_comm
    · rw [List.lookup_cons, beq_false_of_ne (Ne.symm ha)] at h
      simp only [if_neg ha, dictTexts, List.append_assoc]
      exact List.Perm.append_left _ (ih h)

theorem dictTexts_addChild (d : List (String × XmlValue)) (key : String) (v : XmlValue) :
    (dictTexts (addChild d key v)).Perm (dictTexts d ++ (XmlValue.texts v).map fun x => (key :: x.1, x.2)) := by
  unfold addChild
  split
  · rename_i l h
    exact dictTexts_replace (by simp [XmlValue.texts, listTexts_append, listTexts]) h
  · rename_i x _ h
    exact dictTexts_replace (by simp [XmlValue.texts, listTexts]) h
  · rw [dictTexts_append]
    simp [dictTexts]

mutual
/-- The texts of all elements without children are in the dictionaries, under the same tags, as often as in the elements, and there are no others. -/
theorem C110_texts (e : XmlElement) : (XmlValue.texts (xmlValue e)).Perm (XmlElement.texts e) := by
  match e with
  | .node _ t [] => simp [xmlValue, XmlValue.texts, XmlElement.texts]
  | .node _ _ (c :: cs) =>
    rw [xmlValue, XmlValue.texts, XmlElement.texts]
    have := xmlChildren_texts [] (c :: cs)
    simpa [dictTexts] using this
theorem xmlChildren_texts (d : List (String × XmlValue)) (cs : List XmlElement) :
    (dictTexts (xmlChildren d cs)).Perm (dictTexts d ++ childTexts cs) := by
  match cs with
  | [] => simp [xmlChildren, childTexts]
  | c :: cs =>
    rw [xmlChildren, childTexts]
    refine (xmlChildren_texts _ cs).trans ?_
    refine ((dictTexts_addChild d c.tag (xmlValue c)).append_right _).trans ?_
    rw [List.append_assoc]
    exact List.Perm.append_left _ (((C110_texts c).map _).append_right _)
end

/-- An element with three children of the same tag among others. -/
def exXml : XmlElement := .node "r" none [.node "a" (some "1") [], .node "b" none [.node "a" (some "2") []], .node "a" (some "3") [], .node "a" none []]

example : exXml.children ≠ [] ∧ xmlValue exXml =
    .dict [("a", .list [.text (some "1"), .text (some "3"), .text none]), ("b", .dict [("a", .text (some "2"))])] := by
  refine ⟨by simp [exXml, XmlElement.children], ?_⟩
  simp [exXml, xmlValue, xmlChildren, addChild, replaceKey, XmlElement.tag, List.lookup]

example : XmlElement.texts exXml = [(["a"], some "1"), (["b", "a"], some "2"), (["a"], some "3"), (["a"], none)] := by
  simp [exXml, XmlElement.texts, childTexts, XmlElement.tag]

end Verif
