import Verif.Proof.Attach
/-!
# C97: coordinates computed from tables and places
-/
namespace Verif
open Spec
variable {α : Type}

theorem value_at {p q : PatchM α} {d name : String} {k : Kind} {c : Coord} {c' : MCoord} {xs : List (Option ℚ)} (hdims : q.cm.dims = p.cm.dims)
    (hp : p.cm.ents.get? d = some ([d], .one k c)) (hq : q.cm.ents.get? name = some ([d], c')) (hc : ∀ i, c'.arr.get i = xs.getD (i.getD 0 0) none) (i : List ℕ) :
    label p d i = some (c.labels.getD (posAlong p d i) none) ∧ label q name i = some (xs.getD (posAlong p d i) none) := by
  refine ⟨label_dim hp i, ?_⟩
  unfold label
  rw [hq]
  simp only [labelAt, hc, hdims]
  rfl

theorem labels_total {c : Coord} {xs : List (Option ℚ)} {f : ℚ → Option ℚ} (hx : xs = c.labels.map fun x => x.bind f) {vs : List ℚ} (h : xs = vs.map some) :
    ∃ ls, c.labels = ls.map some ∧ List.Forall₂ (fun l v => f l = some v) ls vs := by
  rw [hx] at h
  revert h
  generalize c.labels = L
  intro h
  induction L generalizing vs with
  | nil =>
    cases vs with
    | nil => exact ⟨[], rfl, .nil⟩
    | cons v vs => cases h
  | cons a L ih =>
    cases vs with
    | nil => cases h
    | cons v vs =>
      simp only [List.map_cons, List.cons.injEq] at h
      obtain ⟨ls, e1, e2⟩ := ih h.2
      cases a with
      | none => simp at h
      | some a => exact ⟨a :: ls, by simp [e1], .cons (by simpa using h.1) e2⟩

/-- **C97** Every further column of a table whose rows ascend becomes a coordinate of the dimension the table names: at each label it lies on the straight line between the two
rows around this label, and it is missing (NaN) where the label is outside of the table; data, dimensions and all other coordinates stay. Missing: columns whose values are
nearly, but not quite, evenly spaced are evened by the coordinate; tables in another order (`C97_descending_violated`). -/
theorem C97_table_partial {p q : PatchM α} (hm : Regular p.cm) {t : Frame} {d : String} {A : List ℚ} (hd : d ∈ p.cm.dims) (hA : t.get? d = some A) (ht : t.keys.Nodup)
    (hplain : ∀ n ∈ t.keys, matchesPrefixSuffix p.cm.dims n = false) (hlen : ∀ n V, t.get? n = some V → V.length = A.length) (hasc : A.Pairwise (· < ·))
    (hst : ∀ n V xs vs, n ≠ d → t.get? n = some V → LabelsAre p d xs → List.Forall₂ (WithinRows (A.zip V)) xs vs → Storable vs)
    (h : p.coordsFromFrame t false = .ok q) :
    WithMore p q (t.keys.filter (· != d)) ∧ ∀ n V, n ≠ d → t.get? n = some V →
      ByLabel p q d n fun x v => (∃ y, v = some y ∧ WithinRows (A.zip V) x y) ∨ (v = none ∧ OutsideRows (A.zip V) x) := by
  obtain ⟨k, c, kw, hg, hE, hkeys, hu, hget⟩ := table_parts hm hd hA ht hplain h
  obtain ⟨hW, hgiven⟩ := attach_spec hm hE hu
  rw [hkeys] at hW
  refine ⟨hW, fun n V hn hV i hi x hx => ?_⟩
  obtain ⟨xs, e1, e2⟩ := hget n V hn hV
  unfold columnAt at e1
  rw [if_neg Bool.false_ne_true] at e1
  split_ifs at e1 with h1 h2
  cases e1
  have hs : ((A.zip V).map Prod.fst).Pairwise (· < ·) := by rw [List.map_fst_zip (by rw [hlen n V hV])]; exact hasc
  have hne : A.zip V ≠ [] := by
    intro h0
    have := congrArg List.length h0
    simp [hlen n V hV] at this
    simp [this] at h1
  obtain ⟨c', f1, f2⟩ := hgiven n [d] _ e2
  obtain ⟨c'', g1, g2⟩ := floatCoord_canon (xs := c.labels.map fun x => x.bind (interpInside (A.zip V))) (by
    intro vs hvs
    obtain ⟨ls, l1, l2⟩ := labels_total rfl hvs
    refine hst n V ls vs hn hV ⟨k, c, hg, l1⟩ (l2.imp fun l v hlv => ?_)
    rcases interpInside_spec hs hne l with ⟨w, w1, w2⟩ | ⟨w1, _⟩
    · rw [w1] at hlv; cases hlv; exact w2
    · rw [w1] at hlv; cases hlv)
  rw [f1] at g1; cases g1
  obtain ⟨v1, v2⟩ := value_at (p := p) (q := q) hW.dims hg f2 g2 i
  rw [v1] at hx
  refine ⟨_, v2, ?_⟩
  simp only [Option.some.injEq, List.getD_eq_getElem?_getD, List.getElem?_map] at hx ⊢
  cases hl : c.labels[posAlong p d i]? with
  | none => rw [hl] at hx; cases hx
  | some y =>
    rw [hl] at hx
    simp only [Option.getD_some] at hx
    subst hx
    simp only [Option.map_some, Option.bind_some, Option.getD_some]
    rcases interpInside_spec hs hne x with ⟨w, w1, w2⟩ | ⟨w1, w2⟩
    · exact .inl ⟨w, w1, w2⟩
    · exact .inr ⟨w1, w2⟩

/-- **C97** With `extrapolate=True` rows may come in any order, and outside of the table the first or last line goes on. Missing: columns whose values are nearly, but not
quite, evenly spaced are evened by the coordinate. -/
theorem C97_extrapolate_partial {p q : PatchM α} (hm : Regular p.cm) {t : Frame} {d : String} {A : List ℚ} (hd : d ∈ p.cm.dims) (hA : t.get? d = some A) (ht : t.keys.Nodup)
    (hplain : ∀ n ∈ t.keys, matchesPrefixSuffix p.cm.dims n = false) (hlen : ∀ n V, t.get? n = some V → V.length = A.length) (hdis : A.Nodup) (htwo : 2 ≤ A.length)
    (hst : ∀ n V xs vs, n ≠ d → t.get? n = some V → LabelsAre p d xs → List.Forall₂ (OnLines (A.zip V)) xs vs → Storable vs)
    (h : p.coordsFromFrame t true = .ok q) :
    WithMore p q (t.keys.filter (· != d)) ∧ ∀ n V, n ≠ d → t.get? n = some V → ByLabel p q d n fun x v => ∃ y, v = some y ∧ OnLines (A.zip V) x y := by
  obtain ⟨k, c, kw, hg, hE, hkeys, hu, hget⟩ := table_parts hm hd hA ht hplain h
  obtain ⟨hW, hgiven⟩ := attach_spec hm hE hu
  rw [hkeys] at hW
  refine ⟨hW, fun n V hn hV i hi x hx => ?_⟩
  obtain ⟨xs, e1, e2⟩ := hget n V hn hV
  have hrow := interpLinear_rows (hlen n V hV).symm hdis htwo
  unfold columnAt at e1
  rw [if_pos rfl] at e1
  split_ifs at e1 with h1
  cases e1
  have hmap : (c.labels.map fun x => x.map (interpLinear (sortedPoints A V))) = c.labels.map fun x => x.bind fun y => some (interpLinear (sortedPoints A V) y) :=
    List.map_congr_left fun x _ => by cases x <;> rfl
  rw [hmap] at e2
  obtain ⟨c', f1, f2⟩ := hgiven n [d] _ e2
  obtain ⟨c'', g1, g2⟩ := floatCoord_canon (xs := c.labels.map fun x => x.bind fun y => some (interpLinear (sortedPoints A V) y)) (by
    intro vs hvs
    obtain ⟨ls, l1, l2⟩ := labels_total rfl hvs
    refine hst n V ls vs hn hV ⟨k, c, hg, l1⟩ (l2.imp fun l v hlv => ?_)
    cases hlv
    exact hrow l)
  rw [f1] at g1; cases g1
  obtain ⟨v1, v2⟩ := value_at (p := p) (q := q) hW.dims hg f2 g2 i
  rw [v1] at hx
  refine ⟨_, v2, interpLinear (sortedPoints A V) x, ?_, hrow x⟩
  simp only [Option.some.injEq, List.getD_eq_getElem?_getD, List.getElem?_map] at hx ⊢
  cases hl : c.labels[posAlong p d i]? with
  | none => rw [hl] at hx; cases hx
  | some y =>
    rw [hl] at hx
    simp only [Option.getD_some] at hx
    subst hx
    rfl

/-- **C97** A table which names no dimension of the patch, or several, is refused. -/
theorem C97_table_refused (p : PatchM α) (t : Frame) (ex : Bool) (h : ¬ ∃ d ∈ p.cm.dims, d ∈ t.keys ∧ ∀ e ∈ p.cm.dims, e ∈ t.keys → e = d) :
    p.coordsFromFrame t ex = .error .parameterError := by
  unfold PatchM.coordsFromFrame
  split
  · rename_i d hanch
    have hmem : ∀ n, n ∈ anchorsOf p.cm t ↔ n ∈ t.keys ∧ n ∈ p.cm.dims := by intro n; simp [anchorsOf]
    have h1 := (hmem d).1 (by rw [hanch]; simp)
    refine absurd ⟨d, h1.2, h1.1, fun e he1 he2 => ?_⟩ h
    have := (hmem e).2 ⟨he2, he1⟩
    rw [hanch] at this
    simpa using this
  · rfl

/-- **C97** When it succeeds: a table of at least one row which names one dimension, that has labels which are not times. -/
theorem C97_table_succeeds (p : PatchM α) (hm : Regular p.cm) (hr : Readable p.cm) (hsh : p.cm.shape = p.data.shape) {t : Frame} {d : String} {A : List ℚ} {k : Kind} {c : Coord}
    (ex : Bool) (hd : d ∈ p.cm.dims) (hA : t.get? d = some A) (hA0 : A ≠ []) (ht : t.keys.Nodup) (hplain : ∀ n ∈ t.keys, matchesPrefixSuffix p.cm.dims n = false)
    (hone : ∀ e ∈ p.cm.dims, e ∈ t.keys → e = d) (hc : p.cm.ents.get? d = some ([d], .one k c)) (hk : ex = false → k ≠ .time)
    (hlen : ∀ n V, t.get? n = some V → V.length = A.length) (hrows : if ex then A.Nodup ∧ 2 ≤ A.length else A.Pairwise (· < ·))
    (hst : ∀ n V xs vs, n ≠ d → t.get? n = some V → LabelsAre p d xs →
      List.Forall₂ (if ex then OnLines (A.zip V) else WithinRows (A.zip V)) xs vs → Storable vs) : ∃ q, p.coordsFromFrame t ex = .ok q := by
  have hmem : ∀ n, n ∈ anchorsOf p.cm t ↔ n ∈ t.keys ∧ n ∈ p.cm.dims := by intro n; simp [anchorsOf]
  have hanch : anchorsOf p.cm t = [d] := by
    have hnd : (anchorsOf p.cm t).Nodup := ht.filter _
    have h1 : d ∈ anchorsOf p.cm t := (hmem d).2 ⟨Dict.mem_keys.2 ⟨_, hA⟩, hd⟩
    have h2 : ∀ e ∈ anchorsOf p.cm t, e = d := fun e he => hone e ((hmem e).1 he).2 ((hmem e).1 he).1
    revert hnd h1 h2
    generalize anchorsOf p.cm t = l
    intro hnd h1 h2
    match l, hnd, h1, h2 with
    | [], _, h1, _ => cases h1
    | [a], _, _, h2 => rw [h2 a (by simp)]
    | a :: b :: r, hnd, _, h2 =>
      have := h2 a (by simp)
      have := h2 b (by simp)
      simp_all
  have hcol : ∀ V, ∃ xs, columnAt ex k c.labels A V = .ok xs ∧ xs.length = c.labels.length := by
    intro V
    unfold columnAt
    rw [if_neg (by simpa using hA0)]
    split_ifs with h1 h2
    · exact ⟨_, rfl, by simp⟩
    · exact absurd h2 (hk (by simpa using h1))
    · exact ⟨_, rfl, by simp⟩
  obtain ⟨kw, hkw⟩ := Dict.mapM_total (d := t.filter fun e => e.1 != d) (f := fun e => tableCoord ex t d k c e.2) (by
    intro e _
    obtain ⟨xs, hx, _⟩ := hcol e.2
    exact ⟨_, by simp only [tableCoord, hA, Option.getD_some, hx]; rfl⟩)
  have hkeys : Dict.keys kw = t.keys.filter (· != d) := by
    rw [Dict.mapM_keys (f := fun e => tableCoord ex t d k c e.2) hkw]
    simp only [Dict.keys, List.filter_map]; rfl
  have hget : ∀ n (a : CArg), Dict.get? kw n = some a → ∃ V xs, n ≠ d ∧ t.get? n = some V ∧ columnAt ex k c.labels A V = .ok xs ∧ a = .nested [d] (floatCoord xs) := by
    intro n a ha
    obtain ⟨V, h1, h2⟩ := Dict.mapM_get? (f := fun e => tableCoord ex t d k c e.2) hkw n ha
    rw [Dict.get?_filter t (fun m => m != d)] at h1
    split_ifs at h1 with hn
    simp only [tableCoord, hA, Option.getD_some] at h2
    obtain ⟨xs, f1, rfl⟩ := except_map_ok h2
    exact ⟨V, xs, by simpa using hn, h1, f1, rfl⟩
  have hE : Extra p.cm kw := by
    refine ⟨by rw [hkeys]; exact ht.filter _, ?_, ?_⟩
    · intro n hn
      rw [hkeys, List.mem_filter] at hn
      exact ⟨fun hnd => by have := hone n hnd hn.1; simp [this] at hn, hplain n hn.1⟩
    · intro n a ha
      obtain ⟨V, xs, _, _, _, rfl⟩ := hget n a ha
      exact ⟨_, _, rfl, by simp [hd]⟩
  obtain ⟨q, hq⟩ := attach_total hm hr hsh hE (by
    intro n ds x hx
    obtain ⟨V, xs, h1, h2, h3, h4⟩ := hget n _ hx
    cases h4
    obtain ⟨c', e1, _⟩ := floatCoord_canon (xs := xs) fun vs hvs => by
      unfold columnAt at h3
      rw [if_neg (by simpa using hA0)] at h3
      cases ex with
      | true =>
        rw [if_pos rfl] at h3 hrows
        cases h3
        have hmap : (c.labels.map fun x => x.map (interpLinear (sortedPoints A V))) = c.labels.map fun x => x.bind fun y => some (interpLinear (sortedPoints A V) y) :=
          List.map_congr_left fun x _ => by cases x <;> rfl
        obtain ⟨ls, l1, l2⟩ := labels_total hmap hvs
        refine hst n V ls vs h1 h2 ⟨k, c, hc, l1⟩ (l2.imp fun l v hlv => ?_)
        cases hlv
        rw [if_pos rfl]
        exact interpLinear_rows (hlen n V h2).symm hrows.1 hrows.2 l
      | false =>
        rw [if_neg Bool.false_ne_true] at h3 hrows
        rw [if_neg (hk rfl)] at h3
        cases h3
        obtain ⟨ls, l1, l2⟩ := labels_total rfl hvs
        refine hst n V ls vs h1 h2 ⟨k, c, hc, l1⟩ (l2.imp fun l v hlv => ?_)
        rw [if_neg Bool.false_ne_true]
        have hs : ((A.zip V).map Prod.fst).Pairwise (· < ·) := by rw [List.map_fst_zip (by rw [hlen n V h2])]; exact hrows
        have hne : A.zip V ≠ [] := by
          intro h0
          have := congrArg List.length h0
          simp [hlen n V h2] at this
          exact hA0 this
        rcases interpInside_spec hs hne l with ⟨w, w1, w2⟩ | ⟨w1, _⟩
        · rw [w1] at hlv; cases hlv; exact w2
        · rw [w1] at hlv; cases hlv
    refine ⟨⟨c', e1⟩, .inr ?_⟩
    obtain ⟨xs', e2, e3⟩ := hcol V
    rw [h3] at e2; cases e2
    rw [floatCoord_shape, e3]
    have hw : c.Wf := hm.classes d _ k c (Dict.mem_of_get? hc)
    have hl : c.labels.length = c.length := labels_length' fun r hr => by subst hr; exact hw
    rw [hl]
    simp [lenDim, Ents.lenOf, hc, MCoord.len, MCoord.shape, MCoord.arr])
  refine ⟨q, ?_⟩
  unfold PatchM.coordsFromFrame
  rw [hanch]
  simp only [hc, bind, Except.bind, tableCoords, hkw, hq]

/-! ### Distances to a place -/

theorem mapM_some {β γ : Type} {f : β → Option γ} : ∀ {l : List β} {r : List γ}, l.mapM f = some r ↔ List.Forall₂ (fun a b => f a = some b) l r
  | [], r => by simp [List.mapM_nil, pure, eq_comm]
  | a :: l, r => by
    rw [List.mapM_cons]
    cases h1 : f a with
    | none =>
      simp only [Option.bind_eq_bind, Option.bind_none, reduceCtorEq, List.forall₂_cons_left_iff, h1, false_and, exists_const, exists_false]
    | some b =>
      cases h2 : l.mapM f with
      | none =>
        simp only [Option.bind_eq_bind, Option.bind_some, Option.bind_none, reduceCtorEq, List.forall₂_cons_left_iff, false_iff, not_exists, not_and]
        rintro c r' _ hr'
        rw [mapM_some.2 hr'] at h2; cases h2
      | some s =>
        simp only [Option.bind_eq_bind, Option.bind_some, pure, Option.some.injEq, List.forall₂_cons_left_iff, h1]
        constructor
        · rintro rfl; exact ⟨b, s, rfl, mapM_some.1 h2, rfl⟩
        · rintro ⟨b', s', rfl, hs', rfl⟩
          rw [mapM_some.2 hs'] at h2; cases h2; rfl

theorem originCoords_keys (pre : String) (origin : Dict ℚ) (d : List String) (xs : List (Option ℚ)) (hnd : origin.keys.Nodup) (hdist : "distance" ∉ origin.keys) :
    (originCoords pre origin d xs).keys = (origin.keys ++ ["distance"]).map (fun n => pre ++ "_" ++ n) ∧ (originCoords pre origin d xs).keys.Nodup ∧
    (originCoords pre origin d xs).get? (pre ++ "_distance") = some (.nested d (floatCoord xs)) ∧
    ∀ n v, origin.get? n = some v → (originCoords pre origin d xs).get? (pre ++ "_" ++ n) = some (.nested [] (.one .float (.arr [v]))) := by
  have hinj : ∀ a b : String, pre ++ "_" ++ a = pre ++ "_" ++ b → a = b := by
    intro a b h
    have := congrArg String.toList h
    simp only [String.toList_append, List.append_assoc, List.append_cancel_left_eq] at this
    exact String.toList_inj.1 this
  have hname : pre ++ "_distance" = pre ++ "_" ++ "distance" := by rw [String.append_assoc]; rfl
  set D : Dict CArg := origin.map fun e => (pre ++ "_" ++ e.1, CArg.nested [] (.one .float (.arr [e.2]))) with hD
  have hDk : D.keys = origin.keys.map fun n => pre ++ "_" ++ n := by simp [hD, Dict.keys]
  have hDn : D.keys.Nodup := by rw [hDk]; exact hnd.map (fun a b h => hinj a b h)
  have hnot : pre ++ "_distance" ∉ D.keys := by
    rw [hDk, hname, List.mem_map]
    rintro ⟨n, hn, e⟩
    exact hdist (hinj _ _ e ▸ hn)
  have hk : (originCoords pre origin d xs).keys = (origin.keys ++ ["distance"]).map (fun n => pre ++ "_" ++ n) := by
    unfold originCoords
    rw [Dict.keys_set, if_neg hnot, hDk, List.map_append, hname]; rfl
  refine ⟨hk, ?_, ?_, ?_⟩
  · exact Dict.nodup_set hDn _ _
  · unfold originCoords; rw [Dict.get?_set, if_pos rfl]
  · intro n v hv
    unfold originCoords
    rw [Dict.get?_set, if_neg]
    · exact Dict.get?_of_mem hDn (List.mem_map.2 ⟨(n, v), Dict.mem_of_get? hv, rfl⟩)
    · rw [hname]
      intro e
      exact hdist (hinj _ _ e ▸ Dict.mem_keys.2 ⟨_, hv⟩)

theorem distances_at {norm : List ℚ → ℚ} {p : PatchM α} (hm : Regular p.cm) {origin : Dict ℚ} {d : String} {arrays : List (List (Option ℚ))} (hne : origin ≠ [])
    (hat : ∀ n ∈ origin.keys, ∃ c, p.cm.ents.get? n = some ([d], c)) (ha : origin.keys.mapM (originLabels p.cm [d]) = .ok arrays) :
    (distances norm (origin.map Prod.snd) arrays).length = lenDim p.cm d ∧
    ∀ i xs, PlacedAt p origin i xs → (distances norm (origin.map Prod.snd) arrays)[posAlong p d i]? = some (some (norm (offsets origin xs))) := by
  have hF := mapM_forall₂ ha
  have hlab : List.Forall₂ (fun n (a : List (Option ℚ)) => a.length = lenDim p.cm d ∧ ∀ i, label p n i = some (a.getD (posAlong p d i) none)) origin.keys arrays := by
    have hF' : List.Forall₂ (fun n a => n ∈ origin.keys ∧ originLabels p.cm [d] n = .ok a) origin.keys arrays := by
      have : ∀ {l : List String} {r : List (List (Option ℚ))}, (∀ n ∈ l, n ∈ origin.keys) → List.Forall₂ (fun n a => originLabels p.cm [d] n = .ok a) l r →
          List.Forall₂ (fun n a => n ∈ origin.keys ∧ originLabels p.cm [d] n = .ok a) l r := by
        intro l r hl h
        induction h with
        | nil => exact .nil
        | cons h1 _ ih => exact .cons ⟨hl _ (by simp), h1⟩ (ih fun n hn => hl n (by simp [hn]))
      exact this (fun _ h => h) hF
    refine hF'.imp fun n a hna => ?_
    obtain ⟨c, hc⟩ := hat n hna.1
    have ho := hna.2
    unfold originLabels at ho
    rw [hc] at ho
    split at ho
    · rename_i ds k x hx
      cases hx
      split_ifs at ho
      cases ho
      have hw : x.Wf := hm.classes n _ k x (Dict.mem_of_get? hc)
      have hl : x.labels.length = x.length := labels_length' fun r hr => by subst hr; exact hw
      refine ⟨?_, fun i => ?_⟩
      · have := CM.WellFormed.shape_eq hm.wf (Dict.mem_of_get? hc) (by simp)
        simp [MCoord.shape, MCoord.arr] at this
        rw [hl, this]; rfl
      · unfold label; rw [hc]; rfl
    · cases ho
  clear hF ha
  have hKne : origin.keys ≠ [] := fun h => hne (List.map_eq_nil_iff.1 h)
  have hlen : (distances norm (origin.map Prod.snd) arrays).length = lenDim p.cm d := by
    unfold distances
    rw [List.length_map, List.length_range]
    generalize origin.keys = K at hlab hKne
    cases hlab with
    | nil => exact absurd rfl hKne
    | cons h1 _ => exact h1.1
  refine ⟨hlen, fun i xs hx => ?_⟩
  have hxs : List.Forall₂ (fun a x => List.getD a (posAlong p d i) none = some x) arrays xs := by
    unfold PlacedAt at hx
    clear hKne hlen
    generalize origin.keys = K at hlab hx
    induction hlab generalizing xs with
    | nil => cases hx; exact .nil
    | cons h1 _ ih =>
      cases hx with
      | cons g1 g2 =>
        refine .cons ?_ (ih _ g2)
        rw [h1.2] at g1
        exact Option.some.inj g1
  have hpos : posAlong p d i < lenDim p.cm d := by
    generalize origin.keys = K at hlab hKne
    cases hlab with
    | nil => exact absurd rfl hKne
    | cons h1 _ =>
      cases hxs with
      | cons g1 _ =>
        rw [← h1.1]
        by_contra hc
        rw [List.getD_eq_getElem?_getD, List.getElem?_eq_none (not_lt.1 hc)] at g1
        cases g1
  unfold distances at hlen ⊢
  rw [List.length_map, List.length_range] at hlen
  rw [List.getElem?_map, List.getElem?_range (by rw [hlen]; exact hpos)]
  simp only [Option.map_some, mapM_some.2 hxs, offsets]

/-- **C97** The distance to a place becomes a coordinate of the dimension which the coordinates of the place belong to: at each place of the patch it is the norm of the difference
of the origin and this place. The origin itself is added as single values; data, dimensions and all other coordinates stay. Missing: distances which are nearly, but not quite,
evenly spaced are evened by the coordinate; origins with a coordinate called "distance" (`C97_distance_violated`). -/
theorem C97_distance_partial {norm : List ℚ → ℚ} {p q : PatchM α} (hm : Regular p.cm) {origin : Dict ℚ} {pre d : String} (hne : origin ≠ []) (hnd : origin.keys.Nodup)
    (hat : ∀ n ∈ origin.keys, ∃ c, p.cm.ents.get? n = some ([d], c)) (hdist : "distance" ∉ origin.keys)
    (hfree : ∀ n ∈ origin.keys ++ ["distance"], pre ++ "_" ++ n ∉ p.cm.dims ∧ matchesPrefixSuffix p.cm.dims (pre ++ "_" ++ n) = false)
    (hst : ∀ vs : List ℚ, vs.length = lenDim p.cm d → (∀ i xs, PlacedAt p origin i xs → vs[posAlong p d i]? = some (norm (offsets origin xs))) → Storable vs)
    (h : p.addDistanceTo norm origin pre = .ok q) :
    WithMore p q ((origin.keys ++ ["distance"]).map fun n => pre ++ "_" ++ n) ∧ (∀ n v, origin.get? n = some v → Single q (pre ++ "_" ++ n) v) ∧
      ∀ i xs, PlacedAt p origin i xs → label q (pre ++ "_distance") i = some (some (norm (offsets origin xs))) := by
  unfold PatchM.addDistanceTo at h
  split_ifs at h with h0
  have hded : (origin.keys.filterMap fun n => (p.cm.ents.get? n).map Prod.fst).dedup = [[d]] := by
    have hall : ∀ ds ∈ (origin.keys.filterMap fun n => (p.cm.ents.get? n).map Prod.fst).dedup, ds = [d] := by
      intro ds hds
      rw [List.mem_dedup, List.mem_filterMap] at hds
      obtain ⟨n, hn, e⟩ := hds
      obtain ⟨c, hc⟩ := hat n hn
      rw [hc] at e
      simpa using e.symm
    have hmem : [d] ∈ (origin.keys.filterMap fun n => (p.cm.ents.get? n).map Prod.fst).dedup := by
      cases ho : origin with
      | nil => exact absurd ho hne
      | cons e r =>
        obtain ⟨c, hc⟩ := hat e.1 (by simp [ho, Dict.keys])
        rw [List.mem_dedup, List.mem_filterMap]
        exact ⟨e.1, by simp [Dict.keys], by rw [hc]; rfl⟩
    have hn := List.nodup_dedup (origin.keys.filterMap fun n => (p.cm.ents.get? n).map Prod.fst)
    revert hall hmem hn
    generalize (origin.keys.filterMap fun n => (p.cm.ents.get? n).map Prod.fst).dedup = l
    intro hall hmem hn
    match l, hn, hmem, hall with
    | [], _, h1, _ => cases h1
    | [a], _, _, h2 => rw [h2 a (by simp)]
    | a :: b :: r, hn, _, h2 =>
      have := h2 a (by simp)
      have := h2 b (by simp)
      simp_all
  rw [hded] at h
  simp only at h
  obtain ⟨arrays, ha, h⟩ := bind_split h
  obtain ⟨e1, e2, e3, e4⟩ := originCoords_keys pre origin [d] (distances norm (origin.map Prod.snd) arrays) hnd hdist
  have hdd : d ∈ p.cm.dims := by
    cases ho : origin with
    | nil => exact absurd ho hne
    | cons e r =>
      obtain ⟨c, hc⟩ := hat e.1 (by simp [ho, Dict.keys])
      exact hm.wf.attached _ _ _ (Dict.mem_of_get? hc) d (by simp)
  have hE : Extra p.cm (originCoords pre origin [d] (distances norm (origin.map Prod.snd) arrays)) := by
    refine ⟨e2, ?_, ?_⟩
    · intro n hn
      rw [e1, List.mem_map] at hn
      obtain ⟨m, hm', rfl⟩ := hn
      exact hfree m hm'
    · intro n a hna
      have hn : n ∈ (originCoords pre origin [d] (distances norm (origin.map Prod.snd) arrays)).keys := Dict.mem_keys.2 ⟨_, hna⟩
      rw [e1, List.mem_map] at hn
      obtain ⟨m, hm', rfl⟩ := hn
      rcases List.mem_append.1 hm' with h1 | h1
      · obtain ⟨v, hv⟩ := Dict.mem_keys.1 h1
        rw [e4 m v hv] at hna; cases hna
        exact ⟨_, _, rfl, by simp⟩
      · rw [List.mem_singleton] at h1
        subst h1
        have hname : pre ++ "_" ++ "distance" = pre ++ "_distance" := by rw [String.append_assoc]; rfl
        rw [hname, e3] at hna; cases hna
        exact ⟨_, _, rfl, by simp [hdd]⟩
  obtain ⟨hW, hgiven⟩ := attach_spec hm hE h
  obtain ⟨d1, d2⟩ := distances_at (norm := norm) hm hne hat ha
  rw [e1] at hW
  refine ⟨hW, ?_, ?_⟩
  · intro n v hv
    obtain ⟨c', f1, f2⟩ := hgiven _ _ _ (e4 n v hv)
    cases f1
    exact ⟨_, f2, rfl, rfl⟩
  · intro i xs hx
    obtain ⟨c', f1, f2⟩ := hgiven _ _ _ e3
    obtain ⟨c'', g1, g2⟩ := floatCoord_canon (xs := distances norm (origin.map Prod.snd) arrays) (by
      intro vs hvs
      refine hst vs (by rw [← d1, hvs, List.length_map]) fun j ys hy => ?_
      have := d2 j ys hy
      rw [hvs, List.getElem?_map] at this
      cases hv : vs[posAlong p d j]? with
      | none => rw [hv] at this; cases this
      | some w => rw [hv] at this; simpa using this)
    rw [f1] at g1; cases g1
    unfold label
    rw [f2]
    simp only [labelAt, g2, hW.dims]
    show some ((distances norm (origin.map Prod.snd) arrays).getD (posAlong p d i) none) = _
    rw [List.getD_eq_getElem?_getD, d2 i xs hx]; rfl

/-- **C97** A place with a coordinate the patch does not have is refused, and so is one whose coordinates belong to different dimensions. -/
theorem C97_distance_refused (norm : List ℚ → ℚ) (p : PatchM α) (origin : Dict ℚ) (pre : String)
    (h : (∃ n ∈ origin.keys, p.cm.ents.get? n = none) ∨
      ∃ n ∈ origin.keys, ∃ m ∈ origin.keys, ∃ ds c ds' c', p.cm.ents.get? n = some (ds, c) ∧ p.cm.ents.get? m = some (ds', c') ∧ ds ≠ ds') :
    p.addDistanceTo norm origin pre = .error .incompatiblePatch := by
  unfold PatchM.addDistanceTo
  split_ifs with h0
  · rfl
  · rcases h with ⟨n, hn, h1⟩ | ⟨n, hn, m, hm, ds, c, ds', c', h1, h2, h3⟩
    · refine absurd (List.any_eq_true.2 ⟨n, hn, by rw [h1]; rfl⟩) h0
    · have m1 : ds ∈ (origin.keys.filterMap fun n => (p.cm.ents.get? n).map Prod.fst).dedup :=
        List.mem_dedup.2 (List.mem_filterMap.2 ⟨n, hn, by rw [h1]; rfl⟩)
      have m2 : ds' ∈ (origin.keys.filterMap fun n => (p.cm.ents.get? n).map Prod.fst).dedup :=
        List.mem_dedup.2 (List.mem_filterMap.2 ⟨m, hm, by rw [h2]; rfl⟩)
      split
      · rename_i d hd
        rw [hd, List.mem_singleton] at m1 m2
        exact absurd (m1.trans m2.symm) h3
      · rename_i hd
        rw [hd] at m1; cases m1
      · rfl

/-! ### Examples -/

/-- A surveyed track: the places of three points of the cable, none of them before ten metres. -/
def exTrack : Frame := [("x", [0, 10, 40]), ("distance", [10, 12, 16]), ("y", [5, 5, 1])]

/-- The labels 5 and 8 are before the table, 11 half way between its first rows, 14 half way between the last. -/
example : (exPatch.coordsFromFrame exTrack false).map (fun q => [[0, 0], [0, 1], [0, 2], [1, 3]].map (label q "x")) = .ok [some none, some none, some (some 5), some (some 25)] ∧
    (exPatch.coordsFromFrame exTrack true).map (fun q => [[0, 0], [0, 1], [0, 2], [1, 3]].map (label q "x")) = .ok [some (some (-25)), some (some (-10)), some (some 5), some (some 25)] := by
  constructor <;> decide +kernel

example : ∀ n ∈ exTrack.keys, matchesPrefixSuffix exPatch.cm.dims n = false := by decide +kernel

example : ∀ n V xs vs, n ≠ "distance" → exTrack.get? n = some V → LabelsAre exPatch "distance" xs → List.Forall₂ (WithinRows (([10, 12, 16] : List ℚ).zip V)) xs vs → Storable vs := by
  rintro n V xs vs hn hV ⟨k, c, hc, hl⟩ hF
  have hc' : exPatch.cm.ents.get? "distance" = some (["distance"], .one .int (.range exUp)) := rfl
  rw [hc'] at hc
  cases hc
  have h1 : (Coord.range exUp).labels = [some 5, some 8, some 11, some 14] := by decide +kernel
  rw [h1] at hl
  cases hF with
  | nil => cases hl
  | cons h2 _ =>
    simp only [List.map_cons, List.cons.injEq, Option.some.injEq] at hl
    obtain ⟨a, ha, b, hb, h3, _⟩ := h2
    have := (List.of_mem_zip ha).1
    simp only [List.mem_cons, List.not_mem_nil, or_false] at this
    rw [← hl.1] at h3
    rcases this with h | h | h <;> rw [h] at h3 <;> norm_num at h3

/-- Two points, and a straight line through them. -/
example : ∀ n V xs vs, n ≠ "distance" → Dict.get? [("distance", ([10, 16] : List ℚ)), ("x", [0, 36])] n = some V → LabelsAre exPatch "distance" xs →
    List.Forall₂ (OnLines (([10, 16] : List ℚ).zip V)) xs vs → Storable vs := by
  rintro n V xs vs hn hV ⟨k, c, hc, hl⟩ hF
  have hV' : V = [0, 36] := by
    have hm := Dict.mem_of_get? hV
    simp only [List.mem_cons, Prod.mk.injEq, List.not_mem_nil, or_false] at hm
    rcases hm with ⟨h, _⟩ | ⟨_, h⟩
    · exact absurd h hn
    · exact h
  subst hV'
  have hc' : exPatch.cm.ents.get? "distance" = some (["distance"], .one .int (.range exUp)) := rfl
  rw [hc'] at hc
  cases hc
  have h1 : (Coord.range exUp).labels = [some 5, some 8, some 11, some 14] := by decide +kernel
  have hline : ∀ x v, OnLines (([10, 16] : List ℚ).zip [0, 36]) x v → v = 6 * (x - 10) := by
    rintro x v ⟨a, ha, b, hb, hlt, _, _, _, rfl⟩
    simp only [List.zip_cons_cons, List.zip_nil_right, List.mem_cons, List.not_mem_nil, or_false] at ha hb
    rcases ha with rfl | rfl <;> rcases hb with rfl | rfl <;> first | (exfalso; norm_num at hlt; done) | (simp only; ring)
  have hvs : vs = xs.map fun x => 6 * (x - 10) := by
    clear hl
    induction hF with
    | nil => rfl
    | cons h _ ih => rw [List.map_cons, ih, hline _ _ h]
  rw [h1] at hl
  have hxs : xs = [5, 8, 11, 14] := by
    have : ([5, 8, 11, 14] : List ℚ).map some = xs.map some := hl
    exact (List.map_injective_iff.2 (Option.some_injective _) this).symm
  rw [hvs, hxs]
  exact .inr (.inl ⟨-30, 18, 4, by norm_num, by decide +kernel⟩)

/-- The sum of absolute values, `ord=1`. -/
def sumNorm (l : List ℚ) : ℚ := (l.map fun x => |x|).sum

example : (exPatch.addDistanceTo sumNorm [("depth", 5)] "shot").map (fun q => [[0, 0], [0, 1], [1, 2], [1, 3]].map (label q "shot_distance")) =
      .ok [some (some 4), some (some 1), some (some 2), some (some 4)] ∧ (∀ n ∈ ["depth"] ++ ["distance"], "shot" ++ "_" ++ n ∉ exPatch.cm.dims ∧
      matchesPrefixSuffix exPatch.cm.dims ("shot" ++ "_" ++ n) = false) ∧ ∃ c, exPatch.cm.ents.get? "depth" = some (["distance"], c) := by
  refine ⟨by decide +kernel, by decide +kernel, _, rfl⟩

example (vs : List ℚ) (_ : vs.length = lenDim exPatch.cm "distance")
    (hv : ∀ i xs, PlacedAt exPatch [("depth", 5)] i xs → vs[posAlong exPatch "distance" i]? = some (sumNorm (offsets [("depth", 5)] xs))) : Storable vs := by
  have h0 := hv [0, 0] [9] (.cons (by decide +kernel) .nil)
  have h1 := hv [0, 1] [4] (.cons (by decide +kernel) .nil)
  have h2 := hv [0, 2] [3] (.cons (by decide +kernel) .nil)
  have e0 : vs[0]? = some 4 := h0.trans (by decide +kernel)
  have e1 : vs[1]? = some 1 := h1.trans (by decide +kernel)
  have e2 : vs[2]? = some 2 := h2.trans (by decide +kernel)
  refine .inr (.inr (.inl ?_))
  obtain ⟨l0, e0⟩ := List.getElem?_eq_some_iff.1 e0
  obtain ⟨l1, e1⟩ := List.getElem?_eq_some_iff.1 e1
  obtain ⟨l2, e2⟩ := List.getElem?_eq_some_iff.1 e2
  rintro (h | h)
  · have := List.pairwise_iff_getElem.1 h 0 1 l0 l1 (by omega)
    rw [e0, e1] at this; norm_num at this
  · have := List.pairwise_iff_getElem.1 h 1 2 l1 l2 (by omega)
    rw [e1, e2] at this; norm_num at this

/-! ### Violations -/

/-- **C97 violated** (tables in another order): if the rows of the table descend, all values are missing, also at the labels which the table has. -/
theorem C97_descending_violated :
    (exPatch.coordsFromFrame [("distance", [16, 11, 5]), ("x", [40, 10, 0])] false).map (fun q => [[0, 0], [0, 1], [0, 2], [1, 3]].map (label q "x")) =
      .ok [some none, some none, some none, some none] ∧
    (exPatch.coordsFromFrame [("distance", [5, 11, 16]), ("x", [0, 10, 40])] false).map (fun q => [[0, 0], [0, 1], [0, 2], [1, 3]].map (label q "x")) =
      .ok [some (some 0), some (some 5), some (some 10), some (some 28)] := by
  constructor <;> decide +kernel

/-- **C97 violated** (times): a table of times works only with `extrapolate=True`, otherwise it raises. -/
theorem C97_time_violated (p : PatchM α) (t : Frame) (c : Coord) (x : String) (h1 : anchorsOf p.cm t = ["time"]) (h2 : p.cm.ents.get? "time" = some (["time"], .one .time c))
    (hx : x ∈ t.keys) (hne : x ≠ "time") (h0 : t.get? "time" ≠ some []) : p.coordsFromFrame t false = .error .typeError := by
  unfold PatchM.coordsFromFrame
  rw [h1]
  simp only [h2, bind, Except.bind]
  have htime : "time" ∈ t.keys := by
    have : "time" ∈ anchorsOf p.cm t := by rw [h1]; simp
    exact (List.mem_filter.1 this).1
  obtain ⟨A, hA⟩ := Dict.mem_keys.1 htime
  have hAe : A.isEmpty = false := by cases A <;> simp_all
  have hone : ∀ V, tableCoord false t "time" .time c V = .error .typeError := by
    intro V
    simp [tableCoord, columnAt, hA, hAe, Except.map]
  have hall : ∀ l : Frame, l ≠ [] → (l.mapM fun e => (tableCoord false t "time" .time c e.2).map fun x => (e.1, x)) = .error .typeError := by
    intro l hl
    cases l with
    | nil => exact absurd rfl hl
    | cons e r => rw [List.mapM_cons, hone]; rfl
  unfold tableCoords
  rw [hall]
  intro hnil
  obtain ⟨V, hV⟩ := Dict.mem_keys.1 hx
  have : (x, V) ∈ t.filter fun e => e.1 != "time" := List.mem_filter.2 ⟨Dict.mem_of_get? hV, by simpa using hne⟩
  rw [hnil] at this; cases this

/-- **C97 violated** (origins given by a distance along the fibre): the coordinate `shot_distance` of the origin is overwritten by the distances. -/
theorem C97_distance_violated : (exPatch.addDistanceTo sumNorm [("distance", 9)] "shot").map (fun q => (q.cm.ents.get? "shot_distance").map Prod.fst) = .ok (some ["distance"]) ∧
    (exPatch.addDistanceTo sumNorm [("distance", 9)] "shot").map (fun q => [[0, 0], [0, 1], [1, 2], [1, 3]].map (label q "shot_distance")) =
      .ok [some (some 4), some (some 1), some (some 2), some (some 5)] := by
  constructor <;> decide +kernel

end Verif
