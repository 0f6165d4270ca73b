import Verif.Spec.Attach
import Verif.Proof.Interp
import Verif.Props.Stack
/-! # Proofs about coordinates computed from tables and places -/
namespace Verif
open Spec
variable {α : Type}

/-! ### Adding coordinates -/

/-- The coordinates given are new names, or names of coordinates which are no dimensions, and attached to existing dimensions. -/
structure Extra (m : CM) (kw : Dict CArg) : Prop where
  names : kw.keys.Nodup
  free : ∀ name ∈ kw.keys, name ∉ m.dims ∧ matchesPrefixSuffix m.dims name = false
  nested : ∀ name a, kw.get? name = some a → ∃ ds c, a = .nested ds c ∧ ∀ d ∈ ds, d ∈ m.dims

theorem Extra.kept {m : CM} {kw : Dict CArg} (h : Extra m kw) : dropNames kw = [] ∧ (∀ d, ¬ Resized m kw d) ∧
    (kw.filter fun p => ((argOf p.1 p.2).map Prod.fst == some [p.1]) && !m.dims.contains p.1) = [] := by
  have hg : ∀ e ∈ kw, ∃ ds c, e.2 = .nested ds c ∧ ∀ d ∈ ds, d ∈ m.dims := fun e he => h.nested e.1 e.2 (Dict.get?_of_mem h.names he)
  refine ⟨?_, ?_, ?_⟩
  · unfold dropNames
    rw [List.map_eq_nil_iff, List.filter_eq_nil_iff]
    intro e he
    obtain ⟨ds, c, h1, _⟩ := hg e he
    simp [h1, CArg.isDrop]
  · rintro d ⟨hd, a, ds, c, ds', c', h1, _⟩
    exact (h.free d (Dict.mem_keys.2 ⟨_, h1⟩)).1 hd
  · rw [List.filter_eq_nil_iff]
    intro e he
    obtain ⟨ds, c, h1, h2⟩ := hg e he
    simp only [h1, argOf, Option.map_some, Bool.and_eq_true, beq_iff_eq, Option.some.injEq, Bool.not_eq_true', List.contains_eq_mem, decide_eq_false_iff_not, not_and, not_not]
    rintro rfl
    exact h2 e.1 (by simp)

theorem attach_spec {p q : PatchM α} (hm : Regular p.cm) {kw : Dict CArg} (hk : Extra p.cm kw) (h : p.updateCoords kw = .ok q) :
    WithMore p q kw.keys ∧ ∀ name ds c, kw.get? name = some (.nested ds c) → ∃ c', c.canon = .ok c' ∧ q.cm.ents.get? name = some (ds, c') := by
  unfold PatchM.updateCoords at h
  obtain ⟨cm, h1, h⟩ := bind_split h
  obtain ⟨rfl, _⟩ := new_ok h
  have hU := update_spec hm.wf hk.names (fun n hn => (hk.free n hn).2) h1
  obtain ⟨k1, k2, k3⟩ := hk.kept
  have hdims : cm.dims = p.cm.dims := by rw [hU.dims, k1, k3]; simp
  refine ⟨⟨rfl, hdims, ?_, ?_⟩, ?_⟩
  · intro name ds c hc hn hs i
    have hnone : kw.get? name = none := Dict.get?_eq_none.2 hn
    obtain ⟨c', e1, e2⟩ := hU.kept name ds c hnone hc fun d _ => ⟨by rw [k1]; simp, k2 d⟩
    unfold label
    rw [e2, hc]
    cases ds with
    | nil => rfl
    | cons d ds => simp only [hdims, e1.2 hs]
  · intro name hn hp
    exact hU.none name (Dict.get?_eq_none.2 hn) hp
  · intro name ds c hc
    exact hU.givenC name _ ds c hc rfl

theorem attach_total {p : PatchM α} (hm : Regular p.cm) (hr : Readable p.cm) (hsh : p.cm.shape = p.data.shape) {kw : Dict CArg} (hk : Extra p.cm kw)
    (hc : ∀ name ds c, kw.get? name = some (.nested ds c) → (∃ x, c.canon = .ok x) ∧ (ds = [] ∨ ds.map (lenDim p.cm) = c.shape)) : ∃ q, p.updateCoords kw = .ok q := by
  obtain ⟨k1, k2, k3⟩ := hk.kept
  have hnl : ∀ d ∈ p.cm.dims, newLen p.cm kw d = p.cm.ents.lenOf d := by
    intro d hd
    unfold newLen
    rw [Dict.get?_eq_none.2 fun hn => (hk.free d hn).1 hd]
  have hf : Fits p.cm kw := by
    intro name a ha
    obtain ⟨ds, c, rfl, hds⟩ := hk.nested name a ha
    obtain ⟨⟨x, hx⟩, hs⟩ := hc name ds c ha
    refine ⟨ds, c, x, rfl, hx, hds, fun hn => absurd hn (hk.free name (Dict.mem_keys.2 ⟨_, ha⟩)).1, hs.imp id fun h => ?_⟩
    rw [← h]
    exact List.map_congr_left fun d hd => hnl d (hds d hd)
  obtain ⟨cm, hcm⟩ := update_total hm.wf hk.names (fun n hn => (hk.free n hn).2) hf hr
  have hU := update_spec hm.wf hk.names (fun n hn => (hk.free n hn).2) hcm
  have hwf' : cm.shape = p.cm.shape := by
    have hdims : cm.dims = p.cm.dims := by rw [hU.dims, k1, k3]; simp
    unfold CM.shape
    rw [hdims]
    congr 1
    refine List.map_congr_left fun d hd => ?_
    obtain ⟨c, n, e1, e2, e3⟩ := CM.WellFormed.get_dim hm.wf hd
    obtain ⟨c', f1, f2⟩ := hU.kept d _ c (Dict.get?_eq_none.2 fun hn => (hk.free d hn).1 hd) e1 fun e _ => ⟨by rw [k1]; simp, k2 e⟩
    unfold Ents.lenOf
    rw [e1, f2]
    exact SameValues.len f1
  refine ⟨⟨cm, p.data⟩, ?_⟩
  unfold PatchM.updateCoords
  simp only [bind, Except.bind, hcm, PatchM.new]
  rw [if_pos (by rw [hwf', hsh])]

/-! ### Arrays of floats -/

theorem floatCoord_shape (xs : List (Option ℚ)) : (floatCoord xs).shape = [xs.length] := by
  unfold floatCoord
  split_ifs <;> simp [MCoord.shape, MCoord.arr, Coord.length]

theorem all_some {xs : List (Option ℚ)} (h : xs.all Option.isSome = true) : xs = (xs.map fun x => x.getD 0).map some := by
  rw [List.map_map]
  conv_lhs => rw [← List.map_id xs]
  refine List.map_congr_left fun x hx => ?_
  have := List.all_eq_true.1 h x hx
  cases x with
  | none => cases this
  | some v => rfl

theorem floatCoord_canon {xs : List (Option ℚ)} (hs : ∀ vs, xs = vs.map some → Storable vs) :
    ∃ c', (floatCoord xs).canon = .ok c' ∧ ∀ i, c'.arr.get i = xs.getD (i.getD 0 0) none := by
  unfold floatCoord
  split_ifs with h1 h2
  · refine ⟨_, rfl, fun i => ?_⟩
    have : xs = List.replicate xs.length none := by
      rw [List.eq_replicate_iff]
      exact ⟨rfl, fun x hx => by simpa using List.all_eq_true.1 h1 x hx⟩
    show ((Coord.part xs.length).labels).getD _ none = _
    rw [show (Coord.part xs.length).labels = List.replicate xs.length none from rfl, ← this]
  · obtain ⟨d, e1, e2⟩ := storable_cases (k := .float) (hs _ (all_some h2))
    refine ⟨.one .float d, by show (getCoordData _ _).map _ = _; rw [e1]; rfl, fun i => ?_⟩
    show d.labels.getD _ none = _
    rw [e2, ← all_some h2]
  · exact ⟨_, rfl, fun i => rfl⟩

/-! ### Tables -/

theorem rows_lt {pts : List (ℚ × ℚ)} (hs : (pts.map Prod.fst).Pairwise (· < ·)) {i j : ℕ} (hi : i < pts.length) (hj : j < pts.length) (h : i < j) : pts[i].1 < pts[j].1 := by
  have := List.pairwise_iff_getElem.1 hs i j (by simpa using hi) (by simpa using hj) h
  simpa using this

theorem rows_le {pts : List (ℚ × ℚ)} (hs : (pts.map Prod.fst).Pairwise (· < ·)) {i j : ℕ} (hi : i < pts.length) (hj : j < pts.length) (h : i ≤ j) : pts[i].1 ≤ pts[j].1 := by
  rcases Nat.lt_or_eq_of_le h with h | rfl
  · exact (rows_lt hs hi hj h).le
  · exact le_rfl

theorem interpInside_spec {pts : List (ℚ × ℚ)} (hs : (pts.map Prod.fst).Pairwise (· < ·)) (hl : pts ≠ []) (x : ℚ) :
    (∃ v, interpInside pts x = some v ∧ WithinRows pts x v) ∨ (interpInside pts x = none ∧ OutsideRows pts x) := by
  have hpos : 0 < pts.length := List.length_pos_iff.2 hl
  have hgd : ∀ j (hj : j < pts.length), pts.getD j (0, 0) = pts[j] := by
    intro j hj; rw [List.getD_eq_getElem?_getD, List.getElem?_eq_getElem hj]; rfl
  set n := searchRight (pts.map Prod.fst) x with hn
  have hle : n ≤ pts.length := by simpa using searchRight_le (pts.map Prod.fst) x
  have hsp : ∀ i (hi : i < pts.length), pts[i].1 ≤ x ↔ i < n := by
    intro i hi
    have := searchRight_spec (hs.imp le_of_lt) x i (by simpa using hi)
    simpa using this
  unfold interpInside
  simp only
  rw [← hn, hgd (pts.length - 1) (by omega), hgd 0 hpos]
  split_ifs with h1 h2 h3 h4
  · right
    refine ⟨rfl, .inr fun r hr => ?_⟩
    obtain ⟨i, hi, rfl⟩ := List.getElem_of_mem hr
    exact lt_of_le_of_lt (rows_le hs hi (by omega) (by omega)) h1
  · right
    refine ⟨rfl, .inl fun r hr => ?_⟩
    obtain ⟨i, hi, rfl⟩ := List.getElem_of_mem hr
    exact lt_of_lt_of_le h2 (rows_le hs hpos hi (by omega))
  · left
    have hj : n - 1 < pts.length := by omega
    have hlast : pts[n - 1].1 = x := by
      refine le_antisymm ((hsp _ hj).2 (by have := (hsp 0 hpos).1 (not_lt.1 h2); omega)) ?_
      have := not_lt.1 h1
      have he : n - 1 = pts.length - 1 := by omega
      simp only [he]; exact this
    rw [hgd _ hj]
    refine ⟨_, rfl, pts[n - 1], List.getElem_mem hj, pts[n - 1], List.getElem_mem hj, hlast.le, hlast.ge, fun r _ => le_total _ _, by simp⟩
  · left
    have hj : n - 1 < pts.length := by omega
    rw [hgd _ hj] at h4 ⊢
    exact ⟨_, rfl, pts[n - 1], List.getElem_mem hj, pts[n - 1], List.getElem_mem hj, h4.le, h4.ge, fun r _ => le_total _ _, by simp⟩
  · left
    have h0 : 0 < n := (hsp 0 hpos).1 (not_lt.1 h2)
    have hj : n - 1 < pts.length := by omega
    have hj1 : n - 1 + 1 < pts.length := by omega
    rw [hgd _ hj, hgd _ hj1]
    refine ⟨_, rfl, pts[n - 1], List.getElem_mem hj, pts[n - 1 + 1], List.getElem_mem hj1, (hsp _ hj).2 (by omega), ?_, ?_, by ring⟩
    · by_contra hc
      have := (hsp _ hj1).1 (not_le.1 hc).le
      omega
    · intro r hr
      obtain ⟨i, hi, rfl⟩ := List.getElem_of_mem hr
      by_cases hin : i ≤ n - 1
      · exact .inl (rows_le hs hi hj hin)
      · exact .inr (rows_le hs hj1 hi (by omega))

theorem interpLinear_rows {xs ys : List ℚ} (h : xs.length = ys.length) (hn : xs.Nodup) (hl : 2 ≤ xs.length) (x : ℚ) :
    OnLines (xs.zip ys) x (interpLinear (sortedPoints xs ys) x) := by
  have hs := sortedPoints_sorted h hn
  have hlen := sortedPoints_length h
  have hmem : ∀ r, r ∈ sortedPoints xs ys ↔ r ∈ xs.zip ys := fun r => (sortedPoints_perm xs ys).mem_iff
  obtain ⟨t, ht, h1, h2, h3⟩ := interpLinear_spec hs (by omega) x
  refine ⟨_, (hmem _).1 (List.getElem_mem (by omega : t < _)), _, (hmem _).1 (List.getElem_mem ht), rows_lt hs _ ht (by omega), h1.imp id ?_, h2.imp id ?_, ?_, h3⟩
  · rintro rfl r hr
    obtain ⟨i, hi, rfl⟩ := List.getElem_of_mem ((hmem r).2 hr)
    exact rows_le hs _ hi (by omega)
  · intro he r hr
    obtain ⟨i, hi, rfl⟩ := List.getElem_of_mem ((hmem r).2 hr)
    exact rows_le hs hi ht (by omega)
  · intro r hr
    obtain ⟨i, hi, rfl⟩ := List.getElem_of_mem ((hmem r).2 hr)
    by_cases hit : i ≤ t
    · exact .inl (rows_le hs hi _ hit)
    · exact .inr (rows_le hs ht hi (by omega))

/-- What `coords_from_df` does, whichever way values are computed. -/
theorem table_parts {p q : PatchM α} (hm : Regular p.cm) {t : Frame} {ex : Bool} {d : String} {A : List ℚ} (hd : d ∈ p.cm.dims) (hA : t.get? d = some A)
    (ht : t.keys.Nodup) (hplain : ∀ n ∈ t.keys, matchesPrefixSuffix p.cm.dims n = false) (h : p.coordsFromFrame t ex = .ok q) :
    ∃ k c kw, p.cm.ents.get? d = some ([d], .one k c) ∧ Extra p.cm kw ∧ (kw.keys = t.keys.filter (· != d)) ∧ p.updateCoords kw = .ok q ∧
      ∀ n V, n ≠ d → t.get? n = some V → ∃ xs, columnAt ex k c.labels A V = .ok xs ∧ kw.get? n = some (.nested [d] (floatCoord xs)) := by
  unfold PatchM.coordsFromFrame at h
  split at h
  · rename_i d' hanch
    have hmem : ∀ n, n ∈ anchorsOf p.cm t ↔ n ∈ t.keys ∧ n ∈ p.cm.dims := by intro n; simp [anchorsOf]
    have hdd : d = d' := by
      have := (hmem d).2 ⟨Dict.mem_keys.2 ⟨_, hA⟩, hd⟩
      rw [hanch] at this
      simpa using this
    subst hdd
    split at h
    · rename_i ds k c hg
      obtain ⟨c0, _, hg', _⟩ := CM.WellFormed.get_dim hm.wf hd
      rw [hg] at hg'; cases hg'
      obtain ⟨kw, h1, h2⟩ := bind_split h
      unfold tableCoords at h1
      have hkeys : kw.keys = t.keys.filter (· != d) := by
        rw [Dict.mapM_keys (f := fun e => tableCoord ex t d k c e.2) h1]
        simp only [Dict.keys, List.filter_map]; rfl
      have hget : ∀ n V, n ≠ d → t.get? n = some V → ∃ xs, columnAt ex k c.labels A V = .ok xs ∧ kw.get? n = some (.nested [d] (floatCoord xs)) := by
        intro n V hn hV
        obtain ⟨v, e1, e2⟩ := mapM_get?' (f := fun e => tableCoord ex t d k c e.2) h1 n (a := V) (by
          rw [Dict.get?_filter t (fun m => m != d)]; simp [hn, hV])
        simp only [tableCoord, hA, Option.getD_some] at e2
        obtain ⟨xs, f1, rfl⟩ := except_map_ok e2
        exact ⟨xs, f1, e1⟩
      refine ⟨k, c, kw, hg, ⟨by rw [hkeys]; exact ht.filter _, ?_, ?_⟩, hkeys, h2, hget⟩
      · intro n hn
        rw [hkeys, List.mem_filter] at hn
        refine ⟨fun hnd => ?_, hplain n hn.1⟩
        have := (hmem n).2 ⟨hn.1, hnd⟩
        rw [hanch] at this
        simp at this
        simp [this] at hn
      · intro n a ha
        have hn : n ∈ kw.keys := Dict.mem_keys.2 ⟨_, ha⟩
        rw [hkeys, List.mem_filter] at hn
        obtain ⟨V, hV⟩ := Dict.mem_keys.1 hn.1
        obtain ⟨xs, _, e⟩ := hget n V (by simpa using hn.2) hV
        rw [ha] at e; cases e
        exact ⟨_, _, rfl, by simp [hd]⟩
    · cases h
  · cases h

end Verif
