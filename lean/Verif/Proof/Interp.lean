import Verif.Spec.Resample
import Verif.Proof.CalculusPatch
import Verif.Proof.Strain
import Verif.Proof.FourierPatch
import Verif.Proof.MutePatch
import Verif.Proof.Units
/-! # Interpolation -/
namespace Verif
open Spec

theorem map_set_idx {l : List String} (hn : l.Nodup) (f : String → ℕ) (d : String) (n : ℕ) :
    (l.map f).set (l.idxOf d) n = l.map fun e => if e = d then n else f e := by
  apply List.ext_getElem
  · simp
  · intro t h1 h2
    simp only [List.length_map] at h2
    simp only [List.getElem_set, List.getElem_map]
    by_cases h : l[t] = d
    · rw [if_pos (by rw [← h, hn.idxOf_getElem]), if_pos h]
    · rw [if_neg (by rintro rfl; exact h (List.getElem_idxOf (by simpa using h2))), if_neg h]

/-- Replacing the coordinate of one dimension. -/
theorem regrid_spec {p : PatchM ℚ} (hm : Regular p.cm) {d : String} (hd : d ∈ p.cm.dims) {k k' : Kind} {c : Coord} {xs : List ℚ}
    (hc : p.cm.ents.get? d = some ([d], .one k c)) {a : CArg} (ha : argOf d a = some ([d], .one k' (.arr xs))) {cm : CM}
    (hcm : p.cm.update [(d, a)] = .ok cm) {data : Nd ℚ} (hs : p.cm.shape = p.data.shape)
    (hdat : data.shape = p.data.shape.set (p.cm.dims.idxOf d) xs.length) :
    Regridded p ⟨cm, data⟩ d xs := by
  have hnd : p.cm.dims.Nodup := hm.distinct
  have hcl : c.length = lenDim p.cm d := (dim_one hm hd hc).2
  have hplain : ∀ name ∈ Dict.keys ([(d, a)] : Dict CArg), matchesPrefixSuffix p.cm.dims name = false := by
    intro name hn
    simp only [Dict.keys, List.map_cons, List.map_nil, List.mem_singleton] at hn
    subst hn
    exact hm.plain _ (mem_ents_keys hm.wf hd)
  have hU := update_spec hm.wf (by simp [Dict.keys]) hplain hcm
  have hdr : a.isDrop = false := by cases a <;> first | rfl | cases ha
  have hdn : dropNames [(d, a)] = [] := by simp [dropNames, hdr]
  have hdims : cm.dims = p.cm.dims := by
    rw [hU.dims]
    simp [hdn, hd]
  have hgn : ∀ name, name ≠ d → Dict.get? ([(d, a)] : Dict CArg) name = none := by
    intro name hn
    simp [Dict.get?, Ne.symm hn]
  have hgd : Dict.get? ([(d, a)] : Dict CArg) d = some a := by simp [Dict.get?]
  have hres : ∀ e, Resized p.cm [(d, a)] e ↔ e = d ∧ xs.length ≠ lenDim p.cm d := by
    intro e
    constructor
    · rintro ⟨he, a', ds, c1, ds', c', h1, h2, h3, h4⟩
      by_cases hed : e = d
      · subst hed
        rw [hgd] at h1; cases h1
        rw [ha] at h2; cases h2
        rw [hc] at h3; cases h3
        refine ⟨rfl, ?_⟩
        rw [← hcl]; exact h4
      · rw [hgn e hed] at h1; cases h1
    · rintro ⟨rfl, h⟩
      refine ⟨hd, _, _, _, _, _, hgd, ha, hc, ?_⟩
      show xs.length ≠ c.length
      rw [hcl]; exact h
  refine ⟨hdims, ?_, ?_, ?_, ?_, ?_⟩
  · show data.shape = _
    rw [hdat, shape_dims hs hd, map_set_idx hnd]
  · intro hst i hi
    obtain ⟨c', h1, h2⟩ := hU.givenC d _ _ _ hgd ha
    obtain ⟨d', rfl, h3, _⟩ := canon_one h1
    rw [label_dim (p := ⟨cm, data⟩) h2, h3 hst, labels_vals (by simp), List.getD_eq_getElem?_getD, List.getElem?_map]
    show some ((Option.map some xs[_]?).getD none) = _
    cases xs[posAlong ⟨cm, data⟩ d i]? <;> rfl
  · intro name ds c1 hn hnm hlen hsto i hi
    obtain ⟨c', h2, h3⟩ := hU.kept name ds c1 (hgn name hnm) hn (fun e he => ⟨by rw [hdn]; simp, by
      rw [hres]; rintro ⟨rfl, hx⟩; exact hx (hlen he)⟩)
    exact label_kept (p := p) (q := ⟨cm, data⟩) hn h3 h2 hsto i (fun e _ => by rw [hdims])
  · intro name ds c1 hn hnm hin hx
    exact hU.lost name ds c1 (hgn name hnm) hn ⟨d, hin, Or.inr ((hres _).2 ⟨rfl, hx⟩)⟩
  · intro name hn
    refine hU.none name (hgn name ?_) hn
    rintro rfl
    rw [hc] at hn; cases hn

/-- A coordinate that can be read fits along any dimension. -/
theorem regrid_total {m : CM} (hm : Regular m) (hr : Readable m) {d : String} (hd : d ∈ m.dims) {k' : Kind} {xs : List ℚ}
    {a : CArg} (ha : argOf d a = some ([d], .one k' (.arr xs))) {y : MCoord} (hy : (MCoord.one k' (.arr xs)).canon = .ok y) :
    ∃ cm, m.update [(d, a)] = .ok cm := by
  refine update_total hm.wf (by simp [Dict.keys]) (by
      intro n hn'
      simp only [Dict.keys, List.map_cons, List.map_nil, List.mem_singleton] at hn'
      subst hn'
      exact hm.plain _ (mem_ents_keys hm.wf hd)) (by
      intro name b hb
      have := Dict.mem_of_get? hb
      simp only [List.mem_singleton, Prod.mk.injEq] at this
      obtain ⟨rfl, rfl⟩ := this
      refine ⟨[name], _, _, ha, hy, by simpa using hd, fun _ => rfl, Or.inr ?_⟩
      simp [newLen, Dict.get?, ha, MCoord.shape, MCoord.len, MCoord.arr]) hr

/-- The coordinates after replacing that of one dimension. -/
theorem regrid_regular {m cm : CM} (hm : Regular m) {d : String} (hd : d ∈ m.dims) {k' : Kind} {xs : List ℚ} {a : CArg}
    (ha : argOf d a = some ([d], .one k' (.arr xs))) (hcm : m.update [(d, a)] = .ok cm) :
    cm.dims = m.dims ∧ Regular cm ∧ Readable cm ∧ cm.shape = m.dims.map (fun e => if e = d then xs.length else lenDim m e) ∧
      ∃ c, cm.ents.get? d = some ([d], c) ∧ (MCoord.one k' (.arr xs)).canon = .ok c := by
  have hplain : ∀ name ∈ Dict.keys ([(d, a)] : Dict CArg), matchesPrefixSuffix m.dims name = false := by
    intro name hn
    simp only [Dict.keys, List.map_cons, List.map_nil, List.mem_singleton] at hn
    subst hn
    exact hm.plain _ (mem_ents_keys hm.wf hd)
  have hU := update_spec hm.wf (by simp [Dict.keys]) hplain hcm
  have hdr : a.isDrop = false := by cases a <;> first | rfl | cases ha
  have hdn : dropNames [(d, a)] = [] := by simp [dropNames, hdr]
  have hdims : cm.dims = m.dims := by
    rw [hU.dims]
    simp [hdn, hd]
  have hgn : ∀ name, name ≠ d → Dict.get? ([(d, a)] : Dict CArg) name = none := by
    intro name hn
    simp [Dict.get?, Ne.symm hn]
  have hgd : Dict.get? ([(d, a)] : Dict CArg) d = some a := by simp [Dict.get?]
  have hsingle : ∀ name b, Dict.get? ([(d, a)] : Dict CArg) name = some b → name = d ∧ b = a := by
    intro name b hb
    have := Dict.mem_of_get? hb
    simpa using this
  refine ⟨hdims, ?_, ?_, ?_, ?_⟩
  · refine update_regular hm (by simp [Dict.keys]) ?_ ?_ hcm hdims
    · intro n hn
      simp only [Dict.keys, List.map_cons, List.map_nil, List.mem_singleton] at hn
      subst hn
      exact mem_ents_keys hm.wf hd
    · intro name b hb
      obtain ⟨rfl, rfl⟩ := hsingle name b hb
      exact ⟨_, _, ha, by simp, by intro k r h; cases h⟩
  · refine update_readable hU ?_
    intro name b hb
    obtain ⟨rfl, rfl⟩ := hsingle name b hb
    exact ⟨_, _, ha⟩
  · unfold CM.shape
    rw [if_neg (by rw [hdims]; exact List.ne_nil_of_mem hd), hdims]
    refine List.map_congr_left fun e he => ?_
    by_cases hed : e = d
    · subst hed
      obtain ⟨c', h1, h2⟩ := hU.given e a _ _ hgd ha
      rw [if_pos rfl]
      unfold Ents.lenOf
      rw [h2]
      show c'.len = _
      unfold MCoord.len
      rw [h1.1]
      rfl
    · obtain ⟨c', n, hc', hs', hl'⟩ := CM.WellFormed.get_dim hm.wf he
      obtain ⟨c1, h1, h2⟩ := hU.kept e _ _ (hgn e hed) hc' (fun e' he' => ⟨by rw [hdn]; simp, by
        rintro ⟨_, b, _, _, _, _, hb, _⟩
        rw [List.mem_singleton] at he'
        subst he'
        exact hed (hsingle _ _ hb).1⟩)
      rw [if_neg hed]
      unfold lenDim
      rw [hl']
      unfold Ents.lenOf
      rw [h2]
      show c1.len = _
      unfold MCoord.len
      rw [h1.1, hs']
      rfl
  · obtain ⟨c', h1, h2⟩ := hU.givenC d a _ _ hgd ha
    exact ⟨c', h2, h1⟩

/-! ### One line -/

theorem sortedPoints_perm (xs ys : List ℚ) : (sortedPoints xs ys).Perm (xs.zip ys) := List.perm_insertionSort _ _

theorem sortedPoints_length {xs ys : List ℚ} (h : xs.length = ys.length) : (sortedPoints xs ys).length = xs.length := by
  rw [(sortedPoints_perm xs ys).length_eq, List.length_zip, h, Nat.min_self]

theorem sortedPoints_sorted {xs ys : List ℚ} (h : xs.length = ys.length) (hn : xs.Nodup) :
    ((sortedPoints xs ys).map Prod.fst).Pairwise (· < ·) := by
  have hs : (sortedPoints xs ys).Pairwise (fun a b => a.1 ≤ b.1) := by
    have : Std.Total (α := ℚ × ℚ) (fun a b => a.1 ≤ b.1) := ⟨fun a b => le_total _ _⟩
    have : IsTrans (ℚ × ℚ) (fun a b => a.1 ≤ b.1) := ⟨fun a b c => le_trans⟩
    exact List.pairwise_insertionSort _ _
  have hnd : ((sortedPoints xs ys).map Prod.fst).Nodup := by
    rw [((sortedPoints_perm xs ys).map Prod.fst).nodup_iff, List.map_fst_zip (by omega)]
    exact hn
  rw [List.pairwise_map]
  rw [List.nodup_iff_pairwise_ne, List.pairwise_map] at hnd
  exact (hs.and hnd).imp fun h => lt_of_le_of_ne h.1 h.2

theorem interpLinear_spec {pts : List (ℚ × ℚ)} (hs : (pts.map Prod.fst).Pairwise (· < ·)) (hl : 2 ≤ pts.length) (x : ℚ) :
    ∃ t, ∃ ht : t + 1 < pts.length, (pts[t].1 ≤ x ∨ t = 0) ∧ (x ≤ pts[t + 1].1 ∨ t + 2 = pts.length) ∧
      interpLinear pts x = pts[t].2 + (pts[t + 1].2 - pts[t].2) * ((x - pts[t].1) / (pts[t + 1].1 - pts[t].1)) := by
  set n := searchLeft (pts.map Prod.fst) x with hn
  have hle : n ≤ pts.length := by simpa using searchLeft_le (pts.map Prod.fst) x
  have hsp : ∀ i (hi : i < pts.length), pts[i].1 < x ↔ i < n := by
    intro i hi
    have := searchLeft_spec (hs.imp le_of_lt) x i (by simpa using hi)
    simpa using this
  set m := min (max n 1) (pts.length - 1) with hm
  have h1 : 1 ≤ m := by omega
  have h2 : m < pts.length := by omega
  refine ⟨m - 1, by omega, ?_, ?_, ?_⟩
  · by_cases h : n ≤ 1
    · right; omega
    · left; exact ((hsp _ (by omega)).2 (by omega)).le
  · by_cases h : n + 1 ≤ pts.length
    · left
      by_contra hc
      have := (hsp (m - 1 + 1) (by omega)).1 (not_le.1 hc)
      omega
    · right; omega
  · have e : m - 1 + 1 = m := by omega
    simp only [e]
    unfold interpLinear
    rw [← hn, ← hm]
    simp only [List.getD_eq_getElem?_getD, List.getElem?_eq_getElem h2, List.getElem?_eq_getElem (show m - 1 < pts.length by omega),
      Option.getD_some]
    ring

theorem interpNearest_spec {pts : List (ℚ × ℚ)} (hs : (pts.map Prod.fst).Pairwise (· < ·)) (hl : 1 ≤ pts.length) (x : ℚ) :
    ∃ t, ∃ ht : t < pts.length, (∀ u (hu : u < pts.length), |x - pts[t].1| ≤ |x - pts[u].1|) ∧ interpNearest pts x = pts[t].2 := by
  set bs := List.zipWith (fun a b : ℚ × ℚ => b.1 / 2 + a.1 / 2) pts pts.tail with hbs
  have hbl : bs.length = pts.length - 1 := by simp [hbs]
  have hlt : ∀ i j (hi : i < pts.length) (hj : j < pts.length), i < j → pts[i].1 < pts[j].1 := by
    intro i j hi hj hij
    have := List.pairwise_iff_getElem.1 hs i j (by simpa using hi) (by simpa using hj) hij
    simpa using this
  have hle : ∀ i j (hi : i < pts.length) (hj : j < pts.length), i ≤ j → pts[i].1 ≤ pts[j].1 := by
    intro i j hi hj hij
    rcases Nat.lt_or_eq_of_le hij with h | rfl
    · exact (hlt i j hi hj h).le
    · exact le_rfl
  have hbg : ∀ i (hi : i < bs.length), bs[i] = pts[i + 1].1 / 2 + pts[i].1 / 2 := by
    intro i hi
    simp only [hbs, List.getElem_zipWith, List.getElem_tail]
  have hbsorted : bs.Pairwise (· ≤ ·) := by
    rw [List.pairwise_iff_getElem]
    intro i j hi hj hij
    rw [hbg i hi, hbg j hj]
    have := hle i j (by omega) (by omega) hij.le
    have := hle (i + 1) (j + 1) (by omega) (by omega) (by omega)
    linarith
  set n := searchLeft bs x with hn
  have hnl : n ≤ bs.length := searchLeft_le bs x
  have hsp : ∀ i (hi : i < bs.length), bs[i] < x ↔ i < n := fun i hi => searchLeft_spec hbsorted x i hi
  have hm : min n (pts.length - 1) = n := by omega
  refine ⟨n, by omega, ?_, ?_⟩
  · intro u hu
    rcases lt_trichotomy u n with h | rfl | h
    · have h1 := (hsp (n - 1) (by omega)).2 (by omega)
      rw [hbg _ (by omega)] at h1
      have e : n - 1 + 1 = n := by omega
      simp only [e] at h1
      have h2 := hle u (n - 1) hu (by omega) (by omega)
      have h3 := hlt (n - 1) n (by omega) (by omega) (by omega)
      rw [← sq_le_sq]
      nlinarith [mul_nonneg (show 0 ≤ pts[n].1 - pts[u].1 by linarith) (show 0 ≤ 2 * x - pts[n].1 - pts[u].1 by linarith)]
    · exact le_rfl
    · have h1 : ¬ bs[n]'(by omega) < x := by rw [hsp n (by omega)]; omega
      rw [hbg _ (by omega)] at h1
      have h2 := hle (n + 1) u (by omega) hu (by omega)
      have h3 := hlt n (n + 1) (by omega) (by omega) (by omega)
      rw [← sq_le_sq]
      nlinarith [mul_nonneg (show 0 ≤ pts[u].1 - pts[n].1 by linarith) (show 0 ≤ pts[n].1 + pts[u].1 - 2 * x by linarith)]
  · unfold interpNearest
    rw [← hbs, ← hn, hm, List.getD_eq_getElem?_getD, List.getElem?_eq_getElem (by omega)]
    rfl

/-! ### Patches -/

section
variable {p : PatchM ℚ} {d : String} {k : Kind} {c : Coord}

/-- The samples of a line are those of the patch. -/
theorem lineSample_iff (hm : Regular p.cm) (hsh : p.cm.shape = p.data.shape) (hd : d ∈ p.cm.dims)
    (hc : p.cm.ents.get? d = some ([d], .one k c)) (hlen : c.vals.length = lenDim p.cm d) (hnp : ∀ n, c ≠ .part n)
    {i : List ℕ} {n : ℕ} (hi : InRange (p.data.shape.set (p.cm.dims.idxOf d) n) i) (j : List ℕ) (a : ℚ) :
    LineSample p d i j a ↔ ∃ t, j = i.set (p.cm.dims.idxOf d) t ∧ c.vals[t]? = some a := by
  have hil : i.length = p.cm.dims.length := by
    have := inRange_length hi
    rw [List.length_set, shape_dims hsh hd, List.length_map] at this
    exact this
  have hax : p.cm.dims.idxOf d < p.cm.dims.length := List.idxOf_lt_length_of_mem hd
  constructor
  · rintro ⟨h1, h2, h3⟩
    refine ⟨posAlong p d j, sameLine_eq hil ?_ hm.distinct h2, ?_⟩
    · rw [inRange_length h1, shape_dims hsh hd, List.length_map]
    · rw [label_dim hc, labels_vals hnp, List.getD_eq_getElem?_getD, List.getElem?_map] at h3
      injection h3 with h3
      cases h : c.vals[posAlong p d j]? with
      | none => rw [h] at h3; cases h3
      | some v => rw [h] at h3; simpa using h3
  · rintro ⟨t, rfl, ht⟩
    have htl : t < lenDim p.cm d := by
      rw [← hlen]
      by_contra hx
      rw [List.getElem?_eq_none (by omega)] at ht; cases ht
    refine ⟨?_, sameLine_set i t, ?_⟩
    · rw [inRange_iff] at hi ⊢
      refine ⟨by simpa using hi.1, fun u hu => ?_⟩
      by_cases hud : u = p.cm.dims.idxOf d
      · subst hud
        rw [shape_getD hsh hd, List.getD_eq_getElem?_getD, List.getElem?_set_self (by omega)]
        exact htl
      · have := hi.2 u (by simpa using hu)
        rw [List.getD_eq_getElem?_getD, List.getElem?_set_ne (Ne.symm hud), List.getD_eq_getElem?_getD, List.getElem?_set_ne (Ne.symm hud)] at *
        exact this
    · have e : posAlong p d (i.set (p.cm.dims.idxOf d) t) = t := by
        unfold posAlong
        rw [List.getD_eq_getElem?_getD, List.getElem?_set_self (by omega)]
        rfl
      rw [label_dim hc, labels_vals hnp, e, List.getD_eq_getElem?_getD, List.getElem?_map, ht]
      rfl

/-- The sorted samples of a line, one by one. -/
theorem sortedPoints_get (hsh : p.cm.shape = p.data.shape) (hd : d ∈ p.cm.dims) (hlen : c.vals.length = lenDim p.cm d) (i : List ℕ) :
    let pts := sortedPoints c.vals (p.data.lineThrough (p.cm.dims.idxOf d) i)
    (∀ t (ht : t < pts.length), ∃ u, c.vals[u]? = some pts[t].1 ∧ p.data.get (i.set (p.cm.dims.idxOf d) u) = pts[t].2) ∧
    (∀ (u : ℕ) a, c.vals[u]? = some a → ∃ t, ∃ ht : t < pts.length, pts[t].1 = a) := by
  intro pts
  have hll : (p.data.lineThrough (p.cm.dims.idxOf d) i).length = c.vals.length := by
    unfold Nd.lineThrough
    rw [List.length_map, List.length_range, shape_getD hsh hd, hlen]
  have hlg : ∀ u (hu : u < (p.data.lineThrough (p.cm.dims.idxOf d) i).length),
      (p.data.lineThrough (p.cm.dims.idxOf d) i)[u] = p.data.get (i.set (p.cm.dims.idxOf d) u) := by
    intro u hu
    simp [Nd.lineThrough]
  constructor
  · intro t ht
    have hmem : pts[t] ∈ c.vals.zip (p.data.lineThrough (p.cm.dims.idxOf d) i) := (sortedPoints_perm _ _).mem_iff.1 (List.getElem_mem ht)
    obtain ⟨u, hu, he⟩ := List.getElem_of_mem hmem
    rw [List.length_zip] at hu
    rw [List.getElem_zip] at he
    refine ⟨u, ?_, ?_⟩
    · rw [List.getElem?_eq_getElem (by omega), ← he]
    · rw [← hlg u (by omega), ← he]
  · intro u a ha
    have hu : u < c.vals.length := by
      by_contra hx
      rw [List.getElem?_eq_none (by omega)] at ha; cases ha
    have hmem : (c.vals[u], (p.data.lineThrough (p.cm.dims.idxOf d) i)[u]'(by omega)) ∈ pts := by
      apply (sortedPoints_perm _ _).mem_iff.2
      rw [List.mem_iff_getElem]
      exact ⟨u, by rw [List.length_zip]; omega, by rw [List.getElem_zip]⟩
    obtain ⟨t, ht, he⟩ := List.getElem_of_mem hmem
    refine ⟨t, ht, ?_⟩
    rw [he]
    rw [List.getElem?_eq_getElem hu] at ha
    simpa using ha

theorem dim_vals_length (hm : Regular p.cm) (hd : d ∈ p.cm.dims) (hc : p.cm.ents.get? d = some ([d], .one k c)) (hnp : ∀ n, c ≠ .part n) :
    c.vals.length = lenDim p.cm d := by
  have := labels_length (hm.classes _ _ _ _ (Dict.mem_of_get? hc))
  rw [labels_vals hnp, List.length_map] at this
  rw [this]
  exact (dim_one hm hd hc).2

/-- The data of an interpolation. -/
theorem interpAxis_spec (hm : Regular p.cm) (hsh : p.cm.shape = p.data.shape) (hd : d ∈ p.cm.dims)
    (hc : p.cm.ents.get? d = some ([d], .one k c)) (hn : c.vals.Nodup) (hl : 2 ≤ c.vals.length) (cm : CM) (hcm : cm.dims = p.cm.dims)
    (xs : List ℚ) :
    OnSegments p ⟨cm, p.data.interpAxis .linear (p.cm.dims.idxOf d) c.vals xs⟩ d xs ∧
    FromNearest p ⟨cm, p.data.interpAxis .nearest (p.cm.dims.idxOf d) c.vals xs⟩ d xs := by
  have hnp : ∀ n, c ≠ .part n := by rintro n rfl; simp [Coord.vals] at hl
  have hlen := dim_vals_length hm hd hc hnp
  have hpq : ∀ (data : Nd ℚ) i, posAlong (⟨cm, data⟩ : PatchM ℚ) d i = i.getD (p.cm.dims.idxOf d) 0 := by
    intro data i; unfold posAlong; simp only; rw [hcm]
  have hll : ∀ i, c.vals.length = (p.data.lineThrough (p.cm.dims.idxOf d) i).length := by
    intro i
    unfold Nd.lineThrough
    rw [List.length_map, List.length_range, shape_getD hsh hd, hlen]
  constructor
  · intro i hi x hx
    have hx' : xs.getD (i.getD (p.cm.dims.idxOf d) 0) 0 = x := by
      rw [hpq] at hx
      rw [List.getD_eq_getElem?_getD, hx]; rfl
    have hls := lineSample_iff hm hsh hd hc hlen hnp (n := xs.length) hi
    set pts := sortedPoints c.vals (p.data.lineThrough (p.cm.dims.idxOf d) i) with hpts
    have hs : (pts.map Prod.fst).Pairwise (· < ·) := sortedPoints_sorted (hll i) hn
    have hpl : pts.length = c.vals.length := sortedPoints_length (hll i)
    obtain ⟨g1, g2⟩ := sortedPoints_get (c := c) hsh hd hlen i
    rw [← hpts] at g1 g2
    have hlt : ∀ i j (hi : i < pts.length) (hj : j < pts.length), i < j → pts[i].1 < pts[j].1 := by
      intro i j hi hj hij
      have := List.pairwise_iff_getElem.1 hs i j (by simpa using hi) (by simpa using hj) hij
      simpa using this
    have hle : ∀ i j (hi : i < pts.length) (hj : j < pts.length), i ≤ j → pts[i].1 ≤ pts[j].1 := by
      intro i j hi hj hij
      rcases Nat.lt_or_eq_of_le hij with h | rfl
      · exact (hlt i j hi hj h).le
      · exact le_rfl
    obtain ⟨t, ht, h1, h2, h3⟩ := interpLinear_spec hs (by omega) x
    obtain ⟨u, hu, eu⟩ := g1 t (by omega)
    obtain ⟨w, hw, ew⟩ := g1 (t + 1) ht
    refine ⟨_, _, _, _, ⟨(hls _ _).2 ⟨u, rfl, hu⟩, (hls _ _).2 ⟨w, rfl, hw⟩, hlt _ _ _ _ (by omega), ?_, ?_, ?_⟩, ?_⟩
    · intro l y hy
      obtain ⟨v, _, hv⟩ := (hls _ _).1 hy
      obtain ⟨s, hs', rfl⟩ := g2 v y hv
      rcases Nat.lt_or_ge t s with h | h
      · right; exact hle _ _ _ _ h
      · left; exact hle _ _ _ _ h
    · refine h1.imp id ?_
      rintro rfl l y hy
      obtain ⟨v, _, hv⟩ := (hls _ _).1 hy
      obtain ⟨s, hs', rfl⟩ := g2 v y hv
      exact hle _ _ _ _ (Nat.zero_le _)
    · refine h2.imp id ?_
      intro hlast l y hy
      obtain ⟨v, _, hv⟩ := (hls _ _).1 hy
      obtain ⟨s, hs', rfl⟩ := g2 v y hv
      exact hle _ _ _ _ (by omega)
    · show InterpKind.apply .linear pts (xs.getD (i.getD (p.cm.dims.idxOf d) 0) 0) = _
      rw [hx', eu, ew]
      exact h3
  · intro i hi x hx
    have hx' : xs.getD (i.getD (p.cm.dims.idxOf d) 0) 0 = x := by
      rw [hpq] at hx
      rw [List.getD_eq_getElem?_getD, hx]; rfl
    have hls := lineSample_iff hm hsh hd hc hlen hnp (n := xs.length) hi
    set pts := sortedPoints c.vals (p.data.lineThrough (p.cm.dims.idxOf d) i) with hpts
    have hs : (pts.map Prod.fst).Pairwise (· < ·) := sortedPoints_sorted (hll i) hn
    have hpl : pts.length = c.vals.length := sortedPoints_length (hll i)
    obtain ⟨g1, g2⟩ := sortedPoints_get (c := c) hsh hd hlen i
    rw [← hpts] at g1 g2
    obtain ⟨t, ht, h1, h2⟩ := interpNearest_spec hs (by omega) x
    obtain ⟨u, hu, eu⟩ := g1 t ht
    refine ⟨_, _, (hls _ _).2 ⟨u, rfl, hu⟩, ?_, ?_⟩
    · intro l y hy
      obtain ⟨v, _, hv⟩ := (hls _ _).1 hy
      obtain ⟨s, hs', rfl⟩ := g2 v y hv
      exact h1 s hs'
    · show InterpKind.apply .nearest pts (xs.getD (i.getD (p.cm.dims.idxOf d) 0) 0) = _
      rw [hx', eu]
      exact h2

/-- An interpolation that succeeds. -/
theorem interpolate_spec {q : PatchM ℚ} (hm : Regular p.cm) (hsh : p.cm.shape = p.data.shape) (hd : d ∈ p.cm.dims)
    (hc : p.cm.ents.get? d = some ([d], .one k c)) {kind : InterpKind} {samples : Option (Kind × List ℚ)}
    (h : p.interpolate kind d samples = .ok q) : ∃ s cm, interpSamples k c samples = .ok s ∧
      p.cm.update [(d, .nested [d] (.one s.1 (.arr s.2)))] = .ok cm ∧ q = ⟨cm, p.data.interpAxis kind (p.cm.dims.idxOf d) c.vals s.2⟩ ∧
      Regridded p q d s.2 := by
  unfold PatchM.interpolate at h
  rw [if_neg (not_not.2 hd), hc] at h
  simp only at h
  obtain ⟨s, hs, h⟩ := bind_split h
  obtain ⟨cm, hcm, h⟩ := bind_split h
  obtain ⟨rfl, hcs⟩ := new_ok h
  exact ⟨s, cm, hs, hcm, rfl, regrid_spec hm hd hc (a := .nested [d] (.one s.1 (.arr s.2))) rfl hcm hsh rfl⟩

end

end Verif
