import Verif.Props.Chunk
import Verif.Proof.Slice
/-!
# Properties C22 - C25, C28: overlap removal, chunk instructions, merge buffer, split, map
-/
namespace Verif
open Spec

/-! ### C28: removing overlaps -/

theorem removeOverlapsFrom_length (p : Row) (rs : List Row) : (removeOverlapsFrom p rs).length = rs.length := by
  induction rs generalizing p with
  | nil => rfl
  | cons r rs ih => simp [removeOverlapsFrom, ih]

/-- A row moved right so as to start after `prev`. -/
def trimAfter (prev r : Row) : Row := { r with lo := if r.lo ≤ prev.hi then prev.hi + prev.step else r.lo }

theorem removeOverlapsFrom_get (p : Row) (rs : List Row) (i : ℕ) :
    (removeOverlapsFrom p rs)[i]? = (rs[i]?).bind fun r => ((p :: rs)[i]?).map fun q => trimAfter q r := by
  induction rs generalizing p i with
  | nil => simp [removeOverlapsFrom]
  | cons r rs ih =>
    cases i with
    | zero => simp [removeOverlapsFrom, trimAfter]
    | succ i =>
      simp only [removeOverlapsFrom, List.getElem?_cons_succ]
      rw [ih]

theorem zip_tail_all {rows : List Row} (h : rows.Pairwise fun a b => a.lo ≤ b.lo) :
    (rows.zip rows.tail).all (fun p => decide (p.1.lo ≤ p.2.lo)) = true := by
  rw [List.all_eq_true]
  intro p hp
  obtain ⟨i, hi, rfl⟩ := List.mem_iff_getElem.1 hp
  simp only [List.length_zip, List.length_tail] at hi
  simp only [List.getElem_zip, List.getElem_tail, decide_eq_true_eq]
  exact List.pairwise_iff_getElem.1 h i (i + 1) (by omega) (by omega) (by omega)

/-- The result of overlap removal, row by row. -/
theorem removeOverlaps_eq {rows : List Row} (h : rows.Pairwise fun a b => a.lo ≤ b.lo) :
    ∃ out, removeOverlaps rows = .ok out ∧ out.length = rows.length ∧ out[0]? = rows[0]? ∧
      ∀ i p r, rows[i]? = some p → rows[i + 1]? = some r → out[i + 1]? = some (trimAfter p r) := by
  unfold removeOverlaps
  rw [if_pos (zip_tail_all h)]
  match rows with
  | [] => exact ⟨[], rfl, rfl, rfl, by simp⟩
  | r :: rs =>
    refine ⟨_, rfl, by simp [removeOverlapsFrom_length], by simp, ?_⟩
    intro i p q hp hq
    simp only [List.getElem?_cons_succ] at hq ⊢
    rw [removeOverlapsFrom_get, hq, hp]
    rfl

/-- A sorted table on one sampling grid in which no row ends before an earlier one does. -/
structure GridRows (a d : ℚ) (rows : List Row) : Prop where
  pos : 0 < d
  grid : ∀ r ∈ rows, OnGrid a d r.lo ∧ OnGrid a d r.hi ∧ r.step = d ∧ r.lo ≤ r.hi
  los : rows.Pairwise fun p q => p.lo ≤ q.lo
  his : rows.Pairwise fun p q => p.hi ≤ q.hi

theorem onGrid_gap {a d x y : ℚ} (hd : 0 < d) (hx : OnGrid a d x) (hy : OnGrid a d y) (h : x < y) : x + d ≤ y := by
  obtain ⟨i, rfl⟩ := hx
  obtain ⟨j, rfl⟩ := hy
  have : (i : ℚ) < j := by
    by_contra hcon
    have := mul_le_mul_of_nonneg_right (not_lt.1 hcon) hd.le
    linarith
  have : i + 1 ≤ j := by exact_mod_cast this
  have : (i : ℚ) + 1 ≤ j := by exact_mod_cast this
  nlinarith

/-- **C28** partial: rows on a common grid, sorted by start, none ending before an earlier one. Each result
row is inside its source row; a grid sample is covered after iff it was covered before, and then by exactly
one result row. Missing: rows contained in an earlier row, where it is false
(`C28_contained_violated`), and rows on different grids (`C28_off_grid_violated`). -/
theorem C28_disjoint_cover_partial (a d : ℚ) (rows : List Row) (h : GridRows a d rows) :
    ∃ out, removeOverlaps rows = .ok out ∧ out.length = rows.length ∧
      (∀ (i : ℕ) r o, rows[i]? = some r → out[i]? = some o → r.lo ≤ o.lo ∧ o.hi = r.hi ∧ o.step = r.step) ∧
      (∀ x, OnGrid a d x → (Covered (spans rows) x ↔ Covered (spans out) x)) ∧
      (∀ x (i j : ℕ) p q, out[i]? = some p → out[j]? = some q → p.lo ≤ x → x ≤ p.hi → q.lo ≤ x → x ≤ q.hi → i = j) := by
  obtain ⟨out, h1, h2, h3, h4⟩ := removeOverlaps_eq h.los
  have hhis : ∀ (i j : ℕ) p q, i ≤ j → rows[i]? = some p → rows[j]? = some q → p.hi ≤ q.hi := by
    intro i j p q hij hp hq
    obtain ⟨hi, rfl⟩ := List.getElem?_eq_some_iff.1 hp
    obtain ⟨hj, rfl⟩ := List.getElem?_eq_some_iff.1 hq
    rcases Nat.lt_or_eq_of_le hij with hlt | heq
    · exact List.pairwise_iff_getElem.1 h.his i j hi hj hlt
    · subst heq; exact le_rfl
  have hrow : ∀ (i : ℕ) o, out[i]? = some o → ∃ r, rows[i]? = some r ∧ r.lo ≤ o.lo ∧ o.hi = r.hi ∧ o.step = r.step ∧
      (i = 0 → o.lo = r.lo) ∧ (∀ k p, i = k + 1 → rows[k]? = some p → p.hi < o.lo ∧ (o.lo = r.lo ∨ o.lo = p.hi + d)) := by
    intro i o ho
    have hil : i < rows.length := by
      rw [← h2]; exact (List.getElem?_eq_some_iff.1 ho).1
    cases i with
    | zero =>
      rw [h3] at ho
      exact ⟨o, ho, le_rfl, rfl, rfl, fun _ => rfl, fun k p hk => by omega⟩
    | succ k =>
      have hp : rows[k]? = some rows[k] := List.getElem?_eq_getElem (by omega)
      have hr : rows[k + 1]? = some rows[k + 1] := List.getElem?_eq_getElem hil
      have := h4 k _ _ hp hr
      rw [ho] at this
      injection this with this
      refine ⟨_, hr, ?_⟩
      have hps := (h.grid _ (List.mem_of_getElem? hp)).2.2.1
      have hd := h.pos
      subst this
      simp only [trimAfter]
      by_cases hle : rows[k + 1].lo ≤ rows[k].hi
      · rw [if_pos hle, hps]
        refine ⟨by linarith, trivial, trivial, fun h0 => by omega, ?_⟩
        intro k' p hk' hp'
        have : k' = k := by omega
        subst this
        rw [hp] at hp'
        injection hp' with hp'
        subst hp'
        exact ⟨by linarith, Or.inr rfl⟩
      · rw [if_neg hle]
        refine ⟨le_rfl, trivial, trivial, fun h0 => by omega, ?_⟩
        intro k' p hk' hp'
        have : k' = k := by omega
        subst this
        rw [hp] at hp'
        injection hp' with hp'
        subst hp'
        exact ⟨not_le.1 hle, Or.inl rfl⟩
  refine ⟨out, h1, h2, ?_, ?_, ?_⟩
  · intro i r o hr ho
    obtain ⟨r', hr', k1, k2, k3, _⟩ := hrow i o ho
    rw [hr] at hr'
    injection hr' with hr'
    subst hr'
    exact ⟨k1, k2, k3⟩
  · intro x hx
    constructor
    · rintro ⟨p, hp, hp1, hp2⟩
      obtain ⟨r, hr, rfl⟩ := List.mem_map.1 hp
      obtain ⟨i, hi, hir⟩ := List.mem_iff_getElem.1 hr
      simp only at hp1 hp2
      -- the first row reaching x
      have key : ∀ n (hn : n < rows.length), rows[n].lo ≤ x → x ≤ rows[n].hi → Covered (spans out) x := by
        intro n
        induction n with
        | zero =>
          intro hn k1 k2
          have ho : out[0]? = some (out[0]'(by omega)) := List.getElem?_eq_getElem (by omega)
          obtain ⟨r', hr', _, e2, _, e3, _⟩ := hrow 0 _ ho
          rw [List.getElem?_eq_getElem hn] at hr'
          injection hr' with hr'
          subst hr'
          exact ⟨_, List.mem_map.2 ⟨_, List.mem_of_getElem? ho, rfl⟩, by simp only [e3 rfl]; exact k1, by simp only [e2]; exact k2⟩
        | succ n ih =>
          intro hn k1 k2
          have ho : out[n + 1]? = some (out[n + 1]'(by omega)) := List.getElem?_eq_getElem (by omega)
          obtain ⟨r', hr', _, e2, _, _, e3⟩ := hrow (n + 1) _ ho
          rw [List.getElem?_eq_getElem hn] at hr'
          injection hr' with hr'
          subst hr'
          have hpn : rows[n]? = some rows[n] := List.getElem?_eq_getElem (by omega)
          obtain ⟨e4, e5⟩ := e3 n _ rfl hpn
          by_cases hxo : (out[n + 1]'(by omega)).lo ≤ x
          · exact ⟨_, List.mem_map.2 ⟨_, List.mem_of_getElem? ho, rfl⟩, hxo, by simp only [e2]; exact k2⟩
          · have hxp : x ≤ rows[n].hi := by
              rcases e5 with e5 | e5
              · rw [e5] at hxo; exact absurd k1 hxo
              · by_contra hcon
                have := onGrid_gap h.pos (h.grid _ (List.mem_of_getElem? hpn)).2.1 hx (not_le.1 hcon)
                rw [e5] at hxo
                exact hxo this
            have hlo : rows[n].lo ≤ x := by
              have := List.pairwise_iff_getElem.1 h.los n (n + 1) (by omega) hn (by omega)
              linarith
            exact ih (by omega) hlo hxp
      exact key i hi (by rw [hir]; exact hp1) (by rw [hir]; exact hp2)
    · rintro ⟨p, hp, hp1, hp2⟩
      obtain ⟨o, ho, rfl⟩ := List.mem_map.1 hp
      obtain ⟨i, hi, hio⟩ := List.mem_iff_getElem.1 ho
      obtain ⟨r, hr, k1, k2, _⟩ := hrow i o (by rw [List.getElem?_eq_getElem hi, hio])
      simp only at hp1 hp2
      exact ⟨(r.lo, r.hi), List.mem_map.2 ⟨r, List.mem_of_getElem? hr, rfl⟩, by simp only; linarith, by simp only; linarith⟩
  · have aux : ∀ x (i j : ℕ) p q, i < j → out[i]? = some p → out[j]? = some q → x ≤ p.hi → q.lo ≤ x → False := by
      intro x i j p q hij hp hq k1 k2
      obtain ⟨r, hr, _, e2, _⟩ := hrow i p hp
      obtain ⟨s, hs, _, _, _, _, e3⟩ := hrow j q hq
      have hjl : j < rows.length := (List.getElem?_eq_some_iff.1 hs).1
      have hpj : rows[j - 1]? = some rows[j - 1] := List.getElem?_eq_getElem (by omega)
      have := (e3 (j - 1) _ (by omega) hpj).1
      have hh := hhis i (j - 1) _ _ (by omega) hr hpj
      linarith
    intro x i j p q hp hq p1 p2 q1 q2
    rcases Nat.lt_trichotomy i j with hij | hij | hij
    · exact absurd (aux x i j p q hij hp hq p2 q1) id
    · exact hij
    · exact absurd (aux x j i q p hij hq hp q2 p1) id
example : GridRows 0 1 [⟨0, 10, 1⟩, ⟨5, 12, 1⟩, ⟨20, 25, 1⟩] ∧
    removeOverlaps [⟨0, 10, 1⟩, ⟨5, 12, 1⟩, ⟨20, 25, 1⟩] = .ok [⟨0, 10, 1⟩, ⟨11, 12, 1⟩, ⟨20, 25, 1⟩] := by
  refine ⟨⟨by norm_num, ?_, by decide +kernel, by decide +kernel⟩, by decide +kernel⟩
  intro r hr
  simp at hr
  rcases hr with rfl | rfl | rfl
  · exact ⟨⟨0, by norm_num⟩, ⟨10, by norm_num⟩, rfl, by norm_num⟩
  · exact ⟨⟨5, by norm_num⟩, ⟨12, by norm_num⟩, rfl, by norm_num⟩
  · exact ⟨⟨20, by norm_num⟩, ⟨25, by norm_num⟩, rfl, by norm_num⟩

/-- **C28 violated** by a row contained in an earlier one: rows are only compared with their predecessor, so
[0,10], [2,5], [6,20] becomes [0,10], [11,5], [6,20]: the first and third still overlap and the second is
inverted. -/
theorem C28_contained_violated :
    removeOverlaps [⟨0, 10, 1⟩, ⟨2, 5, 1⟩, ⟨6, 20, 1⟩] = .ok [⟨0, 10, 1⟩, ⟨11, 5, 1⟩, ⟨6, 20, 1⟩] := by
  decide +kernel

/-- **C28 violated** for rows on different grids: samples 0, 1, ..., 10 and 10, 10.5 + ..: the second row
[9.5, 12.5] (samples 9.5, 10.5, 11.5, 12.5) is cut to [11, 12.5], which loses sample 10.5 covered by no
other row. -/
theorem C28_off_grid_violated :
    removeOverlaps [⟨0, 10, 1⟩, ⟨19 / 2, 25 / 2, 1⟩] = .ok [⟨0, 10, 1⟩, ⟨11, 25 / 2, 1⟩] ∧
    Covered (spans [⟨0, 10, 1⟩, ⟨19 / 2, 25 / 2, 1⟩]) (21 / 2) ∧
    ¬ Covered (spans [⟨0, 10, 1⟩, ⟨11, 25 / 2, 1⟩]) (21 / 2) := by
  refine ⟨by decide +kernel, ⟨(19 / 2, 25 / 2), by simp [spans], by norm_num, by norm_num⟩, ?_⟩
  rintro ⟨p, hp, h1, h2⟩
  simp [spans] at hp
  rcases hp with rfl | rfl
  · norm_num at h2
  · norm_num at h1

/-- **C28**: an unsorted table fails the assertion. -/
theorem C28_unsorted (a b : Row) (h : b.lo < a.lo) : removeOverlaps [a, b] = .error .assertionError := by
  simp [removeOverlaps, h]

/-! ### C22: chunk instructions -/

theorem countP_sorted_le {src : List Row} (h : src.Pairwise fun p q => p.lo ≤ q.lo) (c : ℚ) (i : ℕ) (hi : i < src.length) :
    src[i].lo ≤ c ↔ i < src.countP fun r => decide (r.lo ≤ c) := by
  have := searchRight_spec (l := src.map Row.lo) (by rw [List.pairwise_map]; exact h) c i (by simpa using hi)
  simpa [searchRight, List.countP_map, Function.comp_def] using this

theorem countP_sorted_lt {src : List Row} (h : src.Pairwise fun p q => p.hi ≤ q.hi) (c : ℚ) (i : ℕ) (hi : i < src.length) :
    src[i].hi < c ↔ i < src.countP fun r => decide (r.hi < c) := by
  have := searchLeft_spec (l := src.map Row.hi) (by rw [List.pairwise_map]; exact h) c i (by simpa using hi)
  simpa [searchLeft, List.countP_map, Function.comp_def] using this

/-- **C22** for one chunk and disjoint sorted sources: the instructions are in source order, each is the
intersection of its source with the chunk, and no source that overlaps the chunk is skipped. -/
theorem C22_instructions (src : List Row) (c1 c2 : ℚ) (hlo : src.Pairwise fun p q => p.lo ≤ q.lo)
    (hhi : src.Pairwise fun p q => p.hi ≤ q.hi) (hdis : src.Pairwise fun p q => p.hi < q.lo)
    (hfirst : ∃ r, src[0]? = some r ∧ r.lo ≤ c1) (hlast : ∃ r ∈ src, c2 ≤ r.hi) :
    ∃ out, chunkInstr src c1 c2 = .ok out ∧ out.Pairwise (fun x y => x.src < y.src) ∧
      (∀ x ∈ out, ∃ r, src[x.src]? = some r ∧ x.lo = max r.lo c1 ∧ x.hi = min r.hi c2) ∧
      (∀ (i : ℕ) r, src[i]? = some r → r.lo ≤ c2 → c1 ≤ r.hi → (⟨i, max r.lo c1, min r.hi c2⟩ : Instr) ∈ out) := by
  obtain ⟨r0, hr0, hr0c⟩ := hfirst
  obtain ⟨h0l, h0⟩ := List.getElem?_eq_some_iff.1 hr0
  obtain ⟨S, hS⟩ : ∃ S, S = src.countP fun r => decide (r.lo ≤ c1) := ⟨_, rfl⟩
  obtain ⟨E, hE⟩ : ∃ E, E = src.countP fun r => decide (r.hi < c2) := ⟨_, rfl⟩
  have hS1 : 1 ≤ S := by
    have := (countP_sorted_le hlo c1 0 h0l).1 (by rw [h0]; exact hr0c)
    omega
  have hSl : S ≤ src.length := by rw [hS]; exact List.countP_le_length
  have hEl : E < src.length := by
    obtain ⟨r, hr, hrc⟩ := hlast
    by_contra hcon
    have hEe : E = src.length := le_antisymm (by rw [hE]; exact List.countP_le_length) (not_lt.1 hcon)
    rw [hE, List.countP_eq_length] at hEe
    have := hEe r hr
    simp at this
    linarith
  unfold chunkInstr chunkInds
  simp only [← hS, ← hE]
  rw [if_pos (by exact_mod_cast hEl)]
  simp only [bind, Except.bind, pure, Except.pure]
  refine ⟨_, rfl, ?_, ?_, ?_⟩
  · rw [List.filterMap_map]
    apply List.Pairwise.filterMap (R := fun a b : ℕ => a < b) _ _ List.pairwise_lt_range
    intro k k' hkk x hx y hy
    simp only [Function.comp_apply] at hx hy
    have e1 : ∀ k : ℕ, ¬ ((S : ℤ) - 1 + k < 0) := by intro k; omega
    simp only [e1, if_false] at hx hy
    obtain ⟨r, _, rfl⟩ := Option.map_eq_some_iff.1 hx
    obtain ⟨r', _, rfl⟩ := Option.map_eq_some_iff.1 hy
    simp only; omega
  · intro x hx
    rw [List.filterMap_map] at hx
    obtain ⟨k, _, hk⟩ := List.mem_filterMap.1 hx
    simp only [Function.comp_apply] at hk
    obtain ⟨r, hr, rfl⟩ := Option.map_eq_some_iff.1 hk
    exact ⟨r, hr, rfl, rfl⟩
  · intro i r hr h1 h2
    obtain ⟨hi, hir⟩ := List.getElem?_eq_some_iff.1 hr
    have hSi : S - 1 ≤ i := by
      by_contra hcon
      have hs := (countP_sorted_le hlo c1 (S - 1) (by omega)).2 (by omega)
      have := List.pairwise_iff_getElem.1 hdis i (S - 1) hi (by omega) (by omega)
      rw [hir] at this
      linarith
    have hiE : i ≤ E := by
      by_contra hcon
      have hnot : ¬ src[E].hi < c2 := fun hh => by
        have := (countP_sorted_lt hhi c2 E hEl).1 hh
        omega
      have := List.pairwise_iff_getElem.1 hdis E i hEl hi (by omega)
      rw [hir] at this
      linarith
    rw [List.filterMap_map]
    refine List.mem_filterMap.2 ⟨i - (S - 1), List.mem_range.2 (by omega), ?_⟩
    have e : (S : ℤ) - 1 + ((i - (S - 1) : ℕ) : ℤ) = i := by omega
    simp only [Function.comp_apply, e]
    have hn : ¬ ((i : ℤ) < 0) := by omega
    rw [if_neg hn, Int.toNat_natCast, hr]
    rfl
example : chunkInstr [⟨0, 9, 1⟩, ⟨10, 19, 1⟩, ⟨20, 29, 1⟩] 7 13 = .ok [⟨0, 7, 9⟩, ⟨1, 10, 13⟩] := by decide +kernel

/-- **C22**: a source is listed for a chunk only if it overlaps it, or with an inverted (empty) interval; so
each point of the chunk held by some source is in exactly one instruction interval. -/
theorem C22_each_sample_once (src : List Row) (c1 c2 : ℚ) (hlo : src.Pairwise fun p q => p.lo ≤ q.lo)
    (hhi : src.Pairwise fun p q => p.hi ≤ q.hi) (hdis : src.Pairwise fun p q => p.hi < q.lo)
    (hfirst : ∃ r, src[0]? = some r ∧ r.lo ≤ c1) (hlast : ∃ r ∈ src, c2 ≤ r.hi) (x : ℚ) (hx1 : c1 ≤ x) (hx2 : x ≤ c2) :
    ∃ out, chunkInstr src c1 c2 = .ok out ∧
      (Covered (spans src) x ↔ ∃ o ∈ out, o.lo ≤ x ∧ x ≤ o.hi) ∧
      (∀ o ∈ out, ∀ o' ∈ out, o.lo ≤ x → x ≤ o.hi → o'.lo ≤ x → x ≤ o'.hi → o = o') := by
  obtain ⟨out, h1, h2, h3, h4⟩ := C22_instructions src c1 c2 hlo hhi hdis hfirst hlast
  refine ⟨out, h1, ⟨?_, ?_⟩, ?_⟩
  · rintro ⟨p, hp, hp1, hp2⟩
    obtain ⟨r, hr, rfl⟩ := List.mem_map.1 hp
    obtain ⟨i, hi, rfl⟩ := List.mem_iff_getElem.1 hr
    simp only at hp1 hp2
    exact ⟨_, h4 i _ (List.getElem?_eq_getElem hi) (by linarith) (by linarith), max_le hp1 hx1, le_min hp2 hx2⟩
  · rintro ⟨o, ho, ho1, ho2⟩
    obtain ⟨r, hr, e1, e2⟩ := h3 o ho
    refine ⟨(r.lo, r.hi), List.mem_map.2 ⟨r, List.mem_of_getElem? hr, rfl⟩, ?_, ?_⟩
    · rw [e1] at ho1; exact (le_max_left _ _).trans ho1
    · rw [e2] at ho2; exact ho2.trans (min_le_left _ _)
  · intro o ho o' ho' a1 a2 b1 b2
    obtain ⟨r, hr, e1, e2⟩ := h3 o ho
    obtain ⟨r', hr', e1', e2'⟩ := h3 o' ho'
    have r1 : r.lo ≤ x := by rw [e1] at a1; exact (le_max_left _ _).trans a1
    have r2 : x ≤ r.hi := by rw [e2] at a2; exact a2.trans (min_le_left _ _)
    have r1' : r'.lo ≤ x := by rw [e1'] at b1; exact (le_max_left _ _).trans b1
    have r2' : x ≤ r'.hi := by rw [e2'] at b2; exact b2.trans (min_le_left _ _)
    have hsrc : o.src = o'.src := by
      obtain ⟨hl, hg⟩ := List.getElem?_eq_some_iff.1 hr
      obtain ⟨hl', hg'⟩ := List.getElem?_eq_some_iff.1 hr'
      rcases Nat.lt_trichotomy o.src o'.src with hlt | heq | hlt
      · have := List.pairwise_iff_getElem.1 hdis _ _ hl hl' hlt
        rw [hg, hg'] at this; linarith
      · exact heq
      · have := List.pairwise_iff_getElem.1 hdis _ _ hl' hl hlt
        rw [hg, hg'] at this; linarith
    rw [hsrc, hr'] at hr
    injection hr with hr
    subst hr
    cases o; cases o'
    simp_all
example : ∃ r, ([⟨0, 9, 1⟩, ⟨10, 19, 1⟩] : List Row)[0]? = some r ∧ r.lo ≤ 3 := ⟨_, rfl, by norm_num⟩

/-- **C22** end to end (overlap removal, then instructions), on a common grid without contained rows: every
grid sample of the chunk that some row holds is taken exactly once, from a row that holds it; and every
instruction interval stays inside its row and the chunk. Missing: contained rows and mixed grids, where
C28 already fails. -/
theorem C22_end_to_end_partial (a d : ℚ) (rows : List Row) (h : GridRows a d rows) (c1 c2 : ℚ)
    (hfirst : ∃ r, rows[0]? = some r ∧ r.lo ≤ c1) (hlast : ∃ r ∈ rows, c2 ≤ r.hi) :
    ∃ out, instructions rows [(c1, c2)] = .ok [out] ∧
      (∀ o ∈ out, ∃ r, rows[o.src]? = some r ∧ r.lo ≤ o.lo ∧ o.hi ≤ r.hi ∧ c1 ≤ o.lo ∧ o.hi ≤ c2) ∧
      ∀ x, OnGrid a d x → c1 ≤ x → x ≤ c2 → Covered (spans rows) x →
        ∃! o, o ∈ out ∧ o.lo ≤ x ∧ x ≤ o.hi := by
  obtain ⟨src, e1, e2, e3, e4, e5⟩ := C28_disjoint_cover_partial a d rows h
  obtain ⟨src', e1', _, e0, enext⟩ := removeOverlaps_eq h.los
  rw [e1] at e1'
  injection e1' with e1'
  subst e1'
  have hget : ∀ (i : ℕ) (hi : i < src.length), rows[i]? = some (rows[i]'(by omega)) := fun i hi => List.getElem?_eq_getElem _
  have hrow : ∀ (i : ℕ) (hi : i < src.length), (rows[i]'(by omega)).lo ≤ src[i].lo ∧ src[i].hi = (rows[i]'(by omega)).hi :=
    fun i hi => ⟨(e3 i _ _ (hget i hi) (List.getElem?_eq_getElem hi)).1, (e3 i _ _ (hget i hi) (List.getElem?_eq_getElem hi)).2.1⟩
  have hhi : src.Pairwise fun p q => p.hi ≤ q.hi := by
    rw [List.pairwise_iff_getElem]
    intro i j hi hj hij
    rw [(hrow i hi).2, (hrow j hj).2]
    exact List.pairwise_iff_getElem.1 h.his i j _ _ hij
  have hnext : ∀ (k : ℕ) (hk : k + 1 < src.length), src[k].hi < src[k + 1].lo ∧
      (src[k + 1].lo = (rows[k + 1]'(by omega)).lo ∨ src[k + 1].lo = (rows[k]'(by omega)).hi + d) := by
    intro k hk
    have := enext k _ _ (hget k (by omega)) (hget (k + 1) hk)
    rw [List.getElem?_eq_getElem hk] at this
    injection this with this
    have hd := h.pos
    have hst := (h.grid _ (List.mem_of_getElem? (hget k (by omega)))).2.2.1
    rw [this, (hrow k (by omega)).2]
    unfold trimAfter
    simp only
    split_ifs with hc
    · rw [hst]; exact ⟨by linarith, Or.inr rfl⟩
    · exact ⟨not_le.1 hc, Or.inl rfl⟩
  have hdis : src.Pairwise fun p q => p.hi < q.lo := by
    rw [List.pairwise_iff_getElem]
    intro i j hi hj hij
    have h1 := (hnext (j - 1) (by omega)).1
    have h2 : src[i].hi ≤ (src[j - 1]'(by omega)).hi := by
      rcases Nat.lt_or_eq_of_le (show i ≤ j - 1 by omega) with hh | hh
      · exact List.pairwise_iff_getElem.1 hhi i (j - 1) hi (by omega) hh
      · simp [← hh]
    have e : j - 1 + 1 = j := by omega
    simp only [e] at h1
    linarith
  have hgridlo : ∀ (k : ℕ) (hk : k < src.length), OnGrid a d src[k].lo := by
    intro k hk
    cases k with
    | zero =>
      have : src[0]? = some src[0] := List.getElem?_eq_getElem hk
      rw [e0, hget 0 hk] at this
      injection this with this
      rw [← this]
      exact (h.grid _ (List.getElem_mem _)).1
    | succ k =>
      rcases (hnext k hk).2 with he | he
      · rw [he]; exact (h.grid _ (List.getElem_mem _)).1
      · rw [he]
        obtain ⟨z, hz⟩ := (h.grid _ (List.getElem_mem (show k < rows.length by omega))).2.1
        exact ⟨z + 1, by rw [hz]; push_cast; ring⟩
  have hlo : src.Pairwise fun p q => p.lo ≤ q.lo := by
    have step : ∀ (k : ℕ) (hk : k + 1 < src.length), src[k].lo ≤ src[k + 1].lo := by
      intro k hk
      cases k with
      | zero =>
        have : src[0]? = some (src[0]'(by omega)) := List.getElem?_eq_getElem (by omega)
        rw [e0, hget 0 (by omega)] at this
        injection this with this
        rw [← this]
        exact (List.pairwise_iff_getElem.1 h.los 0 1 (by omega) (by omega) (by omega)).trans (hrow 1 hk).1
      | succ k =>
        rcases (hnext k (by omega)).2 with he | he
        · rw [he]
          exact (List.pairwise_iff_getElem.1 h.los (k + 1) (k + 2) (by omega) (by omega) (by omega)).trans (hrow (k + 2) hk).1
        · rw [he]
          have h1 := (hnext (k + 1) hk).1
          have h2 : (rows[k]'(by omega)).hi ≤ src[k + 1].hi := by
            rw [(hrow (k + 1) (by omega)).2]
            exact List.pairwise_iff_getElem.1 h.his k (k + 1) (by omega) (by omega) (by omega)
          exact onGrid_gap h.pos (h.grid _ (List.getElem_mem (show k < rows.length by omega))).2.1 (hgridlo (k + 2) hk)
            (by linarith)
    have : ∀ (i n : ℕ) (hn : i + n < src.length), src[i].lo ≤ src[i + n].lo := by
      intro i n
      induction n with
      | zero => intro hn; simp
      | succ n ih => intro hn; exact (ih (by omega)).trans (step (i + n) hn)
    rw [List.pairwise_iff_getElem]
    intro i j hi hj hij
    have := this i (j - i) (by omega)
    have e : i + (j - i) = j := by omega
    simpa [e] using this
  have hfirst' : ∃ r, src[0]? = some r ∧ r.lo ≤ c1 := by rw [e0]; exact hfirst
  have hlast' : ∃ r ∈ src, c2 ≤ r.hi := by
    obtain ⟨r, hr, hc⟩ := hlast
    obtain ⟨i, hi, rfl⟩ := List.mem_iff_getElem.1 hr
    exact ⟨src[i], List.getElem_mem _, by rw [(hrow i (by omega)).2]; exact hc⟩
  obtain ⟨out, o1, o2, o3, o4⟩ := C22_instructions src c1 c2 hlo hhi hdis hfirst' hlast'
  refine ⟨out, ?_, ?_, ?_⟩
  · unfold instructions
    rw [e1]
    simp [bind, Except.bind, o1, pure, Except.pure, List.mapM_cons]
  · intro o ho
    obtain ⟨r, hr, k1, k2⟩ := o3 o ho
    obtain ⟨hl, rfl⟩ := List.getElem?_eq_some_iff.1 hr
    refine ⟨_, hget _ hl, ?_, ?_, ?_, ?_⟩
    · rw [k1]; exact (hrow _ hl).1.trans (le_max_left _ _)
    · rw [k2, ← (hrow _ hl).2]; exact min_le_left _ _
    · rw [k1]; exact le_max_right _ _
    · rw [k2]; exact min_le_right _ _
  · intro x hx hx1 hx2 hcov
    obtain ⟨out', p1, p2, p3⟩ := C22_each_sample_once src c1 c2 hlo hhi hdis hfirst' hlast' x hx1 hx2
    rw [o1] at p1
    injection p1 with p1
    subst p1
    obtain ⟨o, ho, a1, a2⟩ := p2.1 ((e4 x hx).1 hcov)
    exact ⟨o, ⟨ho, a1, a2⟩, fun o' ho' => p3 o' ho'.1 o ho ho'.2.1 ho'.2.2 a1 a2⟩
example : instructions [⟨0, 10, 1⟩, ⟨5, 12, 1⟩, ⟨13, 25, 1⟩] [(8, 15)] =
    .ok [[⟨0, 8, 10⟩, ⟨1, 11, 12⟩, ⟨2, 13, 15⟩]] := by decide +kernel

/-- **C22 violated** by duplicated rows: rows A = [0,10], A again and B = [11,20] merged into one chunk give an
instruction with the inverted interval (11, 10) for the second A. `patch.select` puts reversed limits in
order (coords.py 729-738), so it selects sample 10 of A a second time and the merged patch has 22 samples
instead of 21. -/
theorem C22_duplicate_violated :
    instructions [⟨0, 10, 1⟩, ⟨0, 10, 1⟩, ⟨11, 20, 1⟩] [(0, 20)] =
      .ok [[⟨0, 0, 10⟩, ⟨1, 11, 10⟩, ⟨2, 11, 20⟩]] ∧
    RangeCoord.select ⟨0, 11, 1, 11⟩ (some 11, some 10) = .ok (.range ⟨10, 11, 1, 1⟩, ⟨some 10, none, none⟩) := by
  constructor <;> decide +kernel

/-! ### C23: streaming merge -/

theorem mergeStep_inv {α} (done : List α) (buf : List (Option α)) (data : List α)
    (h : buf.take done.length = done.map some) (hl : done.length ≤ buf.length) :
    (mergeStep (buf, done.length) data).1.take (done ++ data).length = (done ++ data).map some ∧
    (mergeStep (buf, done.length) data).2 = (done ++ data).length ∧
    (done ++ data).length ≤ (mergeStep (buf, done.length) data).1.length := by
  have key : ∀ b : List (Option α), b.take done.length = done.map some → done.length + data.length ≤ b.length →
      (b.take done.length ++ data.map some ++ b.drop (done.length + data.length)).take (done ++ data).length =
        (done ++ data).map some ∧
      (done ++ data).length ≤ (b.take done.length ++ data.map some ++ b.drop (done.length + data.length)).length := by
    intro b hb hbl
    rw [hb, ← List.map_append]
    constructor
    · rw [List.take_append_of_le_length (by simp), List.take_of_length_le (by simp)]
    · simp
  unfold mergeStep
  simp only
  by_cases hg : buf.length < done.length + data.length
  · rw [if_pos hg]
    have hb : (buf.take done.length ++ List.replicate (done.length + data.length - done.length) none).take done.length
        = done.map some := by
      rw [h, List.take_append_of_le_length (by simp), List.take_of_length_le (by simp)]
    obtain ⟨k1, k2⟩ := key _ hb (by simp; omega)
    exact ⟨k1, by simp, k2⟩
  · rw [if_neg hg]
    obtain ⟨k1, k2⟩ := key buf h (by omega)
    exact ⟨k1, by simp, k2⟩

/-- **C23**: whatever the estimate, the merged array is exactly the concatenation of the patches, with no
uninitialised cell. -/
theorem C23_streaming_merge {α} (samples : ℕ) (patches : List (List α)) :
    mergeStreaming samples patches = patches.flatten.map some := by
  have inv : ∀ (ps : List (List α)) (done : List α) (buf : List (Option α)),
      buf.take done.length = done.map some → done.length ≤ buf.length →
      (ps.foldl mergeStep (buf, done.length)).1.take (done ++ ps.flatten).length = (done ++ ps.flatten).map some ∧
      (ps.foldl mergeStep (buf, done.length)).2 = (done ++ ps.flatten).length ∧
      (done ++ ps.flatten).length ≤ (ps.foldl mergeStep (buf, done.length)).1.length := by
    intro ps
    induction ps with
    | nil => intro done buf h hl; simpa using ⟨h, hl⟩
    | cons p ps ih =>
      intro done buf h hl
      obtain ⟨k1, k2, k3⟩ := mergeStep_inv done buf p h hl
      have := ih (done ++ p) (mergeStep (buf, done.length) p).1 k1 k3
      rw [← k2] at this
      simp only [List.foldl_cons, List.flatten_cons]
      rw [← List.append_assoc]
      exact this
  obtain ⟨h1, h2, h3⟩ := inv patches [] (List.replicate samples none) (by simp) (by simp)
  simp only [List.length_nil, List.nil_append] at h1 h2 h3
  unfold mergeStreaming
  simp only
  split_ifs with hne
  · rw [h2]; exact h1
  · push Not at hne
    rw [h2] at hne
    rw [hne, List.take_length] at h1
    exact h1
example : mergeStreaming 3 [[1, 2], [3], [4, 5]] = [some 1, some 2, some 3, some 4, some 5] ∧
    mergeStreaming 9 [[1, 2], [3]] = [some 1, some 2, some 3] := by decide

/-! ### C24: split -/

theorem splitLoop_spec (n : ℕ) (m : ℕ) (hm : 1 ≤ m) : ∀ (fuel s : ℕ) (acc : List (ℤ × ℤ)), n ≤ fuel + s →
    ∃ k, splitLoop n m (fuel + 1) s acc =
        .ok (acc ++ (List.range k).map fun i : ℕ => (((s + i * m : ℕ) : ℤ), ((s + i * m + m : ℕ) : ℤ))) ∧
      ∀ i : ℕ, i < k ↔ s + i * m < n := by
  intro fuel
  induction fuel with
  | zero =>
    intro s acc h
    refine ⟨0, ?_, ?_⟩
    · simp only [splitLoop]
      rw [if_neg (by omega)]
      simp
    · intro i
      have : s ≤ s + i * m := Nat.le_add_right _ _
      omega
  | succ fuel ih =>
    intro s acc h
    rw [splitLoop]
    by_cases hs : s < n
    · rw [if_pos (by omega)]
      obtain ⟨k, h1, h2⟩ := ih (s + m) (acc ++ [((s : ℤ), (s : ℤ) + m)]) (by omega)
      refine ⟨k + 1, ?_, ?_⟩
      · push_cast at h1 ⊢
        rw [h1, List.range_succ_eq_map]
        simp only [List.map_cons, List.map_map, List.append_assoc, List.cons_append, List.nil_append]
        congr 2
        simp only [Nat.cast_zero, zero_mul, add_zero, List.cons.injEq, true_and]
        apply List.map_congr_left
        intro i _
        simp only [Function.comp_apply]
        push_cast
        ring_nf
      · intro i
        cases i with
        | zero => simp [hs]
        | succ i =>
          have := h2 i
          rw [Nat.succ_lt_succ_iff, this]
          have e : s + m + i * m = s + (i + 1) * m := by ring
          rw [e]
    · rw [if_neg (by omega)]
      refine ⟨0, by simp, ?_⟩
      intro i
      have : s ≤ s + i * m := Nat.le_add_right _ _
      omega

theorem flatten_chunks {α} (m : ℕ) : ∀ (k : ℕ) (l : List α), l.length ≤ k * m →
    ((List.range k).map fun i : ℕ => (l.drop (i * m)).take m).flatten = l := by
  intro k
  induction k with
  | zero => intro l h; simp at h; simp [h]
  | succ k ih =>
    intro l h
    rw [List.range_succ_eq_map]
    simp only [List.map_cons, List.map_map, List.flatten_cons, zero_mul, List.drop_zero]
    have := ih (l.drop m) (by rw [List.length_drop]; rw [Nat.succ_mul] at h; omega)
    have e : (List.range k).map ((fun i : ℕ => (l.drop (i * m)).take m) ∘ Nat.succ) =
        (List.range k).map fun i : ℕ => ((l.drop m).drop (i * m)).take m := by
      apply List.map_congr_left
      intro i _
      simp only [Function.comp_apply, List.drop_drop]
      congr 2
      simp only [Nat.succ_eq_add_one]; ring
    rw [e, this, List.take_append_drop]

/-- The parts of a spool holding the patches `l`, as `split` yields them. -/
def splitParts {α} (l : List α) (size : Option ℚ) (count : Option ℤ) : Except Err (List (List α)) := do
  let parts ← split l.length size count
  parts.mapM fun p => pySlice l ⟨some p.1, some p.2, none⟩

theorem mapM_ok {α β} (f : α → Except Err β) (g : α → β) : ∀ l : List α, (∀ x ∈ l, f x = .ok (g x)) →
    l.mapM f = .ok (l.map g) := by
  intro l
  induction l with
  | nil => intro _; rfl
  | cons x xs ih =>
    intro h
    rw [List.mapM_cons, h x (by simp), ih fun y hy => h y (by simp [hy])]
    rfl

theorem splitLoop_parts {α} (l : List α) (m : ℕ) (hm : 1 ≤ m) :
    ∃ parts subs, splitLoop l.length m (l.length + 1) 0 [] = .ok parts ∧
      (parts.mapM fun p => pySlice l ⟨some p.1, some p.2, none⟩) = Except.ok (ε := Err) subs ∧
      subs.flatten = l ∧ (∀ sub ∈ subs, sub ≠ [] ∧ sub.length ≤ m) ∧ (∀ sub ∈ subs.dropLast, sub.length = m) := by
  obtain ⟨k, h1, h2⟩ := splitLoop_spec l.length m hm l.length 0 [] (by omega)
  simp only [Nat.cast_zero, List.nil_append, zero_add] at h1 h2
  refine ⟨_, (List.range k).map fun i : ℕ => (l.drop (i * m)).take m, h1, ?_, ?_, ?_, ?_⟩
  · rw [mapM_ok _ (fun p : ℤ × ℤ => (l.drop p.1.toNat).take m)]
    · rw [List.map_map]
      rfl
    · intro p hp
      obtain ⟨i, hi, rfl⟩ := List.mem_map.1 hp
      have hlt := (h2 i).1 (List.mem_range.1 hi)
      rw [pySlice_unit l (i * m) (min (i * m + m) l.length)]
      · simp only [Int.toNat_natCast]
        congr 1
        rw [List.take_eq_take_iff, List.length_drop]
        omega
      · simp only [Option.map_some, Option.getD_some, clipBound]; split_ifs <;> omega
      · simp only [Option.map_some, Option.getD_some, clipBound]; split_ifs <;> omega
  · apply flatten_chunks
    by_contra hcon
    exact absurd ((h2 k).2 (not_le.1 hcon)) (lt_irrefl k)
  · intro sub hsub
    obtain ⟨i, hi, rfl⟩ := List.mem_map.1 hsub
    have hlt := (h2 i).1 (List.mem_range.1 hi)
    refine ⟨?_, by simp⟩
    intro hnil
    have := congrArg List.length hnil
    simp at this
    omega
  · intro sub hsub
    rw [← List.map_dropLast, List.dropLast_eq_take, List.length_range] at hsub
    obtain ⟨i, hi, rfl⟩ := List.mem_map.1 hsub
    have hik : i + 1 < k := by
      cases k with
      | zero => simp at hi
      | succ k =>
        rw [Nat.add_sub_cancel, List.take_range] at hi
        have := List.mem_range.1 hi
        omega
    have := (h2 (i + 1)).1 hik
    rw [Nat.succ_mul] at this
    simp
    omega

/-- **C24**: splitting by a positive size gives non-empty parts which put together are the spool, in order,
all of `ceil(size)` patches but the last, which is not larger. -/
theorem C24_split_size {α} (l : List α) (size : ℚ) (h : 0 < size) :
    ∃ subs, splitParts l (some size) none = .ok subs ∧ subs.flatten = l ∧
      (∀ sub ∈ subs, sub ≠ [] ∧ (sub.length : ℤ) ≤ ⌈size⌉) ∧ (∀ sub ∈ subs.dropLast, (sub.length : ℤ) = ⌈size⌉) := by
  obtain ⟨m, hm⟩ := Int.eq_ofNat_of_zero_le (Int.ceil_nonneg h.le)
  have hm1 : 1 ≤ m := by
    have := Int.ceil_pos.2 h
    omega
  obtain ⟨parts, subs, h1, h2, h3, h4, h5⟩ := splitLoop_parts l m hm1
  refine ⟨subs, ?_, h3, ?_, ?_⟩
  · unfold splitParts split
    simp only [hm]
    rw [h1]
    exact h2
  · intro sub hs; rw [hm]; exact ⟨(h4 sub hs).1, by exact_mod_cast (h4 sub hs).2⟩
  · intro sub hs; rw [hm]; exact_mod_cast h5 sub hs
example : splitParts [0, 1, 2, 3, 4, 5, 6] (some 3) none = .ok [[0, 1, 2], [3, 4, 5], [6]] := by decide +kernel

/-- **C24**: splitting into a positive count gives at most that many non-empty parts, which put together are the
spool, in order, all of the same size but the last. -/
theorem C24_split_count {α} (l : List α) (count : ℤ) (h : 0 < count) :
    ∃ subs, splitParts l none (some count) = .ok subs ∧ subs.flatten = l ∧ (∀ sub ∈ subs, sub ≠ []) ∧
      (∀ sub ∈ subs.dropLast, (sub.length : ℤ) = ⌈(l.length : ℚ) / count⌉) ∧ (subs.length : ℤ) ≤ count := by
  have hcq : (0 : ℚ) < count := by exact_mod_cast h
  rcases Nat.eq_zero_or_pos l.length with h0 | h0
  · have : l = [] := List.length_eq_zero_iff.1 h0
    subst this
    refine ⟨[], ?_, rfl, by simp, by simp, by simpa using h.le⟩
    unfold splitParts split
    simp only [if_neg (ne_of_gt h)]
    simp only [List.length_nil, splitLoop]
    rfl
  have hpos : (0 : ℚ) < (l.length : ℚ) / count := div_pos (by exact_mod_cast h0) hcq
  obtain ⟨m, hm⟩ := Int.eq_ofNat_of_zero_le (Int.ceil_nonneg hpos.le)
  have hm1 : 1 ≤ m := by
    have := Int.ceil_pos.2 hpos
    omega
  obtain ⟨parts, subs, h1, h2, h3, h4, h5⟩ := splitLoop_parts l m hm1
  refine ⟨subs, ?_, h3, fun sub hs => (h4 sub hs).1, ?_, ?_⟩
  · unfold splitParts split
    simp only [if_neg (ne_of_gt h), hm]
    rw [h1]
    exact h2
  · intro sub hs; rw [hm]; exact_mod_cast h5 sub hs
  · -- (parts - 1) * m < n ≤ count * m
    have hle : (l.length : ℚ) ≤ count * m := by
      have := Int.le_ceil ((l.length : ℚ) / count)
      rw [hm, div_le_iff₀ hcq] at this
      push_cast at this
      linarith
    have hle' : (l.length : ℤ) ≤ count * m := by exact_mod_cast hle
    by_contra hcon
    have hcon : count < subs.length := not_le.1 hcon
    have hne : subs ≠ [] := by rintro rfl; simp at hcon; omega
    have hlen : l.length = (subs.map List.length).sum := by rw [← List.length_flatten, h3]
    rw [← List.dropLast_append_getLast hne, List.map_append, List.sum_append] at hlen
    have hall : (subs.dropLast.map List.length) = List.replicate (subs.length - 1) m := by
      rw [List.eq_replicate_iff]
      refine ⟨by simp, ?_⟩
      intro x hx
      obtain ⟨s, hs, rfl⟩ := List.mem_map.1 hx
      exact h5 s hs
    rw [hall, List.sum_replicate_nat] at hlen
    simp only [List.map_cons, List.map_nil, List.sum_cons, List.sum_nil, add_zero] at hlen
    have hlast : 1 ≤ (subs.getLast hne).length :=
      List.length_pos_iff.2 (h4 _ (List.getLast_mem hne)).1
    have hlt : ((subs.length - 1 : ℕ) : ℤ) * m + 1 ≤ l.length := by
      have : (subs.length - 1) * m + 1 ≤ l.length := by omega
      exact_mod_cast this
    have hc : count ≤ ((subs.length - 1 : ℕ) : ℤ) := by omega
    have hm0 : (0 : ℤ) ≤ m := by omega
    have := mul_le_mul_of_nonneg_right hc hm0
    linarith
example : splitParts [0, 1, 2, 3, 4, 5, 6] none (some 3) = .ok [[0, 1, 2], [3, 4, 5], [6]] := by decide +kernel

/-- **C24 violated**: the number of parts asked for is not always the number obtained: nine patches in six parts
come back in five. -/
theorem C24_count_violated :
    splitParts (List.range 9) none (some 6) = .ok [[0, 1], [2, 3], [4, 5], [6, 7], [8]] := by decide +kernel

/-- **C24**: giving both or neither argument is an error, before anything is yielded. -/
theorem C24_arguments {α} (l : List α) (size : ℚ) (count : ℤ) :
    splitParts l (some size) (some count) = .error .parameterError ∧
    splitParts l none none = .error .parameterError := ⟨rfl, rfl⟩

theorem splitLoop_diverges (n : ℕ) (m : ℤ) (hm : m ≤ 0) : ∀ (fuel : ℕ) (s : ℤ) acc, s < n →
    splitLoop n m fuel s acc = .error .diverges := by
  intro fuel
  induction fuel with
  | zero => intros; rfl
  | succ fuel ih =>
    intro s acc hs
    rw [splitLoop, if_pos hs]
    exact ih _ _ (by omega)

/-- **C24 violated**: a size that is not positive, or a negative count, is not rejected: the generator never ends,
however many steps it is given (here stated of the loop itself). A count of zero is a TypeError. -/
theorem C24_nonpositive_violated (n : ℕ) (hn : 0 < n) (size : ℚ) (h : size ≤ 0) (count : ℤ) (hc : count < 0) :
    (∀ fuel, splitLoop n ⌈size⌉ fuel 0 [] = .error .diverges) ∧
    (∀ fuel, splitLoop n ⌈(n : ℚ) / count⌉ fuel 0 [] = .error .diverges) ∧
    split n none (some 0) = .error .typeError := by
  refine ⟨fun fuel => splitLoop_diverges _ _ ?_ _ _ _ (by exact_mod_cast hn),
    fun fuel => splitLoop_diverges _ _ ?_ _ _ _ (by exact_mod_cast hn), rfl⟩
  · rw [Int.ceil_le]; exact_mod_cast h
  · rw [Int.ceil_le]
    have : (count : ℚ) < 0 := by exact_mod_cast hc
    have hn : (0 : ℚ) < n := by exact_mod_cast hn
    simpa using (div_neg_of_pos_of_neg hn this).le
example : (0 : ℕ) < 3 ∧ (-1 : ℚ) ≤ 0 ∧ (-2 : ℤ) < 0 := by norm_num

/-! ### C25: map -/

theorem runTasks_inv {α β} (g : α → β) (tasks : List α) : ∀ (order : List ℕ) (slots : List (Option β)),
    slots.length = tasks.length →
    (order.foldl (runTask g tasks) slots).length = tasks.length ∧
    ∀ (i : ℕ) t, tasks[i]? = some t → (i ∈ order ∨ slots[i]? = some (some (g t))) →
      (order.foldl (runTask g tasks) slots)[i]? = some (some (g t)) := by
  intro order
  induction order with
  | nil => intro slots h; exact ⟨h, fun i t _ hi => by simpa using hi⟩
  | cons j order ih =>
    intro slots h
    simp only [List.foldl_cons]
    have hl : (runTask g tasks slots j).length = tasks.length := by
      unfold runTask
      split <;> simp [h]
    obtain ⟨h1, h2⟩ := ih _ hl
    refine ⟨h1, ?_⟩
    intro i t ht hi
    apply h2 i t ht
    by_cases hij : i ∈ order
    · exact Or.inl hij
    right
    by_cases hji : j = i
    · subst hji
      unfold runTask
      rw [ht]
      simp only
      rw [List.getElem?_set_self]
      rw [h]; exact (List.getElem?_eq_some_iff.1 ht).1
    · have hs : slots[i]? = some (some (g t)) := by
        rcases hi with hi | hi
        · rcases List.mem_cons.1 hi with e | e
          · exact absurd e.symm hji
          · exact absurd e hij
        · exact hi
      unfold runTask
      cases hj : tasks[j]? with
      | none => exact hs
      | some u => simp only; rw [List.getElem?_set_ne hji]; exact hs

/-- Whatever the order in which the tasks finish, results come back by position. -/
theorem runTasks_eq {α β} (g : α → β) (tasks : List α) (order : List ℕ) (h : ∀ i < tasks.length, i ∈ order) :
    runTasks g tasks order = tasks.map fun t => some (g t) := by
  obtain ⟨h1, h2⟩ := runTasks_inv g tasks order (List.replicate tasks.length none) (by simp)
  apply List.ext_getElem?
  intro i
  by_cases hi : i < tasks.length
  · have ht : tasks[i]? = some tasks[i] := List.getElem?_eq_getElem hi
    have := h2 i _ ht (Or.inl (h i hi))
    unfold runTasks
    rw [this, List.getElem?_map, ht]
    rfl
  · unfold runTasks
    rw [List.getElem?_eq_none (by rw [h1]; omega), List.getElem?_eq_none (by simp; omega)]

/-- **C25**: mapping a function over a spool through a client gives the same list as the plain loop, one result
per patch in spool order, for every positive batch size and every order in which the batches finish. -/
theorem C25_map {α β} (f : α → β) (patches : List α) (size : Option ℚ) (cpus : ℕ) (order : List ℕ)
    (hsize : ∀ s, size = some s → 0 < s) (hcpu : 0 < cpus) (hne : patches ≠ [])
    (horder : ∀ i < patches.length, i ∈ order) :
    spoolMap f patches size cpus order = .ok (patches.map fun p => some (f p)) := by
  have hpos : 0 < size.getD ((patches.length : ℚ) / cpus) := by
    cases size with
    | some s => exact hsize s rfl
    | none =>
      have h1 : (0 : ℚ) < patches.length := by exact_mod_cast List.length_pos_iff.2 hne
      have h2 : (0 : ℚ) < cpus := by exact_mod_cast hcpu
      exact div_pos h1 h2
  obtain ⟨subs, h1, h2, h3, _⟩ := C24_split_size patches _ hpos
  have hlen : subs.length ≤ patches.length := by
    have e : patches.length = (subs.map List.length).sum := by rw [← List.length_flatten, h2]
    rw [e]
    have : (subs.map List.length).length ≤ (subs.map List.length).sum :=
      List.length_le_sum_of_one_le _ (by
        intro x hx
        obtain ⟨s, hs, rfl⟩ := List.mem_map.1 hx
        exact List.length_pos_iff.2 (h3 s hs).1)
    simpa using this
  unfold splitParts at h1
  unfold spoolMap
  simp only [bind, Except.bind] at h1 ⊢
  cases hp : split patches.length (some (size.getD ((patches.length : ℚ) / cpus))) none with
  | error e => rw [hp] at h1; exact absurd h1 (by simp)
  | ok parts =>
    rw [hp] at h1
    simp only at h1 ⊢
    rw [h1]
    simp only [pure, Except.pure]
    rw [runTasks_eq _ _ _ (fun i hi => horder i (by omega))]
    congr 1
    rw [List.flatMap_map]
    conv_rhs => rw [← h2]
    rw [List.map_flatten, List.flatMap_def]
    congr 1
    apply List.map_congr_left
    intro s _
    simp [Function.comp_def]
example : spoolMap (· + 1) [1, 2, 3, 4, 5] (some 2) 4 [2, 0, 1, 4, 3] =
    .ok [some 2, some 3, some 4, some 5, some 6] := by decide +kernel

/-- **C25**: on an empty spool both ways give no results (without a size the batch size is 0, but the loop of
`split` does not run). -/
theorem C25_empty {α β} (f : α → β) (size : Option ℚ) (cpus : ℕ) (order : List ℕ) :
    spoolMap f ([] : List α) size cpus order = .ok [] := by
  unfold spoolMap split
  simp only [List.length_nil, splitLoop, Nat.cast_zero, lt_self_iff_false, if_false]
  simp only [bind, Except.bind, List.mapM_nil, pure, Except.pure, runTasks, List.length_nil, List.replicate_zero]
  have : ∀ order : List ℕ, order.foldl (runTask (fun sub : List α => sub.map f) []) [] = [] := by
    intro order
    induction order with
    | nil => rfl
    | cons i o ih => simpa [runTask] using ih
  rw [this]
  rfl

end Verif
