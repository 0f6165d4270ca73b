import Verif.Proof.Pad
import Verif.Spec.Align
/-! # Lemmas: aligning traces -/
namespace Verif
open Spec

theorem setDim_spec {m cm : CM} (hm : Regular m) {dim : String} (hdim : dim ∈ m.dims) {k k' : Kind} {c c' : Coord}
    (hc : m.ents.get? dim = some ([dim], .one k c)) (hu : m.update [(dim, .simple (.one k' c'))] = .ok cm) :
    cm.dims = m.dims ∧ (∃ x, (MCoord.one k' c').canon = .ok x ∧ cm.ents.get? dim = some ([dim], x)) ∧
    (∀ nm ds c0, nm ≠ dim → m.ents.get? nm = some (ds, c0) → (dim ∉ ds ∨ c'.length = c.length) →
      ∃ x, c0.canon = .ok x ∧ SameValues c0 x ∧ cm.ents.get? nm = some (ds, x)) ∧
    (∀ nm ds c0, nm ≠ dim → m.ents.get? nm = some (ds, c0) → dim ∈ ds → c'.length ≠ c.length → cm.ents.get? nm = none) ∧
    (∀ nm, m.ents.get? nm = none → cm.ents.get? nm = none) := by
  have hkeys : ∀ n ∈ Dict.keys [(dim, CArg.simple (.one k' c'))], n ∈ m.ents.keys := by
    intro n hn
    simp only [Dict.keys, List.map_cons, List.map_nil, List.mem_singleton] at hn
    subst hn
    exact Dict.mem_keys.2 ⟨_, hc⟩
  have hU := update_spec hm.wf (by simp [Dict.keys]) (fun n hn => hm.plain n (hkeys n hn)) hu
  have hdn : dropNames [(dim, CArg.simple (.one k' c'))] = [] := by simp [dropNames, CArg.isDrop]
  have hget : ∀ nm, nm ≠ dim → Dict.get? [(dim, CArg.simple (.one k' c'))] nm = none := by
    intro nm hne
    rw [Dict.get?_eq_none]
    simpa [Dict.keys] using hne
  have hown : Dict.get? [(dim, CArg.simple (.one k' c'))] dim = some (.simple (.one k' c')) := by simp [Dict.get?]
  have hres : ∀ e, Resized m [(dim, CArg.simple (.one k' c'))] e ↔ e = dim ∧ c'.length ≠ c.length := by
    intro e
    constructor
    · rintro ⟨h1, a, ds, c1, ds', c2, h2, h3, h4, h5⟩
      by_cases he : e = dim
      · subst he
        rw [hown] at h2; cases h2; cases h3
        rw [hc] at h4; cases h4
        exact ⟨rfl, h5⟩
      · rw [hget e he] at h2; cases h2
    · rintro ⟨rfl, h⟩
      exact ⟨hdim, _, _, _, _, _, hown, rfl, hc, h⟩
  refine ⟨?_, hU.givenC dim _ _ _ hown rfl, ?_, ?_, ?_⟩
  · rw [hU.dims, hdn]
    simp [hdim]
  · intro nm ds c0 hne h0 hcase
    have hz : ∀ d ∈ ds, d ∉ dropNames [(dim, CArg.simple (.one k' c'))] ∧ ¬ Resized m [(dim, CArg.simple (.one k' c'))] d := by
      intro d hd
      refine ⟨by simp [hdn], fun hr => ?_⟩
      obtain ⟨rfl, h⟩ := (hres d).1 hr
      rcases hcase with h1 | h1
      · exact h1 hd
      · exact h h1
    obtain ⟨x, h1, h2⟩ := hU.keptC nm ds c0 (hget nm hne) h0 hz
    exact ⟨x, h1, canon_same h1, h2⟩
  · intro nm ds c0 hne h0 hd hl
    exact hU.lost nm ds c0 (hget nm hne) h0 ⟨dim, hd, Or.inr ((hres dim).2 ⟨rfl, hl⟩)⟩
  · intro nm h0
    refine hU.none nm ?_ h0
    apply hget
    rintro rfl
    rw [hc] at h0; cases h0

theorem drop_take_range (n a b : ℕ) (hb : b ≤ n) : ((List.range n).drop a).take (b - a) = List.range' a (b - a) := by
  apply List.ext_getElem
  · simp; omega
  · intro i h1 h2
    simp

theorem sliceOf_ok {a b n : ℕ} (ha : a ≤ n) (hb : b ≤ n) : sliceOf ((a : ℤ), (b : ℤ)) n = .ok (List.range' a (b - a)) := by
  unfold sliceOf Indexer.positions
  show pySlice (List.range n) ⟨some (a : ℤ), some (b : ℤ), none⟩ = _
  rw [pySlice_unit _ a b]
  · rw [drop_take_range n a b hb]
  · simp [clipBound, ha]
  · simp [clipBound, hb]

theorem idxOf_range' {a k x : ℕ} (h1 : a ≤ x) (h2 : x < a + k) : (List.range' a k).idxOf x = x - a := by
  have hnd : (List.range' a k).Nodup := List.nodup_range'
  have hlt : x - a < (List.range' a k).length := by simp; omega
  have := hnd.idxOf_getElem (x - a) hlt
  simp only [List.getElem_range'] at this
  rw [show a + 1 * (x - a) = x by omega] at this
  exact this

theorem setTrace_spec {α β} {cast : α → β} {data : Nd α} {axis : ℕ} {axes idx : List ℕ} {out : Nd β} {s first last : ℤ} {n size : ℕ}
    (hn : data.shape.getD axis 0 = n) (hsz : out.shape.getD axis 0 = size) (h0 : (size : ℤ) = n + last - first)
    (h1 : 0 ≤ n - s + last) (h2 : first - s ≤ n) :
    ∃ r, data.setTrace cast axis axes out idx (destInds n size s first last) (sourceInds n s first last) = .ok r ∧ r.shape = out.shape ∧
      ∀ i, i.getD axis 0 < size → r.get i =
        if axes.map (fun a => i.getD a 0) = idx ∧ 0 ≤ (i.getD axis 0 : ℤ) + first - s ∧ (i.getD axis 0 : ℤ) + first - s < n then
          cast (data.get (i.set axis ((i.getD axis 0 : ℤ) + first - s).toNat))
        else out.get i := by
  obtain ⟨a, ha⟩ : ∃ a : ℕ, (a : ℤ) = max 0 (first - s) := ⟨(max 0 (first - s)).toNat, by omega⟩
  obtain ⟨b, hb⟩ : ∃ b : ℕ, (b : ℤ) = min (n : ℤ) ((n : ℤ) - s + last) := ⟨(min (n : ℤ) ((n : ℤ) - s + last)).toNat, by omega⟩
  obtain ⟨d, hd⟩ : ∃ d : ℕ, (d : ℤ) = max 0 (s - first) := ⟨(max 0 (s - first)).toNat, by omega⟩
  have hab : a ≤ b := by omega
  have hsrc : sourceInds n s first last = ((a : ℤ), (b : ℤ)) := by
    unfold sourceInds
    apply Prod.ext
    · simp only; split_ifs <;> omega
    · simp only; split_ifs <;> omega
  have hdst : destInds n size s first last = ((d : ℤ), ((d + (b - a) : ℕ) : ℤ)) := by
    unfold destInds clipZ
    apply Prod.ext
    · simp only; omega
    · simp only
      push_cast [hab]
      omega
  unfold Nd.setTrace
  rw [hsrc, hdst, hn, hsz, sliceOf_ok (by omega) (by omega), sliceOf_ok (a := a) (by omega) (by omega)]
  simp only [bind, Except.bind, List.length_range']
  rw [if_neg (by omega)]
  refine ⟨_, rfl, rfl, ?_⟩
  intro i hi
  simp only [List.mem_range'_1]
  generalize i.getD axis 0 = x at *
  have hiff : (d ≤ x ∧ x < d + (d + (b - a) - d)) ↔ (0 ≤ (x : ℤ) + first - s ∧ (x : ℤ) + first - s < n) := by omega
  by_cases hx : axes.map (fun a => i.getD a 0) = idx
  · by_cases hj : 0 ≤ (x : ℤ) + first - s ∧ (x : ℤ) + first - s < n
    · have c1 := And.intro hx (hiff.2 hj)
      have c2 := And.intro hx hj
      rw [if_pos c1, if_pos c2]
      obtain ⟨g1, g2⟩ := hiff.2 hj
      congr 3
      have e1 : (if b - a = 1 then 0 else (List.range' d (d + (b - a) - d)).idxOf x) = x - d := by
        rw [idxOf_range' g1 g2]
        split_ifs <;> omega
      rw [e1, List.getD_eq_getElem?_getD, List.getElem?_range' (by omega)]
      simp only [Option.getD_some]
      omega
    · rw [if_neg (fun h => hj (hiff.1 h.2)), if_neg (fun h => hj h.2)]
  · rw [if_neg (fun h => hx h.1), if_neg (fun h => hx h.1)]

theorem alignLoop {α β} {cast : α → β} {data : Nd α} {axis : ℕ} {axes : List ℕ} {first last : ℤ} {n size : ℕ}
    (hn : data.shape.getD axis 0 = n) (h0 : (size : ℤ) = n + last - first) (sf : List ℕ → ℤ) :
    ∀ (traces : List (List ℕ × ℤ)) (out : Nd β), out.shape.getD axis 0 = size →
    (∀ t ∈ traces, t.2 = sf t.1 ∧ 0 ≤ n - t.2 + last ∧ first - t.2 ≤ n) →
    ∃ r, traces.foldlM (fun out t => data.setTrace cast axis axes out t.1 (destInds n size t.2 first last) (sourceInds n t.2 first last)) out = .ok r ∧
      r.shape = out.shape ∧
      ∀ i, i.getD axis 0 < size → ∀ j : ℤ, j = (i.getD axis 0 : ℤ) + first - sf (axes.map fun a => i.getD a 0) → r.get i =
        if (axes.map fun a => i.getD a 0) ∈ traces.map Prod.fst ∧ 0 ≤ j ∧ j < n then cast (data.get (i.set axis j.toNat)) else out.get i := by
  intro traces
  induction traces with
  | nil =>
    intro out _ _
    exact ⟨out, rfl, rfl, by simp⟩
  | cons t ts ih =>
    intro out hsz hall
    obtain ⟨g1, g2, g3⟩ := hall t List.mem_cons_self
    obtain ⟨r1, k1, k2, k3⟩ := setTrace_spec (cast := cast) (axes := axes) (idx := t.1) hn hsz h0 g2 g3
    obtain ⟨r, l1, l2, l3⟩ := ih r1 (by rw [k2]; exact hsz) (fun t' h => hall t' (List.mem_cons_of_mem _ h))
    refine ⟨r, ?_, by rw [l2, k2], ?_⟩
    · rw [List.foldlM_cons, k1]; exact l1
    · intro i hi j hj
      rw [l3 i hi j hj, k3 i hi]
      simp only [List.map_cons, List.mem_cons]
      by_cases h1 : (axes.map fun a => i.getD a 0) ∈ ts.map Prod.fst ∧ 0 ≤ j ∧ j < n
      · rw [if_pos h1, if_pos ⟨Or.inr h1.1, h1.2⟩]
      · rw [if_neg h1]
        by_cases h2 : (axes.map fun a => i.getD a 0) = t.1
        · rw [h2, ← g1] at hj
          subst hj
          by_cases h3 : 0 ≤ (i.getD axis 0 : ℤ) + first - t.2 ∧ (i.getD axis 0 : ℤ) + first - t.2 < n
          · rw [if_pos ⟨h2, h3⟩, if_pos ⟨Or.inl h2, h3⟩]
          · rw [if_neg (fun h => h3 h.2), if_neg (fun h => h3 h.2)]
        · rw [if_neg (fun h => h2 h.1), if_neg]
          rintro ⟨h3 | h3, h4⟩
          · exact h2 h3
          · exact h1 ⟨h3, h4⟩

theorem foldl_min_le (l : List ℤ) : ∀ a, l.foldl min a ≤ a ∧ ∀ x ∈ l, l.foldl min a ≤ x := by
  induction l with
  | nil => intro a; simp
  | cons b l ih =>
    intro a
    obtain ⟨h1, h2⟩ := ih (min a b)
    simp only [List.foldl_cons]
    refine ⟨h1.trans (min_le_left _ _), ?_⟩
    intro x hx
    rcases List.mem_cons.1 hx with rfl | hx
    · exact h1.trans (min_le_right _ _)
    · exact h2 x hx

theorem le_foldl_maxZ (l : List ℤ) : ∀ a, a ≤ l.foldl max a ∧ ∀ x ∈ l, x ≤ l.foldl max a := by
  induction l with
  | nil => intro a; simp
  | cons b l ih =>
    intro a
    obtain ⟨h1, h2⟩ := ih (max a b)
    simp only [List.foldl_cons]
    refine ⟨(le_max_left _ _).trans h1, ?_⟩
    intro x hx
    rcases List.mem_cons.1 hx with rfl | hx
    · exact (le_max_right _ _).trans h1
    · exact h2 x hx

theorem foldl_min_mem (l : List ℤ) : ∀ a, l.foldl min a = a ∨ l.foldl min a ∈ l := by
  induction l with
  | nil => intro a; simp
  | cons b l ih =>
    intro a
    simp only [List.foldl_cons, List.mem_cons]
    rcases ih (min a b) with h | h
    · rcases min_choice a b with h2 | h2 <;> rw [h2] at h
      · left; rw [h2, h]
      · right; left; rw [h2, h]
    · right; right; exact h

theorem foldl_max_mem (l : List ℤ) : ∀ a, l.foldl max a = a ∨ l.foldl max a ∈ l := by
  induction l with
  | nil => intro a; simp
  | cons b l ih =>
    intro a
    simp only [List.foldl_cons, List.mem_cons]
    rcases ih (max a b) with h | h
    · rcases max_choice a b with h2 | h2 <;> rw [h2] at h
      · left; rw [h2, h]
      · right; left; rw [h2, h]
    · right; right; exact h

/-! ### The shifts -/

theorem absQ_eq (v : ℚ) : absQ v = |v| := by
  unfold absQ
  split_ifs with h
  · rw [abs_of_neg h]
  · rw [abs_of_nonneg (not_lt.1 h)]

theorem sgn_cases (v : ℚ) : (0 < v ∧ sgn v = 1 ∧ |v| = v) ∨ (v = 0 ∧ sgn v = 0 ∧ |v| = 0) ∨ (v < 0 ∧ sgn v = -1 ∧ |v| = -v) := by
  rcases lt_trichotomy v 0 with h | h | h
  · exact Or.inr (Or.inr ⟨h, sgn_neg h, abs_of_neg h⟩)
  · subst h; exact Or.inr (Or.inl ⟨rfl, sgn_zero, abs_zero⟩)
  · exact Or.inl ⟨h, sgn_pos h, abs_of_pos h⟩

/-- A count that is right for the absolute value is right for the value, with the sign put back. -/
theorem shiftOk_of_abs {c : RangeCoord} (hs : 0 < c.step) {samples reverse : Bool} {v : ℚ} {x : ℤ}
    (h1 : samples = true → ∀ m : ℤ, |v| = m → x = m) (h2 : samples = false → ∀ m : ℤ, |v| = m * c.step → x = m)
    (h3 : samples = false → |(x : ℚ) * c.step - abs v| ≤ c.step * (1 + 1 / (2 * 10 ^ 10))) :
    ShiftOk c samples (if reverse then -1 else 1) v (x * (sgn v * (if reverse then -1 else 1))) := by
  have hr : (if reverse then (-1 : ℤ) else 1) = 1 ∨ (if reverse then (-1 : ℤ) else 1) = -1 := by cases reverse <;> simp
  generalize (if reverse then (-1 : ℤ) else 1) = r at hr ⊢
  have hra : |(r : ℚ)| = 1 := by rcases hr with rfl | rfl <;> simp
  have hpos : 0 ≤ c.step * (1 + 1 / (2 * 10 ^ 10)) := by positivity
  rcases sgn_cases v with ⟨hv, e1, e2⟩ | ⟨rfl, e1, e2⟩ | ⟨hv, e1, e2⟩
  · rw [e2] at h1 h2 h3
    rw [e1]
    refine ⟨fun h m hm => ?_, fun h m hm => ?_, fun h => ?_⟩
    · rw [h1 h m hm]; ring
    · rw [h2 h m hm]; ring
    · rw [show ((x * (1 * r) : ℤ) : ℚ) * c.step - r * v = r * (x * c.step - v) by push_cast; ring, abs_mul, hra, one_mul]
      exact h3 h
  · rw [e1]
    refine ⟨fun h m hm => ?_, fun h m hm => ?_, fun h => ?_⟩
    · have : m = 0 := by exact_mod_cast hm.symm
      rw [this]; ring
    · have : m = 0 := by
        rcases mul_eq_zero.1 hm.symm with h' | h'
        · exact_mod_cast h'
        · exact absurd h' hs.ne'
      rw [this]; ring
    · simp only [zero_mul, mul_zero, Int.cast_zero, sub_zero, abs_zero]
      exact hpos
  · rw [e2] at h1 h2 h3
    rw [e1]
    refine ⟨fun h m hm => ?_, fun h m hm => ?_, fun h => ?_⟩
    · rw [h1 h (-m) (by rw [hm]; push_cast; ring)]; ring
    · rw [h2 h (-m) (by rw [hm]; push_cast; ring)]; ring
    · rw [show ((x * (-1 * r) : ℤ) : ℚ) * c.step - r * v = -(r * (x * c.step - -v)) by push_cast; ring, abs_neg, abs_mul, hra, one_mul]
      exact h3 h

theorem shiftError_ok {α} {r : Except Err α} {a : α} (h : shiftError r = .ok a) : r = .ok a := by
  unfold shiftError at h
  split at h
  · cases h
  · exact h

theorem trunc_nonneg {q : ℚ} (h : 0 ≤ q) : truncZ q = ⌊q⌋ := by unfold truncZ; rw [if_pos h]

theorem zipWith_map_self {γ δ : Type} (f : γ → ℚ → δ) (h : ℚ → γ) (l : List ℚ) : List.zipWith f (l.map h) l = l.map fun v => f (h v) v := by
  induction l with
  | nil => rfl
  | cons a l ih => simp [ih]

theorem alignShifts_spec {c : RangeCoord} (hc : c.Valid) {mode : AlignMode} {samples reverse : Bool} {vs : List ℚ} {shifts : List ℤ}
    (h : alignShifts c mode samples reverse vs = .ok shifts) : 0 < c.step ∧ ∃ g : ℚ → ℤ, shifts = vs.map g ∧
      (∀ v ∈ vs, ShiftOk c samples (if reverse then -1 else 1) v (g v)) ∧ (mode ≠ .full → ∀ v ∈ vs, |g v| ≤ (c.len : ℤ) - 1) := by
  unfold alignShifts at h
  simp only [bind, Except.bind, pure, Except.pure] at h
  split at h
  · cases h
  rename_i ix hix
  cases h
  have hix := shiftError_ok hix
  have hstep : c.sorted = true → 0 < c.step := by
    intro h
    unfold RangeCoord.sorted at h
    exact lt_of_le_of_ne (by simpa using h) hc.step_ne.symm
  have hlen : (1 : ℚ) ≤ c.len := by exact_mod_cast hc.len_pos
  have habs : ∀ (v : ℚ) (x : ℤ), 0 ≤ x → |x * (sgn v * (if reverse then -1 else 1))| ≤ x := by
    intro v x hx
    have e : |x * (sgn v * (if reverse then -1 else 1))| = x * |sgn v| := by
      rw [abs_mul, abs_mul, abs_of_nonneg hx]
      cases reverse <;> simp
    rw [e]
    have : |sgn v| ≤ 1 := by
      rcases sgn_cases v with ⟨_, e, _⟩ | ⟨_, e, _⟩ | ⟨_, e, _⟩ <;> rw [e] <;> simp
    nlinarith
  cases samples with
  | true =>
    simp only [if_true] at hix
    unfold Coord.getNextIndexSamples at hix
    split at hix
    · cases hix
    rename_i hsort
    have hs := hstep (by simpa [Coord.isSorted] using hsort)
    have hnn : ∀ v : ℚ, 0 ≤ ⌊absQ v⌋ := by
      intro v; rw [absQ_eq]; exact Int.floor_nonneg.2 (abs_nonneg _)
    have hw : (if decide (mode = .full) = true then vs.map (fun v => ⌊absQ v⌋) else (vs.map (fun v => ⌊absQ v⌋)).map fun i => if i < 0 then i + (((Coord.range c).length : ℤ) - 1) + 1 else i) =
        vs.map (fun v => ⌊absQ v⌋) := by
      split_ifs with hm
      · rfl
      · rw [List.map_map]
        refine List.map_congr_left fun v _ => ?_
        simp only [Function.comp]
        rw [if_neg (by have := hnn v; omega)]
    extract_lets N IX oob at hix
    have hIX : IX = vs.map (fun v => ⌊absQ v⌋) := hw
    simp only [hIX, oob] at hix
    split at hix
    · cases hix
    rename_i hoob
    cases hix
    refine ⟨hs, fun v => ⌊absQ v⌋ * (sgn v * (if reverse then -1 else 1)), zipWith_map_self _ _ _, ?_, ?_⟩
    · intro v _
      apply shiftOk_of_abs hs
      · intro _ m hm
        rw [absQ_eq, hm, Int.floor_intCast]
      · intro h; cases h
      · intro h; cases h
    · intro hm v hv
      refine (habs v _ (hnn v)).trans ?_
      by_contra hgt
      apply hoob
      simp only [hm, decide_false, Bool.not_false, Bool.true_and, List.any_map, List.any_eq_true]
      refine ⟨v, hv, ?_⟩
      simp only [Function.comp, Bool.or_eq_true, decide_eq_true_iff]
      left
      have e : (Coord.range c).length = c.len := rfl
      omega
  | false =>
    simp only [Bool.false_eq_true, if_false] at hix
    unfold Coord.getNextIndex at hix
    split at hix
    · cases hix
    rename_i hsort
    have hs := hstep (by simpa [Coord.isSorted] using hsort)
    have hmn : c.cmin = c.start := by
      rw [hc.cmin_eq, min_eq_left]; nlinarith
    have hmx : c.cmax = c.start + (c.len - 1) * c.step := by
      rw [hc.cmax_eq, max_eq_right]; nlinarith
    have hrel : ∀ v, c.relative (absQ v) = c.start + |v| := by
      intro v
      unfold RangeCoord.relative
      rw [absQ_eq, if_pos (abs_nonneg v), hmn]
    simp only [hrel, hmn, hmx, List.map_map, List.any_map] at hix
    have hq : ∀ v : ℚ, (c.start + |v| - c.start) / c.step = |v| / c.step := by intro v; congr 1; ring
    split at hix
    · cases hix
    rename_i hno
    split at hix
    · rename_i hoob
      cases hix
      refine ⟨hs, fun v => truncZ ((c.start + |v| - c.start) / c.step) * (sgn v * (if reverse then -1 else 1)), ?_, ?_, ?_⟩
      · exact zipWith_map_self _ _ _
      · intro v _
        have h0 : 0 ≤ |v| / c.step := div_nonneg (abs_nonneg _) hs.le
        simp only [hq, trunc_nonneg h0]
        apply shiftOk_of_abs hs
        · intro h; cases h
        · intro _ m hm
          rw [hm, mul_div_cancel_right₀ _ hs.ne', Int.floor_intCast]
        · intro _
          have g1 := Int.floor_le (|v| / c.step)
          have g2 := Int.lt_floor_add_one (|v| / c.step)
          rw [le_div_iff₀ hs] at g1
          rw [div_lt_iff₀ hs] at g2
          rw [abs_le]
          have : 0 < c.step * (1 / (2 * 10 ^ 10)) := by positivity
          constructor <;> nlinarith
      · intro hm
        exact absurd (by simp [hoob, hm]) hno
    · rename_i hoob
      cases hix
      refine ⟨hs, fun v => ⌈roundDec 10 ((c.start + |v| - c.start) / c.step)⌉ * (sgn v * (if reverse then -1 else 1)), ?_, ?_, ?_⟩
      · exact zipWith_map_self _ _ _
      · intro v _
        simp only [hq]
        apply shiftOk_of_abs hs
        · intro h; cases h
        · intro _ m hm
          rw [hm, mul_div_cancel_right₀ _ hs.ne', roundDec_int, Int.ceil_intCast]
        · intro _
          generalize hx : ⌈roundDec 10 (|v| / c.step)⌉ = x
          have g1 := (ceil_roundDec_le (k := 10) (by norm_num) (q := |v| / c.step) (m := x)).1 hx.le
          have g2 : ¬ (|v| / c.step ≤ (x - 1 : ℤ) + 1 / (2 * 10 ^ 10)) := by
            intro hc'
            have := (ceil_roundDec_le (k := 10) (by norm_num) (q := |v| / c.step) (m := x - 1)).2 hc'
            omega
          rw [not_le] at g2
          rw [div_le_iff₀ hs] at g1
          rw [lt_div_iff₀ hs] at g2
          push_cast at g2
          have : 0 < c.step * (1 / (2 * 10 ^ 10)) := by positivity
          rw [abs_le]
          constructor <;> nlinarith
      · intro hm v hv
        simp only [hq]
        have h0 : 0 ≤ ⌈roundDec 10 (|v| / c.step)⌉ := by
          by_contra hneg
          have : ⌈roundDec 10 (|v| / c.step)⌉ ≤ -1 := by omega
          have := (ceil_roundDec_le (k := 10) (by norm_num)).1 this
          have h0 : 0 ≤ |v| / c.step := div_nonneg (abs_nonneg _) hs.le
          have : (0 : ℚ) ≤ ((-1 : ℤ) : ℚ) + 1 / (2 * 10 ^ 10) := h0.trans this
          norm_num at this
        refine (habs v _ h0).trans ?_
        have hle : c.start + |v| ≤ c.start + (c.len - 1) * c.step := by
          by_contra hgt
          apply hoob
          rw [List.any_eq_true]
          exact ⟨v, hv, by simp only [Function.comp, Bool.or_eq_true, decide_eq_true_iff]; left; exact not_le.1 hgt⟩
        apply (ceil_roundDec_le (k := 10) (by norm_num)).2
        have : |v| / c.step ≤ (c.len : ℚ) - 1 := by rw [div_le_iff₀ hs]; linarith
        push_cast
        have : (0 : ℚ) < 1 / (2 * 10 ^ 10) := by positivity
        linarith

theorem alignCoord_spec {k : Kind} {c : RangeCoord} (hc : c.Valid) (hs : 0 < c.step) {first last : ℤ} {d : Coord}
    (h : alignCoord k c first last = .ok d) : ∃ n : ℕ, (n : ℤ) = c.len - first + last ∧ d.length = n ∧
      ((n = 0 ∧ d = .part 0) ∨ ∃ e : RangeCoord, d = .range e ∧ e.Valid ∧ e.start = c.start + first * c.step ∧ e.step = c.step ∧ e.len = n) := by
  have hlen : (1 : ℚ) ≤ c.len := by exact_mod_cast hc.len_pos
  have hmn : c.cmin = c.start := by
    rw [hc.cmin_eq, min_eq_left]; nlinarith
  unfold alignCoord at h
  have hup : c.updateLimits (some (c.cmin + c.step * first)) none none =
      .ok (.range ⟨c.start + first * c.step, c.start + first * c.step + c.step * c.len, c.step, c.len⟩) := by
    unfold RangeCoord.updateLimits
    simp only [bind, Except.bind, hmn]
    rw [new_canonical (c := c) (start := c.start + c.step * first) (step := c.step)
      (stop := c.stop + (c.start + c.step * first - c.start)) (n := c.len) hc.step_ne hc.len_pos (by rw [hc.stop_eq]; ring)]
    rw [hc.stop_eq]
    simp only [Except.ok.injEq, Coord.range.injEq, RangeCoord.mk.injEq, and_true]
    constructor <;> ring
  rw [hup] at h
  simp only [bind, Except.bind] at h
  unfold RangeCoord.changeLength at h
  simp only at h
  split at h
  · cases h
  rename_i hneg
  obtain ⟨n, hn⟩ : ∃ n : ℕ, (c.len : ℤ) - first + last = n := Int.eq_ofNat_of_zero_le (not_lt.1 hneg)
  refine ⟨n, hn.symm, ?_⟩
  rw [hn] at h
  have hv : RangeCoord.Valid ⟨c.start + first * c.step, c.start + first * c.step + c.step * c.len, c.step, c.len⟩ :=
    ⟨hc.step_ne, hc.len_pos, rfl⟩
  split at h
  · rename_i he
    cases h
    have he' : c.len = n := by exact_mod_cast he
    exact ⟨he', Or.inr ⟨_, rfl, hv, rfl, rfl, he'⟩⟩
  rename_i hne
  split at h
  · rename_i h0
    cases h
    have : n = 0 := by exact_mod_cast h0
    exact ⟨by rw [this]; rfl, Or.inl ⟨this, rfl⟩⟩
  rename_i h0
  have hn1 : 1 ≤ n := by omega
  have hnew : RangeCoord.new (⟨c.start + first * c.step, c.start + first * c.step + c.step * c.len, c.step, c.len⟩ : RangeCoord)
      (c.start + first * c.step) (c.start + first * c.step + c.step * c.len + c.step * (((n : ℤ) - c.len : ℤ) : ℚ)) c.step =
      .ok (.range ⟨c.start + first * c.step, c.start + first * c.step + c.step * n, c.step, n⟩) := by
    rw [new_canonical (n := n) hc.step_ne hn1 (by push_cast; ring)]
    simp only [Except.ok.injEq, Coord.range.injEq, RangeCoord.mk.injEq, and_true, true_and]
    push_cast; ring
  simp only [hnew] at h
  generalize (if decide (k = .time) = true then decide ((_ : ℚ) = (_ : ℚ)) else isClose _ _) = b at h
  cases b with
  | true =>
    simp only [if_true] at h
    split at h
    · rename_i hl; exact absurd hl hne
    · cases h
  | false =>
    simp only [Bool.false_eq_true, if_false, if_true] at h
    cases h
    exact ⟨rfl, Or.inr ⟨_, rfl, ⟨hc.step_ne, hn1, rfl⟩, rfl, rfl, rfl⟩⟩

theorem mapM_needValue {γ : Type} {f : γ → Option ℚ} : ∀ {l : List γ} {vs : List ℚ}, (l.mapM fun i => needValue (f i)) = .ok vs →
    ∀ i ∈ l, ∃ v, f i = some v := by
  intro l
  induction l with
  | nil => intro vs _ i hi; cases hi
  | cons a l ih =>
    intro vs h i hi
    rw [List.mapM_cons] at h
    simp only [bind, Except.bind] at h
    split at h
    · cases h
    rename_i v hv
    split at h
    · cases h
    rename_i w hw
    rcases List.mem_cons.1 hi with rfl | hi
    · cases hf : f i with
      | none => rw [hf] at hv; cases hv
      | some v => exact ⟨v, rfl⟩
    · exact ih hw i hi

theorem needValue_map {γ : Type} {f : γ → Option ℚ} {l : List γ} {vs : List ℚ} (h : (l.mapM fun i => needValue (f i)) = .ok vs) :
    vs = l.map fun i => (f i).getD 0 := by
  induction l generalizing vs with
  | nil => rw [List.mapM_nil] at h; cases h; rfl
  | cons a l ih =>
    rw [List.mapM_cons] at h
    simp only [bind, Except.bind] at h
    split at h
    · cases h
    rename_i v hv
    split at h
    · cases h
    rename_i w hw
    cases h
    rw [ih hw, List.map_cons]
    congr 1
    cases hf : f a with
    | none => rw [hf] at hv; cases hv
    | some x => rw [hf] at hv; cases hv; rfl

/-- The value of the shift coordinate for index `i`. -/
theorem align_spec {α β} {cast : α → β} {fill : β} {p : PatchM α} {q : PatchM β} (hm : Regular p.cm) (hd : p.cm.dims ≠ [])
    (hsh : p.cm.shape = p.data.shape) {dim name : String} (hatt : ∀ c, p.cm.ents.get? name ≠ some ([], c)) {mode : AlignMode} {samples isInt reverse : Bool}
    (h : p.alignToCoord cast fill dim name mode samples isInt reverse = .ok q) :
    ∃ k c g first n, p.cm.ents.get? dim = some ([dim], .one k (.range c)) ∧ 0 < c.step ∧ dim ∈ p.cm.dims ∧ dim ≠ name ∧
      (∃ ds mc, p.cm.ents.get? name = some (ds, mc) ∧ dim ∉ ds) ∧
      Aligned cast fill p q dim name g first n ∧
      (∀ i v, InRange p.data.shape i → label p name i = some (some v) → ShiftOk c samples (if reverse then -1 else 1) v (g v)) ∧
      (mode = .same → first = 0 ∧ n = lenDim p.cm dim) ∧
      (mode = .full → ∀ i v, InRange p.data.shape i → label p name i = some (some v) →
        0 ≤ (posAlong p dim i : ℤ) + g v - first ∧ (posAlong p dim i : ℤ) + g v - first < n) ∧
      (mode = .valid → ∀ i v, InRange q.data.shape i → label p name i = some (some v) →
        0 ≤ (posAlong p dim i : ℤ) + first - g v ∧ (posAlong p dim i : ℤ) + first - g v < lenDim p.cm dim) ∧
      Regular q.cm ∧ q.cm.shape = q.data.shape := by
  have hshape : p.data.shape = p.cm.dims.map p.cm.ents.lenOf := by
    rw [← hsh]; unfold CM.shape; rw [if_neg hd]
  unfold PatchM.alignToCoord at h
  by_cases hdim : dim ∈ p.cm.dims
  swap
  · rw [if_pos hdim] at h; cases h
  rw [if_neg (not_not.2 hdim)] at h
  split at h
  rotate_left
  · cases h
  · cases h
  rename_i ds mc ds' k c hname hc
  obtain ⟨hc', hl⟩ := dim_one hm hdim hc
  have hv : c.Valid := hm.classes _ _ _ _ (Dict.mem_of_get? hc)
  split at h
  · cases h
  rename_i hnd
  split at h
  · cases h
  rename_i hds
  split at h
  · cases h
  simp only [bind, Except.bind] at h
  split at h
  · cases h
  rename_i vs hvs
  split at h
  · cases h
  rename_i shifts hshift
  split at h
  · cases h
  rename_i hne
  split at h
  · cases h
  rename_i hdl
  simp only [not_not] at hdl
  split at h
  · cases h
  rename_i a ha
  split at h
  · cases h
  rename_i c' hc2
  split at h
  · cases h
  rename_i cm hcm
  obtain ⟨rfl, hs2⟩ := new_ok h
  obtain ⟨hs, g, rfl, hg1, hg2⟩ := alignShifts_spec hv hshift
  set axis := p.cm.dims.idxOf dim with haxis
  set L := lenDim p.cm dim with hL
  have hlen : c.len = L := hl
  have hax : axis < p.data.shape.length := by
    rw [hshape]; simpa using List.idxOf_lt_length_of_mem hdim
  have hn : p.data.shape.getD axis 0 = L := by
    rw [List.getD_eq_getElem?_getD, hshape, List.getElem?_map, List.getElem?_eq_getElem (List.idxOf_lt_length_of_mem hdim)]
    simp [lenDim, hL]
  set shifts := vs.map g with hshifts
  set lo := shifts.foldl min (shifts.headD 0) with hlo
  set top := shifts.foldl max (shifts.headD 0) with htop
  have hlo' : ∀ v ∈ vs, lo ≤ g v := fun v hv => (foldl_min_le shifts _).2 _ (List.mem_map_of_mem hv)
  have hhi' : ∀ v ∈ vs, g v ≤ top := fun v hv => (le_foldl_maxZ shifts _).2 _ (List.mem_map_of_mem hv)
  set first := (mode.limits lo top).1 with hfirst
  set last := (mode.limits lo top).2 with hlast
  obtain ⟨n, hn1, hn2, hn3⟩ := alignCoord_spec hv hs hc2
  -- the data
  unfold Nd.alignData at ha
  simp only [hn] at ha
  have hsize : (L : ℤ) + last - first = n := by rw [hn1, hlen]; ring
  rw [hsize] at ha
  rw [if_neg (by omega)] at ha
  simp only [Int.toNat_natCast] at ha
  -- the traces
  have hvs2 := needValue_map hvs
  set val := fun i : List ℕ => (mc.arr.get i).getD 0 with hval
  have hzip : (Nd.indices mc.arr.shape).zip shifts = (Nd.indices mc.arr.shape).map fun i => (i, g (val i)) := by
    rw [hshifts, hvs2, List.map_map, List.zip_map_right]
    clear hvs hvs2 hshifts ha
    induction Nd.indices mc.arr.shape with
    | nil => rfl
    | cons a l ih => simp only [List.zip_cons_cons, List.map_cons, ih]; rfl
  rw [hzip] at ha
  have hmem_vs : ∀ i, i ∈ Nd.indices mc.arr.shape → val i ∈ vs := by
    intro i hi; rw [hvs2]; exact List.mem_map_of_mem hi
  have hcond : ∀ v ∈ vs, 0 ≤ (L : ℤ) - g v + last ∧ first - g v ≤ L := by
    intro v hv
    have h1 := hlo' v hv
    have h2 := hhi' v hv
    rw [hfirst, hlast] at *
    cases mode with
    | full => simp only [AlignMode.limits] at *; omega
    | same =>
      simp only [AlignMode.limits] at *
      have := abs_le.1 (hg2 (by simp) v hv)
      omega
    | valid =>
      simp only [AlignMode.limits] at hsize ⊢
      split_ifs at hsize ⊢ <;> omega
  obtain ⟨r, k1, k2, k3⟩ := alignLoop (cast := cast) (axes := ds.map fun d => p.cm.dims.idxOf d) (axis := axis) (data := p.data) (first := first) (last := last)
    (n := L) (size := n) hn hsize.symm (fun i => g (val i)) ((Nd.indices mc.arr.shape).map fun i => (i, g (val i)))
    (⟨p.data.shape.set axis n, fun _ => fill⟩ : Nd β) (by
      show (p.data.shape.set axis n).getD axis 0 = n
      rw [List.getD_eq_getElem?_getD, List.getElem?_set, if_pos rfl, if_pos hax]; rfl) (by
      intro t ht
      obtain ⟨i, hi, rfl⟩ := List.mem_map.1 ht
      exact ⟨rfl, hcond _ (hmem_vs i hi)⟩)
  rw [k1] at ha
  cases ha
  have hqs : a.shape = p.cm.dims.map fun d => if d = dim then n else lenDim p.cm d := by
    rw [k2]
    show p.data.shape.set axis n = _
    rw [hshape]
    apply List.ext_getElem (by simp)
    intro j h1 h2
    simp only [List.length_set, List.length_map] at h1
    rw [List.getElem_set, List.getElem_map, List.getElem_map]
    have hidx : p.cm.dims.idxOf p.cm.dims[j] = j := hm.distinct.idxOf_getElem j h1
    by_cases he : p.cm.dims[j] = dim
    · rw [if_pos he, if_pos (by rw [haxis, ← he]; exact hidx)]
    · rw [if_neg he, if_neg (by
        intro h; apply he; rw [← List.getElem_idxOf (List.idxOf_lt_length_of_mem hdim)]; simp [← h, haxis])]
      rfl
  -- indices of the shift coordinate
  have hdsd : ∀ d ∈ ds, d ∈ p.cm.dims := hm.wf.attached _ _ _ (Dict.mem_of_get? hname)
  have hidx : ∀ (f : String → ℕ), (∀ d, d ≠ dim → f d = lenDim p.cm d) → ∀ i, InRange (p.cm.dims.map f) i →
      (ds.map fun d => i.getD (p.cm.dims.idxOf d) 0) ∈ Nd.indices mc.arr.shape := by
    intro f hf i hi
    rw [mem_indices]
    have hw := hm.wf.shapes _ _ _ (Dict.mem_of_get? hname) (by
      intro he; rw [he] at hname; exact hatt _ hname)
    unfold InRange
    rw [List.forall₂_iff_get]
    refine ⟨by simp [hdl], ?_⟩
    intro j h1 h2
    simp only [List.length_map] at h1
    simp only [List.get_eq_getElem, List.getElem_map]
    have hdj : ds[j] ∈ p.cm.dims := hdsd _ (List.getElem_mem h1)
    obtain ⟨cc, nn, o1, o2⟩ := hm.wf.own _ hdj
    have := hw.2 j ds[j] mc.arr.shape[j] (List.getElem?_eq_getElem h1) (List.getElem?_eq_getElem h2) cc o1
    have hlt := inRange_getD hi hdj
    have hne' : ds[j] ≠ dim := fun h => hds (h ▸ List.getElem_mem h1)
    rw [hf _ hne'] at hlt
    have hlo2 : lenDim p.cm ds[j] = mc.arr.shape[j] := by
      unfold lenDim Ents.lenOf
      rw [(Dict.mem_iff hm.wf.names).1 o1]
      simp only [MCoord.len, this, List.getD_cons_zero]
    rw [hlo2] at hlt
    exact hlt
  have hnil : ds ≠ [] := by intro he; rw [he] at hname; exact hatt _ hname
  have hlabel : ∀ i : List ℕ, label p name i = some (mc.arr.get (ds.map fun d => i.getD (p.cm.dims.idxOf d) 0)) := by
    intro i
    unfold label
    rw [hname]
    cases ds with
    | nil => exact absurd rfl hnil
    | cons d0 ds => rfl
  have hvalue : ∀ (f : String → ℕ), (∀ d, d ≠ dim → f d = lenDim p.cm d) → ∀ i, InRange (p.cm.dims.map f) i →
      ∀ v, label p name i = some (some v) → v ∈ vs ∧ val (ds.map fun d => i.getD (p.cm.dims.idxOf d) 0) = v := by
    intro f hf i hi v hlv
    have := hidx f hf i hi
    rw [hlabel] at hlv
    have e : val (ds.map fun d => i.getD (p.cm.dims.idxOf d) 0) = v := by
      rw [hval]; simp only [Option.some.injEq] at hlv; simp only [hlv, Option.getD_some]
    exact ⟨e ▸ hmem_vs _ this, e⟩
  have hqf : ∀ d, d ≠ dim → (if d = dim then n else lenDim p.cm d) = lenDim p.cm d := fun d h => if_neg h
  have hpos : ∀ i, InRange a.shape i → i.getD axis 0 < n := by
    intro i hi
    rw [hqs] at hi
    have := inRange_getD hi hdim
    simpa using this
  have hposp : ∀ i, InRange p.data.shape i → i.getD axis 0 < L := by
    intro i hi
    rw [hshape] at hi
    exact inRange_getD hi hdim
  obtain ⟨u1, ⟨x, u2, u3⟩, u4, u5, u6⟩ := setDim_spec hm hdim hc' hcm
  have hne : dim ≠ name := fun h => hnd (h ▸ hdim)
  have hcx : x = .one k c' := by
    rcases hn3 with ⟨_, rfl⟩ | ⟨e, rfl, _⟩ <;> cases u2 <;> rfl
  refine ⟨k, c, g, first, n, hc', hs, hdim, hne, ⟨ds, mc, hname, hds⟩, ?_, ?_, ?_, ?_, ?_, ?_, hs2⟩
  · refine ⟨u1, hqs, ?_, ?_, ?_, ?_, ?_, u6⟩
    · intro i hi
      simp only [hqs] at hi
      obtain ⟨v, hv⟩ := mapM_needValue hvs _ (hidx _ hqf i hi)
      exact ⟨v, by rw [hlabel, hv]⟩
    · intro i v hi hlv j hj
      have hi' := hi
      simp only [hqs] at hi'
      obtain ⟨hvv, hve⟩ := hvalue _ hqf i hi' v hlv
      have := k3 i (hpos i hi) j (by
        rw [hj]
        simp only [List.map_map]
        have : ((fun a => i.getD a 0) ∘ fun d => p.cm.dims.idxOf d) = fun d => i.getD (p.cm.dims.idxOf d) 0 := rfl
        rw [this, hve]
        rfl)
      show a.get i = _
      rw [this]
      have hmem : (List.map (fun a => i.getD a 0) (ds.map fun d => p.cm.dims.idxOf d)) ∈
          ((Nd.indices mc.arr.shape).map fun i => (i, g (val i))).map Prod.fst := by
        rw [List.map_map, List.map_map]
        simp only [Function.comp_def, List.map_id'] 
        exact hidx _ hqf i hi'
      simp only [hmem, true_and]
      rfl
    · intro k0 c0 hc0 i hi
      rw [hc'] at hc0; cases hc0
      rcases hn3 with ⟨h0, _⟩ | ⟨e, rfl, e1, e2, e3, e4⟩
      · have := hpos i hi; omega
      · unfold label
        simp only [u3, hcx]
        rw [labelAt_own (k := k) e1 (by rw [u1, e4]; exact hpos i hi), e2, e3]
        simp only [u1]
        unfold posAlong
        congr 2
        push_cast
        ring
    · intro k0 c0 hc0 hn0
      rw [hc'] at hc0; cases hc0
      rcases hn3 with ⟨h0, _⟩ | ⟨e, rfl, e1, e2, e3, e4⟩
      · exact absurd h0 hn0
      · exact ⟨e, by rw [u3, hcx], e2, e3, e4⟩
    · intro nm ds0 c0 h0 hdd hst i hi
      obtain ⟨x0, w1, w2, w3⟩ := u4 nm ds0 c0 (by
        rintro rfl
        rw [hc'] at h0; cases h0; simp at hdd) h0 (Or.inl hdd)
      unfold label
      simp only [w3, h0]
      cases ds0 with
      | nil => rfl
      | cons d0 ds0 => simp only [u1, w2.2 hst]
  · intro i v hi hlv
    rw [hshape] at hi
    obtain ⟨hvv, _⟩ := hvalue p.cm.ents.lenOf (fun _ _ => rfl) i hi v hlv
    exact hg1 v hvv
  · rintro rfl
    refine ⟨rfl, ?_⟩
    have : (n : ℤ) = L := by rw [← hsize]; simp [hfirst, hlast, AlignMode.limits]
    exact_mod_cast this
  · rintro rfl i v hi hlv
    have hp := hposp i hi
    rw [hshape] at hi
    obtain ⟨hvv, _⟩ := hvalue p.cm.ents.lenOf (fun _ _ => rfl) i hi v hlv
    have h1 := hlo' v hvv
    have h2 := hhi' v hvv
    have e1 : first = lo := rfl
    have e2 : last = top := rfl
    unfold posAlong
    rw [← haxis]
    omega
  · rintro rfl i v hi hlv
    have hp := hpos i hi
    simp only [hqs] at hi
    obtain ⟨hvv, _⟩ := hvalue _ hqf i hi v hlv
    have h1 := hlo' v hvv
    have h2 := hhi' v hvv
    have e1 : first = if 0 < top then top else 0 := rfl
    have e2 : last = if lo < 0 then lo else 0 := rfl
    unfold posAlong
    rw [← haxis]
    split_ifs at e1 e2 <;> omega
  · have hargs : ∀ nm a, Dict.get? [(dim, CArg.simple (.one k c'))] nm = some a → ∃ ds c, argOf nm a = some (ds, c) ∧ ds.Nodup ∧
        ∀ k r, c = .one k (.range r) → r.Valid := by
      intro nm a ha
      have : nm = dim ∧ a = .simple (.one k c') := by
        by_cases he : nm = dim
        · subst he
          simp [Dict.get?] at ha
          exact ⟨rfl, ha.symm⟩
        · rw [Dict.get?_eq_none.2 (by simpa [Dict.keys] using he)] at ha; cases ha
      obtain ⟨rfl, rfl⟩ := this
      refine ⟨_, _, rfl, by simp, ?_⟩
      intro k0 r hr
      cases hr
      rcases hn3 with ⟨_, h0⟩ | ⟨e, h0, e1, _⟩
      · cases h0
      · cases h0; exact e1
    exact update_regular hm (by simp [Dict.keys]) (by
      intro n hn
      simp only [Dict.keys, List.map_cons, List.map_nil, List.mem_singleton] at hn
      subst hn
      exact Dict.mem_keys.2 ⟨_, hc⟩) hargs hcm u1

end Verif
