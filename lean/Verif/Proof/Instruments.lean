import Verif.Proof.ProdML
import Verif.Spec.Instruments
import Verif.Proof.Reader
import Verif.Props.CoordLimits
/-! # Lemmas: files of several instruments -/
namespace Verif
open Spec

theorem nanos_pos {s : ℚ} (h : 1 / 2000000000 < s) : 0 < nanos s := by
  have h1 := rint_bounds (s * 1000000000)
  have h2 : (1 : ℚ) / 2 < s * 1000000000 := by linarith
  have h3 : (0 : ℚ) < rint (s * 1000000000) := by linarith [h1.1, h1.2]
  exact h3

theorem nanos_rate {r : ℚ} (h : 0 < r ∧ r < 2000000000) : 0 < nanos (1 / r) :=
  nanos_pos (one_div_lt_one_div_of_lt h.1 h.2)

theorem spanned_exact {a s b : ℚ} {n : ℕ} (hs : s ≠ 0) (hn : 1 ≤ n) (hb : b = a + s * n) (tl : Bool) :
    spanned tl a b s n = .ok (.range ⟨a, a + s * n, s, n⟩) := by
  unfold spanned
  rw [hb, mkRange_canonical hs hn]
  simp only [Except.bind]
  unfold RangeCoord.changeLength
  simp only
  rw [if_neg (by omega), if_pos trivial]

theorem range_label {a s : ℚ} {n : ℕ} (hs : s ≠ 0) (hn : 1 ≤ n) {i : ℕ} (hi : i < n) :
    (Coord.range ⟨a, a + s * n, s, n⟩).labels.getD i none = some (a + i * s) := by
  have hv := canonical_values (a := a) hs hn
  show ((RangeCoord.values _).map some).getD i none = _
  rw [hv, List.getD_eq_getElem?_getD, List.getElem?_map, List.getElem?_map, List.getElem?_range hi]
  rfl

/-- A coordinate that can be asked, with the labels `T`. -/
structure Asks (k : Kind) (c : Coord) (n : ℕ) (T : ℕ → ℚ) : Prop where
  canon : (MCoord.one k c).canon = .ok (.one k c)
  wf : c.Wf
  length : c.length = n
  class' : (∃ r, c = .range r) ∨ (∃ l, c = .mono l ∧ k ≠ .float)
  labels : ∀ i < n, c.labels.getD i none = some (T i)

theorem asks_range (k : Kind) {a s : ℚ} {n : ℕ} (hs : s ≠ 0) (hn : 1 ≤ n) : Asks k (.range ⟨a, a + s * n, s, n⟩) n fun i => a + i * s where
  canon := by cases k <;> rfl
  wf := valid_canonical hs hn
  length := rfl
  class' := Or.inl ⟨_, rfl⟩
  labels := fun _ hi => range_label hs hn hi

variable {α : Type} {data : Nd α} {ds : List String} {n m : ℕ} {T X : ℕ → ℚ} {t x : Coord}

theorem two_cases (hds : ds = ["time", "distance"] ∨ ds = ["distance", "time"]) {d : String} (hd : d ∈ ds) : d = "time" ∨ d = "distance" := by
  rcases hds with rfl | rfl <;> simp only [List.mem_cons, List.not_mem_nil, or_false] at hd
  · exact hd
  · exact hd.symm

theorem two_labels (hds : ds = ["time", "distance"] ∨ ds = ["distance", "time"]) (ht : Asks .time t n T) (hx : Asks .float x m X) :
    Labels (timeDistance t x) ds fun d => if d = "time" then n else m where
  nodup := by rcases hds with rfl | rfl <;> decide
  names := by show ["time", "distance"].Nodup; decide
  keys := by
    intro d
    show d ∈ ["time", "distance"] ↔ _
    rcases hds with rfl | rfl
    · rfl
    · simp only [List.mem_cons, List.not_mem_nil, or_false]
      exact or_comm
  plain := by rcases hds with rfl | rfl <;> decide
  some_dim := by rcases hds with rfl | rfl <;> simp
  good := by
    intro d hd
    rcases two_cases hds hd with rfl | rfl
    · exact ⟨.time, t, rfl, ht.canon, ht.wf, ht.length⟩
    · exact ⟨.float, x, rfl, hx.canon, hx.wf, hx.length⟩

theorem two_class (hds : ds = ["time", "distance"] ∨ ds = ["distance", "time"]) (ht : Asks .time t n T) (hx : Asks .float x m X) :
    ∀ d ∈ ds, ∀ k c, Dict.get? (timeDistance t x) d = some (.one k c) → (∃ r, c = .range r) ∨ (∃ l, c = .mono l ∧ k ≠ .float) := by
  intro d hd k c hc
  rcases two_cases hds hd with rfl | rfl
  · have : some (MCoord.one Kind.time t) = some (MCoord.one k c) := hc
    cases this
    exact ht.class'
  · have : some (MCoord.one Kind.float x) = some (MCoord.one k c) := hc
    cases this
    exact hx.class'

theorem two_gives (hds : ds = ["time", "distance"] ∨ ds = ["distance", "time"]) (ht : Asks .time t n T) (hx : Asks .float x m X) :
    Gives (timeDistance t x) ds (fun d => if d = "time" then n else m) fun d k => if d = "time" then T k else X k := by
  intro d hd k c hc i hi
  rcases two_cases hds hd with rfl | rfl
  · have : some (MCoord.one Kind.time t) = some (MCoord.one k c) := hc
    cases this
    exact ht.labels i hi
  · have : some (MCoord.one Kind.float x) = some (MCoord.one k c) := hc
    cases this
    exact hx.labels i hi

theorem two_whole (argsort : List ℚ → List ℕ) (hds : ds = ["time", "distance"] ∨ ds = ["distance", "time"]) (ht : Asks .time t n T) (hx : Asks .float x m X)
    (hsh : data.shape = ds.map fun d => if d = "time" then n else m) (hn : 1 ≤ n ∧ 1 ≤ m) :
    ∃ q, readLabelled argsort (timeDistance t x) ds data none = .ok (some q) ∧ HoldsArray data ds (fun d k => if d = "time" then T k else X k) q :=
  readLabelled_whole argsort (two_labels hds ht hx) hsh (by intro d _; show 0 < if d = "time" then n else m; split_ifs <;> omega) (two_gives hds ht hx)

/-- Queries about time and distance, in any order. -/
theorem two_part {argsort : List ℚ → List ℕ} (ha : IsArgsort argsort) (hds : ds = ["time", "distance"] ∨ ds = ["distance", "time"]) (ht : Asks .time t n T)
    (hx : Asks .float x m X) (hsh : data.shape = ds.map fun d => if d = "time" then n else m) (a b : Option ℚ × Option ℚ) {kw : Dict CQuery}
    (hk : kw.Perm (bothLimits a b)) :
    ∃ w gs q, HoldsArray data ds (fun d k => if d = "time" then T k else X k) w ∧ gs.flatten.Perm (bothLimits a b) ∧ SelectedBy w gs q ∧
      readLabelled argsort (timeDistance t x) ds data (some kw) = .ok (if q.data.shape.prod = 0 then none else some q) := by
  have hmem : ∀ r ∈ kw, r = ("time", CQuery.between a.1 a.2) ∨ r = ("distance", CQuery.between b.1 b.2) := by
    intro r hr
    have := hk.mem_iff.1 hr
    simpa [bothLimits] using this
  obtain ⟨o, ho⟩ := readLabelled_succeeds (data := data) ha (two_labels hds ht hx) hsh (two_class hds ht hx) (kw := kw)
    (by rw [(hk.map Prod.fst).nodup_iff]; show ["time", "distance"].Nodup; decide)
    (by intro r hr; rcases hmem r hr with rfl | rfl <;> trivial)
  obtain ⟨w, gs, q, g1, g2, g3, g4⟩ := readLabelled_part ha (two_labels hds ht hx) hsh (two_gives hds ht hx) (by
    intro r hr; rcases hmem r hr with rfl | rfl <;> trivial) ho
  refine ⟨w, gs, q, g1, ?_, g3, by rw [ho, g4]⟩
  refine g2.trans ((List.Perm.of_eq ?_).trans hk)
  rw [List.filter_eq_self]
  intro r hr
  rcases hds with rfl | rfl <;> rcases hmem r hr with rfl | rfl <;> rfl

theorem bothOf_some {time distance : Limits} (h : time.isSome ∨ distance.isSome) :
    bothOf time distance = some (bothLimits (time.getD (none, none)) (distance.getD (none, none))) := by
  unfold bothOf
  rw [if_pos (by rw [Bool.or_eq_true]; exact h)]
  rfl

/-- From coordinates to reading. -/
theorem reads_two {argsort : List ℚ → List ℕ} (ha : IsArgsort argsort) {read : Limits → Limits → Except Err (Option (PatchM α))}
    (hr : ∀ a b, read a b = readLabelled argsort (timeDistance t x) ds data (bothOf a b)) (hds : ds = ["time", "distance"] ∨ ds = ["distance", "time"])
    (ht : Asks .time t n T) (hx : Asks .float x m X) (hsh : data.shape = ds.map fun d => if d = "time" then n else m) (hn : 1 ≤ n ∧ 1 ≤ m) :
    ReadsWhole read data ds (fun d k => if d = "time" then T k else X k) ∧
      ∀ time distance : Limits, time.isSome ∨ distance.isSome → ReadsPart read data ds (fun d k => if d = "time" then T k else X k) time distance := by
  constructor
  · obtain ⟨q, h1, h2⟩ := two_whole argsort hds ht hx hsh hn
    exact ⟨q, by rw [hr]; exact h1, h2⟩
  · intro time distance h
    obtain ⟨w, gs, q, h1, h2, h3, h4⟩ := two_part ha hds ht hx hsh (time.getD (none, none)) (distance.getD (none, none)) (List.Perm.refl _)
    exact ⟨w, gs, q, h1, h2, h3, by rw [hr, bothOf_some h]; exact h4⟩

/-- Times that can be stored. -/
theorem asks_times {l : List ℚ} (h2 : 2 ≤ l.length) (hp : l.Pairwise (· < ·)) (hs : Storable l) :
    ∃ c, getCoordData .time l = .ok c ∧ Asks .time c l.length fun i => l.getD i 0 := by
  obtain ⟨d, g1, g2, g3⟩ := C14_represents_partial .time _ hs
  refine ⟨d, g1, getCoordData_fixed g1, getCoordData_wf g1, g3, ?_, ?_⟩
  · exact (stored_class h2 (Or.inl hp) hs g1).imp id fun ⟨v, hv⟩ => ⟨v, hv, by decide⟩
  · intro i hi
    rw [g2, List.getD_eq_getElem?_getD, List.getElem?_map, List.getD_eq_getElem?_getD, List.getElem?_eq_getElem hi]
    rfl

theorem pairwise_head_le : ∀ {l : List ℚ}, l.Pairwise (· < ·) → ∀ x ∈ l, l.headD 0 ≤ x ∧ x ≤ l.getLastD 0
  | [], _, x, hx => by simp at hx
  | [a], _, x, hx => by simp at hx; subst hx; simp
  | a :: b :: r, hp, x, hx => by
    have ih := pairwise_head_le (l := b :: r) (List.pairwise_cons.1 hp).2
    have e : (a :: b :: r).getLastD 0 = (b :: r).getLastD 0 := by simp [List.getLastD]
    rw [e]
    simp only [List.headD_cons] at ih ⊢
    rcases List.mem_cons.1 hx with rfl | hx
    · have h1 := (List.pairwise_cons.1 hp).1 b (by simp)
      exact ⟨le_refl _, by linarith [(ih b (by simp)).2]⟩
    · exact ⟨((List.pairwise_cons.1 hp).1 x hx).le, (ih x hx).2⟩

/-- Snapping ascending times that can be stored. -/
theorem snap_times {l : List ℚ} (h2 : 2 ≤ l.length) (hz : ∀ x ∈ l, ∃ z : ℤ, x = z) (hp : l.Pairwise (· < ·)) (hs : Storable l) :
    0 < (rint (spacing l) : ℚ) ∧ ((getCoordData .time l).map (MCoord.one .time)).bind snapCoord =
      .ok (.one .time (.range ⟨l.headD 0, l.headD 0 + rint (spacing l) * l.length, rint (spacing l), l.length⟩)) := by
  have hne : l ≠ [] := by rintro rfl; simp at h2
  have hn : (0 : ℚ) < (l.length : ℚ) - 1 := by
    have : (2 : ℚ) ≤ l.length := by exact_mod_cast h2
    linarith
  have hspread := ints_spread hz hp hne
  have hsp : 1 ≤ spacing l := by unfold spacing; rw [le_div_iff₀ hn]; linarith
  have hpos : 0 < (rint (spacing l) : ℚ) := by
    have := (rint_bounds (spacing l)).1
    linarith
  refine ⟨hpos, ?_⟩
  by_cases hprog : ∃ s d n, d ≠ 0 ∧ l = progression s d n
  · obtain ⟨s, d, n, hd, rfl⟩ := hprog
    rw [progression_length] at h2 hn
    rw [getCoordData_progression _ _ _ _ hd h2]
    have hhead : (progression s d n).headD 0 = s := by
      obtain ⟨m, rfl⟩ : ∃ m, n = m + 1 := ⟨n - 1, by omega⟩
      unfold progression
      rw [List.range_succ_eq_map]
      simp
    have hlast : (progression s d n).getLastD 0 = s + ((n : ℚ) - 1) * d := by
      obtain ⟨m, rfl⟩ : ∃ m, n = m + 1 := ⟨n - 1, by omega⟩
      unfold progression
      rw [List.range_succ, List.map_append, List.map_singleton, List.getLastD_eq_getLast?, List.getLast?_append]
      simp
    have hspd : spacing (progression s d n) = d := by
      unfold spacing
      rw [hhead, hlast, progression_length]
      field_simp
      ring
    obtain ⟨z0, hz0⟩ := hz s (by unfold progression; rw [List.mem_map]; exact ⟨0, by simp; omega, by simp⟩)
    obtain ⟨z1, hz1⟩ := hz (s + d) (by unfold progression; rw [List.mem_map]; exact ⟨1, by simp; omega, by simp⟩)
    have hdz : (rint d : ℚ) = d := by
      have : d = ((z1 - z0 : ℤ) : ℚ) := by push_cast; rw [← hz0, ← hz1]; ring
      rw [this, rint_int]
    rw [hhead, hspd, hdz, progression_length]
    rfl
  · have hs' : ¬ StrictMono' l ∨ ¬ NearlyEven l := by
      rcases hs with hs | hs | hs
      · omega
      · exact absurd hs hprog
      · exact hs
    rw [getCoordData_stored h2 hs', if_pos ((strict_iff l).2 (Or.inl hp))]
    have e1 : l.foldl min (l.getD 0 0) = l.headD 0 := by
      have h := foldl_min_isMin hne
      have hm : l.headD 0 ∈ l := by
        match l, hne with
        | a :: r, _ => simp
      exact le_antisymm (h.2 _ hm) (pairwise_head_le hp _ h.1).1
    have e2 : l.foldl max (l.getD 0 0) = l.getLastD 0 := by
      have h := foldl_max_isMax hne
      have hm : l.getLastD 0 ∈ l := by
        rw [List.getLastD_eq_getLast?, List.getLast?_eq_some_getLast hne]
        exact List.getLast_mem hne
      exact le_antisymm (pairwise_head_le hp _ h.1).2 (h.2 _ hm)
    have hlen1 : l.length ≠ 1 := by omega
    have hrev : (Coord.mono l).isReverse = false := isReverse_of_inc hp
    have hsnap : ArrCoord.snap .time false l = .ok (.range ⟨l.headD 0, l.headD 0 + rint (spacing l) * l.length, rint (spacing l), l.length⟩) := by
      unfold ArrCoord.snap
      have hsd : (l.getLastD 0 - l.headD 0) / ((l.length : ℚ) - 1) = spacing l := rfl
      simp only [e1, e2, hlen1, if_false, if_true, hne, hsd, ne_eq, not_false_eq_true, hpos, not_true, and_false, decide_true, Bool.false_eq_true]
      refine range_of_length hpos (by omega) ?_ true (Or.inl rfl)
      have := (pairwise_head_le hp (l.getLastD 0) (by
        rw [List.getLastD_eq_getLast?, List.getLast?_eq_some_getLast hne]
        exact List.getLast_mem hne)).1
      linarith
    show (ArrCoord.snap .time (Coord.mono l).isReverse l).map (MCoord.one .time) = _
    rw [hrev, hsnap]
    rfl

theorem getCoordParts_even {a s : ℚ} {n : ℕ} (hs : s ≠ 0) (hn : 1 ≤ n) : getCoordParts false (some a) none (some s) (some (n : ℤ)) = .ok (.range ⟨a, a + s * n, s, n⟩) := by
  unfold getCoordParts mkRangeParts
  simp only [Int.cast_natCast, mkRange_canonical hs hn]

theorem mkRange_cases {a b s : ℚ} (hs : s ≠ 0) : (∃ e, mkRange a b s = .error e) ∨ ∃ n : ℕ, 1 ≤ n ∧ mkRange a b s = .ok ⟨a, a + s * n, s, n⟩ := by
  rw [mkRange_eq _ _ _ hs]
  simp only
  split_ifs with h
  · refine Or.inr ⟨⌈roundDec 1 ((b - a) / s)⌉.toNat, by omega, ?_⟩
    have : ((⌈roundDec 1 ((b - a) / s)⌉.toNat : ℤ) : ℚ) = (⌈roundDec 1 ((b - a) / s)⌉ : ℚ) := by rw [Int.toNat_of_nonneg (by omega)]
    rw [Int.cast_natCast] at this
    rw [this]
  · exact Or.inl ⟨_, rfl⟩

/-- Coordinates which do not fit the data. -/
theorem two_misfit (argsort : List ℚ → List ℕ) (hds : ds = ["time", "distance"] ∨ ds = ["distance", "time"]) (ht : Asks .time t n T) (hx : Asks .float x m X)
    (hsh : data.shape ≠ ds.map fun d => if d = "time" then n else m) (hne : data.shape.prod ≠ 0) :
    readLabelled argsort (timeDistance t x) ds data none = .error .coordError := by
  obtain ⟨c, h1, h2, h3, h4, h5, h6, h7⟩ := wholeCM_spec (two_labels hds ht hx)
  unfold readLabelled
  rw [h1]
  show nonEmpty (c, data) = _
  unfold nonEmpty
  rw [if_neg hne]
  unfold PatchM.new
  rw [if_neg (by rw [h4]; exact fun h => hsh h.symm)]
  rfl

/-- How many labels `get_coord` makes. -/
theorem mkRange_length {a b s : ℚ} (hs : 0 < s) {n : ℕ} (hn : 1 ≤ n) :
    mkRange a b s = .ok ⟨a, a + s * n, s, n⟩ ↔ (n - 1 + 1 / 20) * s < b - a ∧ b - a ≤ (n + 1 / 20) * s := by
  rw [mkRange_eq _ _ _ hs.ne']
  have key : ⌈roundDec 1 ((b - a) / s)⌉ = (n : ℤ) ↔ (n - 1 + 1 / 20) * s < b - a ∧ b - a ≤ (n + 1 / 20) * s := by
    rw [Int.ceil_eq_iff, roundDec_le_int (k := 1) (by norm_num)]
    have : ((n : ℤ) : ℚ) - 1 < roundDec 1 ((b - a) / s) ↔ ¬ (b - a) / s ≤ ((n - 1 : ℤ) : ℚ) + 1 / (2 * 10 ^ 1) := by
      rw [← roundDec_le_int (k := 1) (by norm_num)]
      push_cast
      rw [not_le]
    rw [this, not_le, lt_div_iff₀ hs, div_le_iff₀ hs]
    push_cast
    norm_num
  rw [← key]
  simp only
  constructor
  · intro h
    split_ifs at h with h1
    simp only [Except.ok.injEq, RangeCoord.mk.injEq] at h
    have := h.2.2.2
    omega
  · intro h
    rw [h, if_pos (by omega)]
    simp

end Verif
