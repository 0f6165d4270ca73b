import Verif.Proof.Nd
import Verif.Proof.Groups
import Verif.Props.CoordManager
/-! # Patches: indexing, selecting, ordering, transposing, renaming (C15, C17, C18, C19) -/
namespace Verif
open Spec

/-- **C15.** `_apply_union_indexers` with any mixture of slices, integer arrays and boolean arrays picks along each axis
the elements that axis' own indexer picks, whatever the other axes do; if one of them is invalid, it raises. -/
theorem C15_union {α} (xs : List Indexer) (a : Nd α) (hl : xs.length = a.shape.length) :
    (∀ rs : List (List ℕ), rs.length = xs.length →
      (∀ (k : ℕ) x n r, xs[k]? = some x → a.shape[k]? = some n → rs[k]? = some r → x.apply (List.range n) = .ok r) →
      ∃ b, applyUnion xs a = .ok b ∧ b.shape = rs.map List.length ∧
        ∀ i, InRange b.shape i → b.get i = a.get (List.zipWith (fun r k => r.getD k 0) rs i)) ∧
    ((∃ (k : ℕ) (x : Indexer) (n : ℕ) (e : Err), xs[k]? = some x ∧ a.shape[k]? = some n ∧ x.apply (List.range n) = .error e) →
      ∃ e, applyUnion xs a = .error e) := by
  obtain ⟨h1, h2⟩ := applyUnion_spec xs a hl.symm
  constructor
  · intro rs hr hp
    refine h1 rs ?_
    generalize a.shape = sh at hl hp ⊢
    clear h1 h2
    induction xs generalizing sh rs with
    | nil => cases rs with
      | nil => rfl
      | cons r rs => simp at hr
    | cons x xs ih =>
      cases sh with
      | nil => simp at hl
      | cons n sh =>
        cases rs with
        | nil => simp at hr
        | cons r rs =>
          rw [List.zip_cons_cons, List.mapM_cons]
          have e1 : x.positions n = .ok r := hp 0 x n r rfl rfl rfl
          rw [e1, ih rs (by simpa using hr) sh (by simpa using hl) fun k y m s h1 h2 h3 => hp (k + 1) y m s h1 h2 h3]
          rfl
  · rintro ⟨k, x, n, e, hx, hn, he⟩
    cases hm : (xs.zip a.shape).mapM (fun p => p.1.positions p.2) with
    | error e' => exact ⟨e', h2 e' hm⟩
    | ok rs =>
      exfalso
      have : (x, n) ∈ xs.zip a.shape := by
        apply List.mem_of_getElem? (i := k)
        rw [List.getElem?_zip_eq_some]
        exact ⟨hx, hn⟩
      obtain ⟨y, _, hy⟩ := mapM_mem hm (x, n) this
      have : x.positions n = .ok y := hy
      unfold Indexer.positions at this
      rw [he] at this
      cases this
example : (applyUnion [.ints [2, 0], .slice ⟨none, none, some (-1)⟩, .mask [true, false, true]]
    (⟨[3, 2, 3], fun i => i⟩ : Nd (List ℕ))).map (fun b => (b.shape, b.get [1, 0, 1])) = .ok ([2, 2, 2], [0, 1, 2]) := by
  decide +kernel

/-- **C17.** A successful `Patch.select` treats its keywords group by group, every keyword exactly once, no two of a group
asking about the same dimension. Each group keeps, along every dimension, exactly the positions asked for; every remaining
element keeps its value and all its labels (on every coordinate whose remaining labels can be stored unaltered,
see C14), and coordinates and data stay in step. -/
theorem C17_select_partial {α} (argsort : List ℚ → List ℕ) (ha : IsArgsort argsort) (p q : PatchM α) (hm : Regular p.cm)
    (hd : p.cm.dims ≠ []) (hsh : p.cm.shape = p.data.shape) (kw : Dict CQuery) (hn : ∀ r ∈ kw, NonNegSamples r.2)
    (h : p.select argsort kw = .ok q) :
    (∃ gs, gs.flatten.Perm kw ∧ SelectedBy p gs q) ∧ Regular q.cm ∧ q.cm.shape = q.data.shape := by
  unfold PatchM.select at h
  split_ifs at h with hk
  have hall : (kw.filter fun p' => p.cm.ents.keys.contains p'.1) = kw := by
    rw [List.filter_eq_self]
    intro r hr
    rw [Bool.not_eq_true, List.any_eq_false] at hk
    simpa using hk r hr
  simp only [bind, Except.bind] at h
  split at h
  · cases h
  · rename_i r hr
    have hp := groups_perm p.cm kw
    rw [hall] at hp
    obtain ⟨h1, h2, h3⟩ := chain_spec ha _ p r hm hd hsh (fun g hg r hr => hn r (hp.mem_iff.1 (List.mem_flatten.2 ⟨g, hg, hr⟩)))
      (groups_onePerDim p.cm kw) hr
    unfold PatchM.new at h
    rw [if_pos h3] at h
    cases h
    exact ⟨⟨_, hp, h1⟩, h2, h3⟩

/-- **C17.** The same for `Patch.order`, where names that are not coordinates are ignored. -/
theorem C17_order_partial {α} (argsort : List ℚ → List ℕ) (ha : IsArgsort argsort) (p q : PatchM α) (hm : Regular p.cm)
    (hd : p.cm.dims ≠ []) (hsh : p.cm.shape = p.data.shape) (kw : Dict CQuery) (hn : ∀ r ∈ kw, NonNegSamples r.2)
    (h : p.order argsort kw = .ok q) :
    (∃ gs, gs.flatten.Perm (kw.filter fun r => r.1 ∈ p.cm.ents.map Prod.fst) ∧ SelectedBy p gs q) ∧
      Regular q.cm ∧ q.cm.shape = q.data.shape := by
  unfold PatchM.order at h
  simp only [bind, Except.bind] at h
  split at h
  · cases h
  · rename_i r hr
    have hp := groups_perm p.cm kw
    obtain ⟨h1, h2, h3⟩ := chain_spec ha _ p r hm hd hsh
      (fun g hg r hr => hn r (List.mem_of_mem_filter (hp.mem_iff.1 (List.mem_flatten.2 ⟨g, hg, hr⟩))))
      (groups_onePerDim p.cm kw) hr
    unfold PatchM.new at h
    rw [if_pos h3] at h
    cases h
    refine ⟨⟨_, ?_, h1⟩, h2, h3⟩
    simpa [Dict.keys] using hp

/-- The example manager with data. -/
def exPatch : PatchM ℕ := ⟨exCM, [2, 4], fun i => 10 * i.getD 0 0 + i.getD 1 0⟩

theorem exCM_regular : Regular exCM := by
  refine ⟨exCM_wf, exCM_distinct, ?_, ?_, ?_⟩
  · intro name ds c h
    simp only [exCM, List.mem_cons, Prod.mk.injEq, List.not_mem_nil, or_false] at h
    rcases h with ⟨_, rfl, _⟩ | ⟨_, rfl, _⟩ | ⟨_, rfl, _⟩ | ⟨_, rfl, _⟩ <;> decide
  · intro name ds k c h
    simp only [exCM, List.mem_cons, Prod.mk.injEq, List.not_mem_nil, or_false] at h
    rcases h with ⟨_, _, h⟩ | ⟨_, _, h⟩ | ⟨_, _, h⟩ | ⟨_, _, h⟩ <;> cases h
    · simp [Coord.Wf]
    · exact exUp_built.valid
    · exact ⟨Or.inr (by decide +kernel), by simp⟩
  · have : exCM.ents.keys.all (fun n => matchesPrefixSuffix exCM.dims n == false) = true := by decide +kernel
    rw [List.all_eq_true] at this
    intro n hn
    simpa using this n hn

example : Regular exPatch.cm ∧ exPatch.cm.dims ≠ [] ∧ exPatch.cm.shape = exPatch.data.shape ∧
    (exPatch.select stableArgsort [("depth", .between (some 2) (some 4)), ("distance", .slice (.pair (some 1) none)),
        ("time", .values [1])]).map
      (fun q => (q.data.shape, q.data.get [0, 0], (label q "depth" [0, 0]), label q "lat" [0, 0])) =
      .ok ([1, 1], 12, some (some 3), some (some 12)) ∧
    (exPatch.order stableArgsort [("depth", .order [1, 9]), ("nothing", .order [])]).map (fun q => (q.data.shape, q.data.get [1, 0])) =
      .ok ([2, 2], 13) :=
  ⟨exCM_regular, by decide, by decide +kernel, by decide +kernel, by decide +kernel⟩

/-- **C17 violated** (negative sample numbers): ordering by the last two samples of a dimension raises, because the
coordinate has two samples and the data none (see `C15_negative_violated`). -/
theorem C17_negative_order_violated :
    (exPatch.order stableArgsort [("distance", .orderSamples [-2, -1])]).map (fun q => q.data.shape) = .error .coordError ∧
    (exPatch.order stableArgsort [("distance", .orderSamples [2, 3])]).map (fun q => q.data.shape) = .ok [2, 2] := by
  constructor <;> decide +kernel

/-- A patch with a coordinate called `time_minute`. -/
def exMinute : PatchM ℕ := ⟨⟨["time"],
  [("time", ["time"], .one .int (.arr [3, 1])), ("time_minute", ["time"], .one .int (.arr [0, 5]))]⟩, [2], fun i => i.getD 0 0⟩

/-- **C17 violated** (coordinate names): a coordinate whose name begins like a dimension and contains `_min` (here
`time_minute`) makes every selection raise, because it is mistaken for a new limit of the dimension. -/
theorem C17_name_violated : WellFormed exMinute.cm ∧ exMinute.cm.shape = exMinute.data.shape ∧
    (exMinute.select stableArgsort [("time", .values [1])]).map (fun q => q.data.shape) = .error .typeError := by
  refine ⟨CM.mk?_wf (m := exMinute.cm) (if_pos ?_) ?_, ?_, ?_⟩ <;> decide +kernel

/-- A patch with a square coordinate attached twice to the same dimension. -/
def exTwice : PatchM ℕ := ⟨⟨["x"], [("x", ["x"], .one .int (.arr [3, 1])),
  ("covariance", ["x", "x"], .nd ⟨[2, 2], fun i => some (i.getD 0 0)⟩)]⟩, [2], fun i => i.getD 0 0⟩

/-- **C17 violated** (coordinate attached twice): only its first axis is cut, so the selection raises. -/
theorem C17_twice_violated : WellFormed exTwice.cm ∧ exTwice.cm.shape = exTwice.data.shape ∧
    (exTwice.select stableArgsort [("x", .values [1])]).map (fun q => q.data.shape) = .error .coordError := by
  refine ⟨CM.mk?_wf (m := exTwice.cm) (if_pos ?_) ?_, ?_, ?_⟩ <;> decide +kernel

/-- A patch with an uneven dimension and a coordinate in another order. -/
def exUneven : PatchM ℕ := ⟨⟨["x"], [("x", ["x"], .one .int (.mono [1, 20, 40])),
  ("y", ["x"], .one .int (.arr [3, 1, 2]))]⟩, [3], fun i => i.getD 0 0⟩

/-- Does the manager claim that this coordinate is sorted? -/
def claimsSorted (m : CM) (name : String) : Bool := !m.needsSort false name

/-- **C17 violated** (after sorting by an attached coordinate): `sort_coords("y")` leaves the dimension's coordinate in the
class of strictly monotonic coordinates although its labels are now 20, 40, 1; it still claims to be sorted, and later
selections search it as if it were. -/
theorem C17_sort_class_violated : Regular exUneven.cm ∧ exUneven.cm.shape = exUneven.data.shape ∧
    ((exUneven.sortCoords stableArgsort ["y"] false).map fun q => (label q "x" [0], label q "x" [1], label q "x" [2])) =
      .ok (some (some 20), some (some 40), some (some 1)) ∧
    ((exUneven.sortCoords stableArgsort ["y"] false).map fun q => claimsSorted q.cm "x") = .ok true := by
  refine ⟨⟨CM.mk?_wf (m := exUneven.cm) (if_pos ?_) ?_, by unfold DistinctDims; decide, ?_, ?_, ?_⟩, ?_, ?_, ?_⟩
  · decide +kernel
  · decide +kernel
  · intro name ds c h
    simp only [exUneven, List.mem_cons, Prod.mk.injEq, List.not_mem_nil, or_false] at h
    rcases h with ⟨_, rfl, _⟩ | ⟨_, rfl, _⟩ <;> decide
  · intro name ds k c h
    simp only [exUneven, List.mem_cons, Prod.mk.injEq, List.not_mem_nil, or_false] at h
    rcases h with ⟨_, _, h⟩ | ⟨_, _, h⟩ <;> cases h
    · exact ⟨Or.inl (by decide +kernel), by simp⟩
    · simp [Coord.Wf]
  · have : exUneven.cm.ents.keys.all (fun n => matchesPrefixSuffix exUneven.cm.dims n == false) = true := by decide +kernel
    rw [List.all_eq_true] at this
    intro n hn
    simpa using this n hn
  · decide +kernel
  · decide +kernel
  · decide +kernel

end Verif
