import Verif.Proof.Relative
import Verif.Props.Time
/-!
# C84: limits of selections

`patch.select(time=(1, -2), relative=True)`, `patch.select(distance=(20 * ft, 100 * ft))`, `patch.select(time=(10 * percent, None))`: what numbers, times,
quantities and percentages mean as limits, and that the selection is the one with those limits.
-/
namespace Verif
open Spec

/-- The limit that a value describes: seconds for coordinates of times, quantities in whatever units, percentages of the extent of the coordinate, each counted from
the least label (or from the greatest, if negative) where that is asked for, and no limit if there is none. Every sensible value describes one. What is missing:
offsets in units with another zero than those of the coordinate (`C84_zero_violated`). -/
theorem C84_limit_partial (c : UCoord) (hc : c.coord.Wf) (hu : ∀ u, c.units = some u → Usable u) (relative : Bool) (a : SValue)
    (hz : relative = true → SameZero c a) :
    (∀ x, c.limit relative a = .ok x → LimitOf c relative a x) ∧
    (c.coord.vals ≠ [] → Sensible c a → ∃ x, c.limit relative a = .ok x) :=
  ⟨fun _ h => limit_spec hc hu hz h, fun hl ha => limit_total hl relative ha⟩

/-- Whole seconds are exact, from the start, from the end, and since 1970. -/
theorem C84_seconds (c : UCoord) (hk : c.kind = .time) (hc : c.coord.Wf) (lo hi : ℚ) (hlo : IsMin c.coord.vals lo) (hhi : IsMax c.coord.vals hi) (n : ℤ)
    (hn : |n| * 5 ^ 9 < 2 ^ 53) :
    (0 ≤ n → c.limit true (.num (.int n)) = .ok (some (lo + n * 10 ^ 9))) ∧
    (n < 0 → c.limit true (.num (.int n)) = .ok (some (hi + n * 10 ^ 9))) ∧
    c.limit false (.num (.int n)) = .ok (some (n * 10 ^ 9)) := by
  have hl : c.coord.vals ≠ [] := fun e => by rw [e] at hlo; simpa using hlo.1
  obtain ⟨lo', h1⟩ := lo_total hl
  obtain ⟨hi', h2⟩ := hi_total hl
  obtain rfl : lo' = lo := isMin_unique (lo_spec hc h1) hlo
  obtain rfl : hi' = hi := le_antisymm (hhi.2 _ (hi_spec hc h2).1) ((hi_spec hc h2).2 _ hhi.1)
  obtain ⟨e1, e2, _⟩ := C38_whole_seconds n hn
  have key : ∀ r, c.limit r (.num (.int n)) = c.compatible (.num (.int n), r) := by
    intro r
    unfold UCoord.limit
    cases hcc : c.coord with
    | part n => rw [hcc] at hl; exact absurd rfl hl
    | _ => rfl
  have ho : c.offset (.num (.int n)) = .ok ((n * 10 ^ 9 : ℤ) : ℚ) := by simp only [UCoord.offset, if_pos hk, e2]
  have hr : c.limit true (.num (.int n)) = .ok (some (if (0 : ℚ) ≤ ((n * 10 ^ 9 : ℤ) : ℚ) then lo' + ((n * 10 ^ 9 : ℤ) : ℚ) else hi' + ((n * 10 ^ 9 : ℤ) : ℚ))) := by
    rw [key]
    simp only [UCoord.compatible, ho, UCoord.relativeTo, h1, h2, bind, Except.bind]
    rfl
  have hs : (0 : ℚ) ≤ ((n * 10 ^ 9 : ℤ) : ℚ) ↔ 0 ≤ n := by
    rw [Int.cast_nonneg_iff]
    constructor
    · intro h; omega
    · intro h; positivity
  refine ⟨fun h => ?_, fun h => ?_, ?_⟩
  · rw [hr, if_pos (hs.2 h)]; push_cast; rfl
  · rw [hr, if_neg (fun e => absurd (hs.1 e) (by omega))]; push_cast; rfl
  · rw [key]
    simp only [UCoord.compatible, UCoord.absolute, if_pos hk, e1, Except.map]
    push_cast; rfl

/-- A selection, by whatever values, is the selection by the labels that the values stand for: keywords about the same dimension one after the other. What is
missing: as in C17 and `C84_limit_partial`, and percentages of coordinates sharing a dimension. -/
theorem C84_select_partial {α} (argsort : List ℚ → List ℕ) (ha : IsArgsort argsort) (units : String → Option (Quant ℚ)) (hu : ∀ n u, units n = some u → Usable u)
    (p q : PatchM α) (hm : Regular p.cm) (hd : p.cm.dims ≠ []) (hsh : p.cm.shape = p.data.shape) (relative : Bool) (kw : Dict Ask)
    (hz : ZerosAgree p.cm units relative kw) (h : p.selectAsked argsort units relative kw = .ok q) :
    ∃ kw', SaysSame p.cm units relative kw kw' ∧ (∃ gs, gs.flatten.Perm kw' ∧ SelectedBy p gs q) ∧ Regular q.cm ∧ q.cm.shape = q.data.shape := by
  unfold PatchM.selectAsked at h
  split_ifs at h with h1 h2 h3
  obtain ⟨kw', hk, h⟩ := bind_split h
  have hf := mapM_forall₂ hk
  have hw : ∀ n ds k c, p.cm.ents.get? n = some (ds, .one k c) → c.Wf := fun n ds k c hg => hm.classes n ds k c (Dict.mem_of_get? hg)
  rw [List.forall₂_iff_get] at hf
  have hs : ∀ i (hi : i < kw.length) (hi' : i < kw'.length), _ :=
    fun i hi hi' => askOne_spec hu hw (fun e v hv => hz e _ (List.get_mem _ _) v hv) (hf.2 i hi hi')
  refine ⟨kw', ?_, C17_select_partial argsort ha p q hm hd hsh kw' ?_ h⟩
  · unfold SaysSame
    rw [List.forall₂_iff_get]
    exact ⟨hf.1, fun i hi hi' => (hs i hi hi').1⟩
  · intro r hr
    obtain ⟨i, hi, rfl⟩ := List.getElem_of_mem hr
    exact (hs i (hf.1 ▸ hi) hi).2

/-- A relative selection keeps, along every dimension, exactly the positions whose labels lie within the limits counted from the start and end of the patch
itself: all limits are understood before anything is cut. -/
theorem C84_relative_partial {α} (argsort : List ℚ → List ℕ) (ha : IsArgsort argsort) (units : String → Option (Quant ℚ))
    (hu : ∀ n u, units n = some u → Usable u) (p q : PatchM α) (hm : Regular p.cm) (hd : p.cm.dims ≠ []) (hsh : p.cm.shape = p.data.shape) (kw : Dict Ask)
    (hz : ZerosAgree p.cm units true kw) (h : p.selectAsked argsort units true kw = .ok q) :
    ∃ kw' red, SaysSame p.cm units true kw kw' ∧ OnePerDim p.cm kw' ∧ Selected p q kw' red := by
  unfold PatchM.selectAsked at h
  split_ifs at h with h1 h2 h3
  obtain ⟨kw', hk, h⟩ := bind_split h
  have hf := mapM_forall₂ hk
  have hw : ∀ n ds k c, p.cm.ents.get? n = some (ds, .one k c) → c.Wf := fun n ds k c hg => hm.classes n ds k c (Dict.mem_of_get? hg)
  have hf' := hf
  rw [List.forall₂_iff_get] at hf
  have hs : ∀ i (hi : i < kw.length) (hi' : i < kw'.length), _ :=
    fun i hi hi' => askOne_spec hu hw (fun e v hv => hz e _ (List.get_mem _ _) v hv) (hf.2 i hi hi')
  have hnames : kw'.map Prod.fst = kw.map Prod.fst := by
    apply List.ext_getElem
    · simp [hf.1]
    · intro i hi hi'
      simp only [List.getElem_map]
      exact (hs i (by simpa using hi') (by simpa using hi)).1.1
  have hsame : SaysSame p.cm units true kw kw' := by
    unfold SaysSame
    rw [List.forall₂_iff_get]
    exact ⟨hf.1, fun i hi hi' => (hs i hi hi').1⟩
  have hnn : ∀ r ∈ kw', NonNegSamples r.2 := by
    intro r hr
    obtain ⟨i, hi, rfl⟩ := List.getElem_of_mem hr
    exact (hs i (hf.1 ▸ hi) hi).2
  have hshare : p.cm.sharing kw = false := by simpa using h2
  have hused : ∀ {β : Type} (l : Dict β), (l.filter fun r => p.cm.ents.keys.contains r.1).map (fun r => p.cm.attachedTo r.1) =
      ((l.map Prod.fst).filter fun n => p.cm.ents.keys.contains n).map p.cm.attachedTo := by
    intro β l
    rw [List.filter_map, List.map_map]
    rfl
  have hnd : ((kw'.filter fun r => p.cm.ents.keys.contains r.1).map fun r => p.cm.attachedTo r.1).Nodup := by
    rw [hused, hnames, ← hused]
    unfold CM.sharing at hshare
    simpa using hshare
  have hg : p.cm.groups kw' = [kw'.filter fun r => p.cm.ents.keys.contains r.1] := by
    unfold CM.groups
    exact if_pos hnd
  unfold PatchM.select at h
  split_ifs at h with hk'
  have hall : (kw'.filter fun p' => p.cm.ents.keys.contains p'.1) = kw' := by
    rw [List.filter_eq_self]
    intro r hr
    rw [Bool.not_eq_true, List.any_eq_false] at hk'
    simpa using hk' r hr
  rw [hall] at hg
  obtain ⟨r, hr, h⟩ := bind_split h
  have hr' : (p.cm.groups kw').foldlM (CM.selectGroup argsort) (p.cm, p.data) = .ok r := hr
  obtain ⟨h1, h2, h3⟩ := chain_spec ha _ p r hm hd hsh (fun g hg' r hr => by
    rw [hg, List.mem_singleton] at hg'
    exact hnn r (hg' ▸ hr)) (groups_onePerDim p.cm kw') hr'
  unfold PatchM.new at h
  rw [if_pos h3] at h
  cases h
  rw [hg] at h1
  cases h1 with
  | next red ho hsel hrest =>
    cases hrest with
    | done => exact ⟨kw', red, hsame, ho, hsel⟩

/-- Offsets along a dimension can only be given for one of its coordinates, and quantities only if they are of the kind of the units of the coordinate. -/
theorem C84_refused {α} (argsort : List ℚ → List ℕ) (units : String → Option (Quant ℚ)) (p : PatchM α) (kw : Dict Ask) (c : UCoord) (q : Quant ℚ) (relative : Bool) :
    (∀ (a b : String × Ask) (ds c c'), a ∈ kw → b ∈ kw → a.1 ≠ b.1 → (∀ r ∈ kw, r.1 ∈ p.cm.ents.keys) →
      p.cm.ents.get? a.1 = some (ds, c) → p.cm.ents.get? b.1 = some (ds, c') →
      (p.selectAsked argsort units true kw).map (fun r => r.data.shape) = .error .coordError) ∧
    (c.coord.vals ≠ [] → (∀ u, c.units = some u → ¬ Comparable ⟨1, q.unit⟩ u) → c.limit relative (.quant q) = .error .unitError) := by
  constructor
  · intro a b ds c c' ha hb hne hkeys hca hcb
    have hs : p.cm.sharing kw = true := by
      by_contra hs
      unfold CM.sharing at hs
      simp only [Bool.not_eq_true, Bool.not_eq_false', decide_eq_true_eq] at hs
      have hin : ∀ r ∈ kw, r ∈ kw.filter fun r => p.cm.ents.keys.contains r.1 := fun r hr => List.mem_filter.2 ⟨hr, by simpa using hkeys r hr⟩
      have := List.inj_on_of_nodup_map hs (hin a ha) (hin b hb) (by simp only [CM.attachedTo, hca, hcb, Option.map_some])
      exact hne (by rw [this])
    unfold PatchM.selectAsked
    rw [if_neg, if_pos (by simp [hs])]
    · rfl
    · rw [Bool.not_eq_true, List.any_eq_false]
      intro r hr
      simpa using hkeys r hr
  · intro hl hn
    have hb : c.bare relative (.quant q) = .error .unitError := by
      simp only [UCoord.bare]
      cases hu : c.units with
      | none => rfl
      | some u => rw [(C66_refused (K := ℚ) ⟨1, q.unit⟩ u (hn u hu) q.mag).1]; rfl
    unfold UCoord.limit
    cases hcc : c.coord with
    | part n => rw [hcc] at hl; exact absurd rfl hl
    | _ => simp only [hb]; rfl

/-- A tunnel: six seconds, from the fifth second of 1970 on, and four channels at uneven distances in metres. -/
def exTunnel : PatchM ℕ := ⟨⟨["time", "distance"],
  [("time", ["time"], .one .time (.range ⟨5000000000, 11000000000, 1000000000, 6⟩)), ("distance", ["distance"], .one .float (.mono [0, 10, 25, 40])),
   ("channel", ["distance"], .one .int (.range ⟨0, 4, 1, 4⟩))]⟩, [6, 4], fun i => 10 * i.getD 0 0 + i.getD 1 0⟩

def exTunnelUnits (name : String) : Option (Quant ℚ) := if name = "distance" then some exMetre else if name = "time" then some secondQ else none

theorem exTunnel_regular : Regular exTunnel.cm := by
  refine ⟨CM.mk?_wf (m := exTunnel.cm) (if_pos ?_) ?_, ?_, ?_, ?_, ?_⟩
  · decide +kernel
  · decide +kernel
  · unfold DistinctDims; decide +kernel
  · intro name ds c h
    simp only [exTunnel, List.mem_cons, Prod.mk.injEq, List.not_mem_nil, or_false] at h
    rcases h with ⟨_, rfl, _⟩ | ⟨_, rfl, _⟩ | ⟨_, rfl, _⟩ <;> decide
  · intro name ds k c h
    simp only [exTunnel, List.mem_cons, Prod.mk.injEq, List.not_mem_nil, or_false] at h
    rcases h with ⟨_, _, h⟩ | ⟨_, _, h⟩ | ⟨_, _, h⟩ <;> cases h
    · exact ⟨by norm_num, by norm_num, by norm_num⟩
    · exact ⟨Or.inl (by decide +kernel), by simp⟩
    · exact ⟨by norm_num, by norm_num, by norm_num⟩
  · have : exTunnel.cm.ents.keys.all (fun n => matchesPrefixSuffix exTunnel.cm.dims n == false) = true := by decide +kernel
    rw [List.all_eq_true] at this
    intro n hn
    simpa using this n hn

theorem exTunnel_units : ∀ n u, exTunnelUnits n = some u → Usable u := by
  intro n u h
  unfold exTunnelUnits at h
  split_ifs at h <;> cases h
  · exact ⟨by decide +kernel, by decide +kernel⟩
  · exact ⟨by decide +kernel, by decide +kernel⟩

example : ZerosAgree exTunnel.cm exTunnelUnits true [("distance", .range (.percent 10) (.quant ⟨100, exFoot.unit⟩)), ("time", .range (.num (.int 1)) (.num (.int (-2))))] ∧
    (exTunnel.selectAsked stableArgsort exTunnelUnits true
      [("distance", .range (.percent 10) (.quant ⟨100, exFoot.unit⟩)), ("time", .range (.num (.int 1)) (.num (.int (-2))))]).map
      (fun q => (q.data.shape, q.data.get [0, 0], label q "time" [0, 0], label q "distance" [0, 1])) =
      .ok ([3, 2], 11, some (some 6000000000), some (some 25)) := by
  constructor
  · intro _ a ha v hv ds k c hg
    simp only [List.mem_cons, List.not_mem_nil, or_false] at ha
    rcases ha with rfl | rfl <;> simp only [valuesIn, List.mem_cons, List.not_mem_nil, or_false] at hv <;> rcases hv with rfl | rfl <;> try trivial
    intro u hu
    have : exTunnelUnits "distance" = some exMetre := by decide +kernel
    rw [this] at hu
    cases hu
    decide +kernel
  · decide +kernel

example : (⟨.float, .mono [0, 10, 25, 40], some exMetre⟩ : UCoord).limit true (.quant ⟨100, exFoot.unit⟩) = .ok (some (3048 / 100)) ∧
    (⟨.time, .range ⟨5000000000, 11000000000, 1000000000, 6⟩, some secondQ⟩ : UCoord).limit true (.percent (-20)) = .ok (some 9000000000) := by
  constructor <;> decide +kernel

example : (exTunnel.selectAsked stableArgsort exTunnelUnits true [("channel", .range (.num (.int 1)) (.num .null)), ("distance", .range (.num (.int 1)) (.num .null))]).map
    (fun q => q.data.shape) = .error .coordError := by decide +kernel

/-- Two coordinates of one dimension may both be limited, if the limits are not relative. -/
example : (exTunnel.selectAsked stableArgsort exTunnelUnits false [("channel", .range (.num (.int 1)) (.num .null)), ("distance", .range (.num (.int 1)) (.num .null))]).map
    (fun q => q.data.shape) = .ok [6, 3] := by decide +kernel

/-- **C84 violated** (limits that cross): an interval which ends before it begins is turned round. Three seconds after the start of a record of five seconds comes after
three seconds before its end, so that nothing lies in between, and what lies in between the
other way round is kept. The interval from two seconds before the end to the start, likewise, is all but the last two seconds. -/
theorem C84_crossing_violated : (exTunnel.selectAsked stableArgsort exTunnelUnits true [("time", .range (.num (.int 3)) (.num (.int (-3))))]).map
    (fun q => (q.data.shape, label q "time" [0, 0], label q "time" [1, 0])) = .ok ([2, 4], some (some 7000000000), some (some 8000000000)) ∧
    (⟨.time, .range ⟨5000000000, 11000000000, 1000000000, 6⟩, some secondQ⟩ : UCoord).limit true (.num (.int 3)) = .ok (some 8000000000) ∧
    (⟨.time, .range ⟨5000000000, 11000000000, 1000000000, 6⟩, some secondQ⟩ : UCoord).limit true (.num (.int (-3))) = .ok (some 7000000000) ∧
    (exTunnel.selectAsked stableArgsort exTunnelUnits true [("time", .range (.num (.int (-2))) (.num (.int 0)))]).map
      (fun q => (q.data.shape, label q "time" [0, 0], label q "time" [3, 0])) = .ok ([4, 4], some (some 5000000000), some (some 8000000000)) := by
  refine ⟨?_, ?_, ?_, ?_⟩ <;> decide +kernel

/-- **C84 violated** (offsets of temperatures): an offset is converted as if it were an amount. Five degrees above the lowest of some temperatures in kelvins become
278.15 kelvins above. -/
theorem C84_zero_violated : (⟨.float, .mono [280, 290, 300], some exKelvin⟩ : UCoord).limit true (.quant ⟨5, exCelsius.unit⟩) = .ok (some (280 + 27815 / 100)) ∧
    ¬ LimitOf ⟨.float, .mono [280, 290, 300], some exKelvin⟩ true (.quant ⟨5, exCelsius.unit⟩) (some (280 + 27815 / 100)) := by
  refine ⟨by decide +kernel, ?_⟩
  rintro (⟨h, _⟩ | ⟨y, hy, hp⟩)
  · cases h
  cases hy
  rcases hp with ⟨h, _⟩ | ⟨_, lo, hi, v, hlo, hhi, ⟨u, x, hu, _, hx, hv⟩, h⟩
  · exact h (.inl rfl)
  cases hu
  have e1 : lo = 280 := by
    have h1 := hlo.2 280 (by decide +kernel)
    have h2 := hlo.1
    simp only [Coord.vals, List.mem_cons, List.not_mem_nil, or_false] at h2
    rcases h2 with rfl | rfl | rfl
    · rfl
    · norm_num at h1
    · norm_num at h1
  have e2 : x = 5 := by
    simpa [difference, exKelvin, exCelsius, exTemp] using hx
  have e3 : v = x := hv
  subst e1 e2 e3
  rcases h with ⟨_, h⟩ | ⟨h, _⟩ <;> norm_num at h

/-- **C84 violated** (times which start at zero): a range of times whose first label is zero has no units unless they are given, unlike every other coordinate of
times, and then does not accept quantities: two seconds, here, are not two seconds. -/
theorem C84_epoch_violated :
    (⟨.time, .range ⟨0, 3000000000, 1000000000, 3⟩, checkTimeUnits .time (.range ⟨0, 3000000000, 1000000000, 3⟩) none⟩ : UCoord).limit true (.quant ⟨2, secondQ.unit⟩) =
      .error .unitError ∧
    (⟨.time, .range ⟨1, 3000000001, 1000000000, 3⟩, checkTimeUnits .time (.range ⟨1, 3000000001, 1000000000, 3⟩) none⟩ : UCoord).limit true (.quant ⟨2, secondQ.unit⟩) =
      .ok (some 2000000001) := by
  constructor <;> decide +kernel

/-- **C84 violated** (coordinates of no dimension): two coordinates which belong to no dimension are taken to share one, and offsets for both are refused. -/
theorem C84_free_violated : (PatchM.selectAsked stableArgsort (fun _ => none)
    (⟨⟨["x"], [("x", ["x"], .one .int (.arr [3, 1])), ("a", [], .one .int (.arr [1, 2])), ("b", [], .one .int (.arr [4, 7]))]⟩, [2], fun i => i.getD 0 0⟩ : PatchM ℕ) true
      [("a", .range (.num (.int 0)) (.num .null)), ("b", .range (.num (.int 0)) (.num .null))]).map (fun q => q.data.shape) = .error .coordError := by
  decide +kernel

end Verif
