import Verif.Proof.Terra15
import Verif.Spec.Segy
import Mathlib.Tactic.Positivity
/-! # Lemmas about SEGY files -/
namespace Verif
open Spec

theorem pickedBy_map {α β} (g : α → β) (tol : ℚ) (a b : Option ℚ) (labels : List ℚ) (xs : List α) :
    pickedBy tol a b labels (xs.map g) = (pickedBy tol a b labels xs).map g := by
  unfold pickedBy
  rw [List.zip_map_right, List.filter_map, List.map_map, List.map_map]
  rfl

theorem atEachTime_picked {α} [Inhabited α] {n : ℕ} {traces : List (List α)} (h : ∀ t ∈ traces, t.length = n) (tol tol' : ℚ) (a b a' b' : Option ℚ)
    (times channels : List ℚ) :
    (pickedBy tol a b times (atEachTime n traces)).map (pickedBy tol' a' b' channels) =
      atEachTime (pickedBy tol a b times (List.range n)).length ((pickedBy tol' a' b' channels traces).map (pickedBy tol a b times)) := by
  unfold atEachTime
  rw [pickedBy_map, List.map_map]
  set I := pickedBy tol a b times (List.range n) with hI
  have hIn : ∀ i ∈ I, i < n := fun i hi => List.mem_range.1 (mem_pickedBy hi)
  have hcut : ∀ t ∈ traces, pickedBy tol a b times t = I.map fun i => t.getD i default := by
    intro t ht
    conv_lhs => rw [list_as_map t, h t ht, pickedBy_map]
  have hcols : ∀ (l : List (List α)), (∀ t ∈ l, t.length = n) → ∀ i, i < n → (l.filterMap fun t => t[i]?) = l.map fun t => t.getD i default := by
    intro l hl i hi
    rw [← List.filterMap_eq_map]
    apply List.filterMap_congr
    intro t ht
    have : i < t.length := by rw [hl t ht]; exact hi
    simp [List.getD_eq_getElem?_getD, this]
  apply List.ext_getElem
  · simp
  · intro k h1 h2
    simp only [List.length_map] at h1
    have hk : I[k] < n := hIn _ (List.getElem_mem _)
    simp only [List.getElem_map, List.getElem_range, Function.comp]
    rw [hcols _ h _ hk, pickedBy_map, List.filterMap_map]
    have hsub : ∀ t ∈ pickedBy tol' a' b' channels traces, t ∈ traces := fun t ht => mem_pickedBy ht
    rw [← List.filterMap_eq_map]
    apply List.filterMap_congr
    intro t ht
    simp only [Function.comp]
    rw [hcut t (hsub t ht)]
    simp [h1]

namespace SegyFile
variable {α : Type} {f : SegyFile α}

/-- The coordinates. -/
def clock (f : SegyFile α) : RangeCoord := ⟨f.second * 1000000000, f.second * 1000000000 + (f.interval * 1000 : ℚ) * f.count, f.interval * 1000, f.count⟩
@[inherit_doc clock] def line (f : SegyFile α) : RangeCoord := ⟨0, 0 + 1 * f.traces.length, 1, f.traces.length⟩

theorem interval_pos (h : SegyLayout f) : (0 : ℚ) < f.interval := by exact_mod_cast h.forward
theorem clock_valid (h : SegyLayout f) : f.clock.Valid :=
  valid_canonical (by have := interval_pos h; positivity) (by have := h.two_samples; omega)
theorem line_valid (h : SegyLayout f) : f.line.Valid := valid_canonical one_ne_zero (by have := h.two_traces; omega)

theorem nanos_micro (k : ℤ) : nanos (k / 1000000) = k * 1000 := by
  unfold nanos
  have : (k : ℚ) / 1000000 * 1000000000 = ((k * 1000 : ℤ) : ℚ) := by push_cast; ring
  rw [this, rint_int]
  push_cast; ring

theorem coords_spec (h : SegyLayout f) : f.coords = .ok (.range f.clock, .range f.line) := by
  unfold coords
  have h1 := getCoordData_progression .time (f.second * 1000000000 : ℚ) (f.interval * 1000 : ℚ) f.count (by have := interval_pos h; positivity) h.two_samples none
  have h2 := getCoordData_progression .int 0 1 f.traces.length one_ne_zero h.two_traces none
  simp only [nanos_micro]
  have e : ((List.range f.traces.length).map fun i : ℕ => (i : ℚ)) = progression 0 1 f.traces.length := by
    unfold progression
    apply List.map_congr_left
    intro i _
    ring
  rw [e]
  change (getCoordData .time (progression _ _ _) none >>= fun t => getCoordData .int (progression _ _ _) none >>= fun c => Except.ok (t, c)) = _
  rw [h1, h2]
  rfl

theorem pick_spec (kind : Kind) {c : RangeCoord} (hv : c.Valid) (limits : Option (Option ℚ × Option ℚ)) :
    ∃ d sl, pick kind (.range c) limits = .ok (d, .slice sl) ∧
      d.labels = (samplesBetween (|c.step| / (2 * 10 ^ 10)) (limits.getD (none, none)).1 (limits.getD (none, none)).2 c.values).map some ∧
      (∀ {α : Type} (l : List α), l.length = c.len → pySlice l sl = .ok (pickedBy (|c.step| / (2 * 10 ^ 10)) (limits.getD (none, none)).1 (limits.getD (none, none)).2 c.values l)) ∧
      d.length = (samplesBetween (|c.step| / (2 * 10 ^ 10)) (limits.getD (none, none)).1 (limits.getD (none, none)).2 c.values).length := by
  cases limits with
  | none =>
    refine ⟨.range c, {}, rfl, ?_, ?_, ?_⟩
    · simp only [Option.getD_none]
      rw [samplesBetween_free]
      rfl
    · intro α l hl
      simp only [Option.getD_none]
      rw [pickedBy_free _ _ _ (by rw [hv.length_values, hl])]
      exact pySlice_all l
    · simp only [Option.getD_none]
      rw [samplesBetween_free, hv.length_values]
      rfl
  | some p =>
    obtain ⟨a, b⟩ := p
    obtain ⟨d, sl, h1, h2, _, h4, h5⟩ := select_parallel hv a b
    refine ⟨d, sl, ?_, h2, ?_, h5⟩
    · unfold pick Coord.query
      simp only
      rw [h1]
      rfl
    · intro α l hl
      obtain ⟨start, stop, rfl, e1, e2⟩ := RangeCoord.select_shape h1
      have := h4 l hl
      have hs := pySlice_nat l start stop (by rw [hl]; exact e1) (by rw [hl]; exact e2)
      unfold cutList at this
      rw [hs] at this ⊢
      simp only at this
      rw [this]
      rfl

theorem stack_spec {n : ℕ} {l : List (List α)} (hne : l ≠ []) (h : ∀ t ∈ l, t.length = n) : stack l = .ok ⟨l.length, atEachTime n l⟩ := by
  match l, hne with
  | x :: r, _ =>
    unfold stack
    simp only
    have hx := h x (by simp)
    rw [if_pos]
    · unfold Sheet.transpose atEachTime
      rw [hx]
    · rw [List.all_eq_true]
      intro y hy
      rw [decide_eq_true_eq, hx, h y (by simp [hy])]

theorem mapM_ok {β γ} (g : β → Except Err γ) (k : β → γ) (l : List β) (h : ∀ b ∈ l, g b = .ok (k b)) : l.mapM g = .ok (l.map k) := by
  induction l with
  | nil => rfl
  | cons b l ih =>
    rw [List.mapM_cons, h b (by simp), ih (fun x hx => h x (by simp [hx]))]
    rfl

theorem read_some (h : SegyLayout f) (time channel : Option (Option ℚ × Option ℚ))
    (hc : samplesBetween (1 / (2 * 10 ^ 10)) (channel.getD (none, none)).1 (channel.getD (none, none)).2 f.line.values ≠ []) :
    GivesRecording (f.read time channel)
      (samplesBetween (|f.clock.step| / (2 * 10 ^ 10)) (time.getD (none, none)).1 (time.getD (none, none)).2 f.clock.values)
      (samplesBetween (1 / (2 * 10 ^ 10)) (channel.getD (none, none)).1 (channel.getD (none, none)).2 f.line.values)
      ((pickedBy (|f.clock.step| / (2 * 10 ^ 10)) (time.getD (none, none)).1 (time.getD (none, none)).2 f.clock.values (atEachTime f.count f.traces)).map
        (pickedBy (1 / (2 * 10 ^ 10)) (channel.getD (none, none)).1 (channel.getD (none, none)).2 f.line.values)) := by
  have habs : |f.line.step| = 1 := abs_one
  obtain ⟨t, ts, t1, t2, t3, t4⟩ := pick_spec .time (clock_valid h) time
  obtain ⟨c, cs, c1, c2, c3, c4⟩ := pick_spec .int (line_valid h) channel
  rw [habs] at c2 c3 c4
  set T := pickedBy (|f.clock.step| / (2 * 10 ^ 10)) (time.getD (none, none)).1 (time.getD (none, none)).2 f.clock.values (α := α) with hT
  have hlen : f.line.values.length = f.traces.length := (line_valid h).length_values
  have hclen : f.clock.values.length = f.count := (clock_valid h).length_values
  have hpc := pickedBy_length (1 / (2 * 10 ^ 10)) (channel.getD (none, none)).1 (channel.getD (none, none)).2 f.line.values f.traces hlen.symm
  set C := pickedBy (1 / (2 * 10 ^ 10)) (channel.getD (none, none)).1 (channel.getD (none, none)).2 f.line.values f.traces with hC
  have hCt : ∀ x ∈ C, x ∈ f.traces := fun x hx => mem_pickedBy hx
  have hCne : C ≠ [] := by
    intro h0
    rw [h0, List.length_nil] at hpc
    exact hc (List.length_eq_zero_iff.1 hpc.symm)
  have : Inhabited α := by
    have h1 : 0 < f.traces.length := by have := h.two_traces; omega
    have h2 : 0 < (f.traces[0]).length := by
      rw [h.samples _ (List.getElem_mem _)]; have := h.two_samples; omega
    exact ⟨(f.traces[0])[0]⟩
  have hm : C.mapM (Indexer.slice ts).apply = .ok (C.map T) := by
    apply mapM_ok
    intro x hx
    exact t3 x (h.samples x (hCt x hx))
  have hTl : ∀ x ∈ C.map T, x.length = (samplesBetween (|f.clock.step| / (2 * 10 ^ 10)) (time.getD (none, none)).1 (time.getD (none, none)).2 f.clock.values).length := by
    intro x hx
    obtain ⟨y, hy, rfl⟩ := List.mem_map.1 hx
    exact pickedBy_length _ _ _ _ _ (by rw [hclen, h.samples y (hCt y hy)])
  have hst := stack_spec (by simpa using hCne) hTl
  have hrows := atEachTime_picked h.samples (|f.clock.step| / (2 * 10 ^ 10)) (1 / (2 * 10 ^ 10)) (time.getD (none, none)).1 (time.getD (none, none)).2
    (channel.getD (none, none)).1 (channel.getD (none, none)).2 f.clock.values f.line.values
  rw [pickedBy_length _ _ _ _ _ (by rw [hclen, List.length_range])] at hrows
  unfold read
  rw [coords_spec h]
  simp only [bind, Except.bind]
  rw [t1]
  simp only
  rw [c1]
  simp only
  have ha : (Indexer.slice cs).apply f.traces = .ok C := c3 _ rfl
  rw [ha]
  simp only
  rw [hm]
  simp only
  rw [hst]
  simp only
  unfold GivesRecording
  have hal : ∀ n (l : List (List α)), (atEachTime n l).length = n := by simp [atEachTime]
  have hlC : (C.map T).length ≠ 0 := by simpa using hCne
  have hsz : (⟨(C.map T).length, atEachTime (samplesBetween (|f.clock.step| / (2 * 10 ^ 10)) (time.getD (none, none)).1 (time.getD (none, none)).2 f.clock.values).length (C.map T)⟩ : Sheet α).size =
      (samplesBetween (|f.clock.step| / (2 * 10 ^ 10)) (time.getD (none, none)).1 (time.getD (none, none)).2 f.clock.values).length * (C.map T).length := by
    simp only [Sheet.size, hal]
  split_ifs with h2 h1 h1
  · rfl
  · exfalso
    rcases h2 with h2 | h2
    · apply h1; rw [hsz, h2]; simp
    · exact hc h2
  · exfalso
    rw [hsz] at h1
    rcases Nat.mul_eq_zero.1 h1 with h1 | h1
    · exact h2 (Or.inl (List.length_eq_zero_iff.1 h1))
    · exact hlC h1
  · refine ⟨⟨t, c, atEachTime _ (C.map T)⟩, ?_, t2, c2, hrows.symm⟩
    unfold Recording.new
    rw [if_pos ⟨by simp only [hal]; exact t4, by simp only [List.length_map]; rw [c4, hpc]⟩]
    rfl

theorem read_none (h : SegyLayout f) (time channel : Option (Option ℚ × Option ℚ))
    (hc : samplesBetween (1 / (2 * 10 ^ 10)) (channel.getD (none, none)).1 (channel.getD (none, none)).2 f.line.values = []) :
    f.read time channel = .error .valueError := by
  have habs : |f.line.step| = 1 := abs_one
  obtain ⟨t, ts, t1, t2, t3, t4⟩ := pick_spec .time (clock_valid h) time
  obtain ⟨c, cs, c1, c2, c3, c4⟩ := pick_spec .int (line_valid h) channel
  rw [habs] at c3
  have hlen : f.line.values.length = f.traces.length := (line_valid h).length_values
  have hpc := pickedBy_length (1 / (2 * 10 ^ 10)) (channel.getD (none, none)).1 (channel.getD (none, none)).2 f.line.values f.traces hlen.symm
  rw [hc, List.length_nil, List.length_eq_zero_iff] at hpc
  unfold read
  rw [coords_spec h]
  simp only [bind, Except.bind]
  rw [t1]
  simp only
  rw [c1]
  simp only
  have ha : (Indexer.slice cs).apply f.traces = .ok [] := by rw [← hpc]; exact c3 _ rfl
  rw [ha]
  rfl

end SegyFile

theorem atEachTime_get {α} {n : ℕ} {traces : List (List α)} (h : ∀ t ∈ traces, t.length = n) (i j : ℕ) :
    ((atEachTime n traces)[i]?.bind fun r => r[j]?) = traces[j]?.bind fun t => t[i]? := by
  unfold atEachTime
  by_cases hi : i < n
  · have hf : (traces.filterMap fun t => t[i]?).map some = traces.map fun t => t[i]? := by
      induction traces with
      | nil => rfl
      | cons t r ih =>
        have := ih fun x hx => h x (by simp [hx])
        have ht : i < t.length := by rw [h t (by simp)]; exact hi
        rw [List.filterMap_cons]
        simp only [List.getElem?_eq_getElem ht, List.map_cons]
        rw [this]
    have hj := congrArg (fun l => l[j]?) hf
    simp only [List.getElem?_map] at hj
    simp only [List.getElem?_map, List.getElem?_range hi, Option.map_some, Option.bind_some]
    cases ht : traces[j]? with
    | none =>
      rw [ht] at hj
      simpa using hj
    | some t =>
      have hl := h t (List.mem_of_getElem? ht)
      rw [ht] at hj
      simp only [Option.map_some, Option.bind_some] at hj ⊢
      have hi' : i < t.length := by omega
      rw [List.getElem?_eq_getElem hi'] at hj ⊢
      cases hx : (traces.filterMap fun t => t[i]?)[j]? with
      | none => rw [hx] at hj; cases hj
      | some x => rw [hx] at hj; simpa using hj
  · have hb : (traces[j]?.bind fun t => t[i]?) = none := by
      cases hj : traces[j]? with
      | none => rfl
      | some t =>
        have := h t (List.mem_of_getElem? hj)
        simp
        omega
    rw [hb]
    simp [hi]

theorem atEachTime_width {α} {n : ℕ} {traces : List (List α)} (h : ∀ t ∈ traces, t.length = n) :
    ∀ r ∈ atEachTime n traces, r.length = traces.length := by
  intro r hr
  obtain ⟨j, hj, rfl⟩ := List.mem_map.1 hr
  have hj' : j < n := List.mem_range.1 hj
  clear hr
  induction traces with
  | nil => rfl
  | cons x r ih =>
    have hx : j < x.length := by rw [h x (by simp)]; exact hj'
    rw [List.filterMap_cons]
    simp only [List.getElem?_eq_getElem hx, List.length_cons]
    rw [ih fun y hy => h y (by simp [hy])]

namespace SegyPatch
variable {α : Type} {p : SegyPatch α} {time channel : RangeCoord}

theorem foldl_min_le {x : ℚ} {l : List ℚ} (h : ∀ y ∈ l, x ≤ y) : l.foldl min x = x := by
  induction l with
  | nil => rfl
  | cons y l ih =>
    rw [List.foldl_cons, min_eq_left (h y (by simp))]
    exact ih fun z hz => h z (by simp [hz])

theorem time_valid (h : SegyWritable p time channel) : time.Valid :=
  ⟨by have := h.slow; intro h0; rw [h0] at this; norm_num at this, by have := h.two_samples; omega, h.stop⟩

theorem minOf_time (h : SegyWritable p time channel) : minOf (.range time) = .ok time.start := by
  unfold minOf
  have hv := (time_valid h).values_eq
  have hn := h.two_samples
  simp only [Coord.vals]
  rw [hv]
  unfold progression
  obtain ⟨m, hm⟩ : ∃ m, time.len = m + 1 := ⟨time.len - 1, by omega⟩
  rw [hm, List.range_succ_eq_map]
  simp only [List.map_cons, List.map_map, Nat.cast_zero, zero_mul, add_zero]
  rw [foldl_min_le]
  intro y hy
  obtain ⟨i, _, rfl⟩ := List.mem_map.1 hy
  have := h.slow
  simp only [Function.comp]
  have : (0 : ℚ) ≤ ((i + 1 : ℕ) : ℚ) * time.step := by positivity
  push_cast at this ⊢
  linarith

/-- The samples in the order they are written. -/
theorem channelsFirst_rows (h : SegyWritable p time channel) : ∃ R : List (List α), R.length = channel.len ∧ (∀ r ∈ R, r.length = time.len) ∧
    (∀ i j : ℕ, (R[j]?.bind fun r => r[i]?) = segySample p i j) ∧ R = (if p.dims.1 = "time" then p.data.transpose.rows else p.data.rows) := by
  have hh := h.height
  have hw := h.width
  by_cases ht : p.dims.1 = "time"
  · rw [if_pos ht] at hh hw
    refine ⟨p.data.transpose.rows, ?_, ?_, ?_, (if_pos ht).symm⟩
    · simp [Sheet.transpose, hw]
    · intro r hr
      rw [← hh]
      exact atEachTime_width h.rectangle r hr
    · intro i j
      unfold segySample
      rw [if_pos ht]
      exact atEachTime_get h.rectangle j i
  · rw [if_neg ht] at hh hw
    refine ⟨p.data.rows, hh, ?_, ?_, (if_neg ht).symm⟩
    · intro r hr
      rw [h.rectangle r hr, hw]
    · intro i j
      unfold segySample
      rw [if_neg ht]

theorem write_spec (f32 : α → α) (h : SegyWritable p time channel) :
    ∃ R : List (List α), R.length = channel.len ∧ (∀ r ∈ R, r.length = time.len) ∧ (∀ i j : ℕ, (R[j]?.bind fun r => r[i]?) = segySample p i j) ∧
      write f32 [p] = if |roundDec 6 (time.step / 1000000000) - time.step / 1000000000| ≤ 3 / 1000000000 then
        .ok ⟨⌊time.start / 1000000000⌋, rint (time.step / 1000000000 * 1000000), time.len, R.map fun r => r.map f32⟩ else .error .incompatiblePatch := by
  obtain ⟨R, h1, h2, h3, h4⟩ := channelsFirst_rows h
  refine ⟨R, h1, h2, h3, ?_⟩
  have hm := minOf_time h
  have e : ((List.range channel.len).map fun i : ℕ => (i : ℚ)) = progression 0 1 channel.len := by
    unfold progression
    apply List.map_congr_left
    intro i _
    ring
  have hg := getCoordData_progression .int 0 1 channel.len one_ne_zero h.two_channels none
  obtain ⟨dims, coords, data⟩ := p
  have hc := h.coords
  have hd := h.dims
  simp only at hc hd h4
  clear h h3
  rcases hd with rfl | rfl | rfl | rfl
  all_goals
    simp only [if_true, if_neg (show ¬ "distance" = "time" by decide), if_neg (show ¬ "channel" = "time" by decide)] at h4 hc
    subst h4
    subst hc
    unfold write compatible
    split_ifs with hs <;>
    simp [withChannels, Coord.length, e, hg, bind, Except.bind, pure, Except.pure, stepFits, stepOf, channelsFirst, hm, hs]

end SegyPatch
end Verif
