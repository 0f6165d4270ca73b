import Verif.Proof.H5Simple
import Verif.Props.Patch
/-!
# C93: simple HDF5 files

Reading a file with one array of data, one of times and others gives the samples of the file under the labels in its arrays (or evenly spaced
labels between the first and the last), for all files whose arrays label the dimensions of the data.
-/
namespace Verif
open Spec
namespace SimpleFile
variable {α : Type} {f : SimpleFile α} {ds : List String} {channels : ℕ}

/-- The coordinates made without snapping. -/
theorem plain_manager (h : SimpleLayout f ds channels) (hst : ∀ d ∈ ds, Storable (simpleLabels f channels d)) :
    ∃ m, f.manager false = .ok m ∧ m.dims = ds ∧ Regular m ∧ m.shape = f.data.shape ∧ (∀ n, n ∉ ds → m.ents.get? n = none) ∧
      ∀ d ∈ ds, ∃ k c, m.ents.get? d = some ([d], .one k c) ∧ c.length = (simpleLabels f channels d).length ∧
        (c.labels = (simpleLabels f channels d).map some ∧ c.vals = simpleLabels f channels d ∧ (MCoord.one k c).canon = .ok (.one k c)) := by
  refine manager_spec h fun d hd k hk => ?_
  obtain ⟨c, h1, h2, h3⟩ := C14_represents_partial k _ (hst d hd)
  refine ⟨k, c, ?_, getCoordData_fixed h1, getCoordData_wf h1, h3, h2, ?_, getCoordData_fixed h1⟩
  · unfold coordOf
    rw [h1]; rfl
  · cases c with
    | part n =>
      have h4 : (List.replicate n none : List (Option ℚ)) = (simpleLabels f channels d).map some := h2
      cases hl : simpleLabels f channels d with
      | nil => exact absurd hl (h.some_data d hd)
      | cons a l =>
        rw [hl] at h4
        cases n with
        | zero => simp at h4
        | succ n => simp [List.replicate_succ] at h4
    | _ => exact (List.map_injective_iff.2 (Option.some_injective _)) h2

/-- The coordinates made with snapping. -/
theorem snap_manager (h : SimpleLayout f ds channels) (hs : Snappable f ds channels) (hl : LittleLost (simpleLabels f channels "time")) :
    ∃ m, f.manager true = .ok m ∧ m.dims = ds ∧ Regular m ∧ m.shape = f.data.shape ∧ (∀ n, n ∉ ds → m.ents.get? n = none) ∧
      ∀ d ∈ ds, ∃ k c, m.ents.get? d = some ([d], .one k c) ∧ c.length = (simpleLabels f channels d).length ∧
        ∃ r, c = .range r ∧ r.Valid ∧ r.values = (List.range (simpleLabels f channels d).length).map fun i : ℕ => snapLabel d (simpleLabels f channels d) i := by
  refine manager_spec h fun d hd k hk => ?_
  have h2 := hs.two d hd
  by_cases ht : d = "time"
  · subst ht
    have := hk.2 rfl
    subst this
    have h1 := (snapped_time h2 hs.ascending).1 hl
    have hpos : (0 : ℚ) < (⌊spacing (simpleLabels f channels "time")⌋ : ℚ) := by
      have : (1 : ℤ) ≤ ⌊spacing (simpleLabels f channels "time")⌋ := by rw [Int.le_floor]; exact_mod_cast hs.ascending
      exact_mod_cast this
    have hv := valid_canonical (a := (simpleLabels f channels "time").headD 0) hpos.ne' (show 1 ≤ (simpleLabels f channels "time").length by omega)
    refine ⟨.time, _, h1, rfl, hv, rfl, _, rfl, hv, ?_⟩
    rw [hv.values_eq]
    unfold progression
    refine List.map_congr_left fun i _ => ?_
    simp only [snapLabel, if_true]
  · obtain ⟨hne, h1⟩ := snapped_other (k := k) (fun hc => ht (hk.1 hc)) h2 (hs.apart d hd ht)
    have hv := valid_canonical (a := (simpleLabels f channels d).headD 0) hne (show 1 ≤ (simpleLabels f channels d).length by omega)
    refine ⟨.float, _, h1, rfl, hv, rfl, _, rfl, hv, ?_⟩
    rw [hv.values_eq]
    unfold progression
    refine List.map_congr_left fun i _ => ?_
    simp only [snapLabel, if_neg ht]

theorem keys_of {m : CM} (hno : ∀ n, n ∉ ds → m.ents.get? n = none) {P : String → Kind → Coord → Prop}
    (hg : ∀ d ∈ ds, ∃ k c, m.ents.get? d = some ([d], .one k c) ∧ P d k c) (n : String) : n ∈ m.ents.keys ↔ n ∈ ds := by
  constructor
  · intro hn
    by_contra hc
    obtain ⟨v, hv⟩ := Dict.mem_keys.1 hn
    rw [hno n hc] at hv; cases hv
  · intro hn
    obtain ⟨k, c, h, _⟩ := hg n hn
    exact Dict.mem_keys.2 ⟨_, h⟩

end SimpleFile

open SimpleFile
variable {α : Type} {f : SimpleFile α} {ds : List String} {channels : ℕ}

/-- **C93.** Without snapping a file is read as it is: every sample under the labels of the file's arrays, and nothing else, if these can be stored in
coordinates (C14). -/
theorem C93_read_partial (argsort : List ℚ → List ℕ) (ha : IsArgsort argsort) (h : SimpleLayout f ds channels)
    (hst : ∀ d ∈ ds, Storable (simpleLabels f channels d)) :
    ∃ q, f.read argsort false [] = .ok (some q) ∧ HoldsFile f ds (fun d i => (simpleLabels f channels d).getD i 0) q := by
  obtain ⟨m, h1, h2, h3, h4, h5, h6⟩ := plain_manager h hst
  refine read_whole ha h h1 h2 h3 h4 ?_ (holds_manager h h2 h5 ?_) ?_
  · intro name ds' c hc
    have hd := (keys_of h5 h6 name).1 (Dict.mem_keys.2 ⟨_, hc⟩)
    obtain ⟨k, c', g1, _, _, _, g2⟩ := h6 name hd
    rw [hc] at g1; cases g1
    exact ⟨_, g2⟩
  · intro d hd
    obtain ⟨k, c, g1, g2, g3, _⟩ := h6 d hd
    refine ⟨k, c, g1, fun i hi => ?_⟩
    rw [g3, List.getD_eq_getElem?_getD, List.getElem?_map, List.getElem?_eq_getElem hi, List.getD_eq_getElem?_getD, List.getElem?_eq_getElem hi]
    rfl
  · intro d hd
    obtain ⟨k, c, g1, g2, g3, g4, _⟩ := h6 d hd
    exact ⟨k, c, g1, g2, by rw [g4]; exact hst d hd, by rw [g4, g2]⟩

/-- **C93.** With snapping (the default) every sample is read under evenly spaced labels, from the first to the last of the file's, if cutting the distance
of times to nanoseconds loses little. -/
theorem C93_snapped (argsort : List ℚ → List ℕ) (ha : IsArgsort argsort) (h : SimpleLayout f ds channels) (hs : Snappable f ds channels)
    (hl : LittleLost (simpleLabels f channels "time")) :
    ∃ q, f.read argsort true [] = .ok (some q) ∧ HoldsFile f ds (fun d => snapLabel d (simpleLabels f channels d)) q := by
  obtain ⟨m, h1, h2, h3, h4, h5, h6⟩ := snap_manager h hs hl
  refine read_whole ha h h1 h2 h3 h4 ?_ (holds_manager h h2 h5 ?_) ?_
  · intro name ds' c hc
    have hd := (keys_of h5 h6 name).1 (Dict.mem_keys.2 ⟨_, hc⟩)
    obtain ⟨k, c', g1, _, r, rfl, _⟩ := h6 name hd
    rw [hc] at g1; cases g1
    exact ⟨_, rfl⟩
  · intro d hd
    obtain ⟨k, c, g1, g2, r, rfl, _, g3⟩ := h6 d hd
    refine ⟨k, _, g1, fun i hi => ?_⟩
    show (r.values.map some).getD i none = _
    rw [g3, List.map_map, List.getD_eq_getElem?_getD, List.getElem?_map, List.getElem?_range hi]
    rfl
  · intro d hd
    obtain ⟨k, c, g1, g2, r, rfl, hv, g3⟩ := h6 d hd
    exact ⟨k, _, g1, g2, storable_range hv, hv.length_values⟩

/-- **C93.** Labels which are evenly spaced already are kept by snapping, if times are whole numbers of nanoseconds apart. In any case the first label is
kept, and the last too, except that of times. -/
theorem C93_snap_exact (d : String) (l : List ℚ) (hn : 2 ≤ l.length) :
    (∀ s : ℚ, (d = "time" → ∃ z : ℤ, s = z) → (∀ i < l.length, l.getD i 0 = l.headD 0 + i * s) → ∀ i < l.length, snapLabel d l i = l.getD i 0) ∧
    snapLabel d l 0 = l.headD 0 ∧ (d ≠ "time" → snapLabel d l (l.length - 1) = l.getLastD 0) := by
  have hn' : ((l.length - 1 : ℕ) : ℚ) = (l.length : ℚ) - 1 := by rw [Nat.cast_sub (by omega)]; simp
  have hpos : (0 : ℚ) < (l.length : ℚ) - 1 := by
    have : (2 : ℚ) ≤ l.length := by exact_mod_cast hn
    linarith
  refine ⟨?_, ?_, ?_⟩
  · intro s hz hl i hi
    have hlast : l.getLastD 0 = l.headD 0 + ((l.length : ℚ) - 1) * s := by
      have := hl (l.length - 1) (by omega)
      rw [hn'] at this
      rw [← this, List.getLastD_eq_getLast?, List.getLast?_eq_getElem?, List.getD_eq_getElem?_getD]
    have hsp : spacing l = s := by
      unfold spacing
      rw [hlast]
      field_simp
      ring
    rw [hl i hi]
    unfold snapLabel
    rw [hsp]
    split_ifs with ht
    · obtain ⟨z, rfl⟩ := hz ht
      rw [Int.floor_intCast]
    · rfl
  · simp [snapLabel]
  · intro ht
    unfold snapLabel
    rw [if_neg ht, hn']
    unfold spacing
    field_simp
    ring

/-- **C93.** Otherwise reading fails, with an AssertionError. -/
theorem C93_drift_refused (argsort : List ℚ → List ℕ) (h : SimpleLayout f ds channels) (hs : Snappable f ds channels)
    (hl : ¬ LittleLost (simpleLabels f channels "time")) (kw : Dict CQuery) : f.read argsort true kw = .error .assertionError := by
  obtain ⟨o, ho, hon, hok, hog⟩ := dimsOf_spec h
  have htn : "time" ∉ Dict.keys o := fun ht => ((hok _).1 ht).2 rfl
  have hset : o.set "time" (Kind.time, f.time.map nanos) = o ++ [("time", Kind.time, f.time.map nanos)] := by
    unfold Dict.set
    rw [if_neg]
    simpa [Dict.keys] using htn
  have hall : ∀ e ∈ o, ∃ y, ((SimpleFile.coordOf true e.2.1 e.2.2).map fun c => (e.1, CArg.simple c)) = .ok y := by
    rintro ⟨d, k, l⟩ he
    have hg := Dict.get?_of_mem hon he
    obtain ⟨hd, hdt⟩ := (hok d).1 (Dict.mem_keys.2 ⟨_, hg⟩)
    obtain ⟨k', hk', hg'⟩ := hog d hd hdt
    rw [hg] at hg'; cases hg'
    exact ⟨_, by simp only [(snapped_other hk' (hs.two d hd) (hs.apart d hd hdt)).2]; rfl⟩
  obtain ⟨r, hr⟩ := mapM_exists hall
  have htime : SimpleFile.coordOf true .time (f.time.map nanos) = .error .assertionError := by
    have := (snapped_time (hs.two _ h.dims.2) hs.ascending).2 hl
    simpa [simpleLabels] using this
  have hm : f.manager true = .error .assertionError := by
    unfold SimpleFile.manager
    rw [ho]
    show (do let coords ← (o.set "time" (Kind.time, f.time.map nanos)).mapM fun e : String × Kind × List ℚ => (SimpleFile.coordOf true e.2.1 e.2.2).map fun c => (e.1, CArg.simple c)
             getCoordManager coords ds) = _
    rw [hset, List.mapM_append, hr]
    simp only [List.mapM_cons, htime]
    rfl
  unfold SimpleFile.read
  rw [hm]
  rfl

/-- **C93.** Reading with limits gives what selecting with them from the whole file gives, or nothing if nothing is left; names which are not dimensions are
ignored. Without snapping, if the labels can be stored. -/
theorem C93_limits (argsort : List ℚ → List ℕ) (ha : IsArgsort argsort) (h : SimpleLayout f ds channels) (snap : Bool)
    (hs : snap = true → Snappable f ds channels ∧ LittleLost (simpleLabels f channels "time"))
    (hst : snap = false → ∀ d ∈ ds, Storable (simpleLabels f channels d)) (kw : Dict CQuery) (hn : ∀ r ∈ kw, NonNegSamples r.2) (o : Option (PatchM α))
    (ho : f.read argsort snap kw = .ok o) :
    ∃ w gs q, HoldsFile f ds (fun d i => if snap then snapLabel d (simpleLabels f channels d) i else (simpleLabels f channels d).getD i 0) w ∧
      gs.flatten.Perm (kw.filter fun r => r.1 ∈ ds) ∧ SelectedBy w gs q ∧ o = if q.data.shape.prod = 0 then none else some q := by
  cases snap with
  | true =>
    obtain ⟨h7, h8⟩ := hs rfl
    obtain ⟨m, h1, h2, h3, h4, h5, h6⟩ := snap_manager h h7 h8
    obtain ⟨gs, q, g1, g2, g3⟩ := read_part ha h h1 h2 h3 h4 (keys_of h5 h6) hn ho
    refine ⟨_, gs, q, holds_manager h h2 h5 ?_, g1, g2, g3⟩
    intro d hd
    obtain ⟨k, c, g1, g2, r, rfl, _, g3⟩ := h6 d hd
    refine ⟨k, _, g1, fun i hi => ?_⟩
    show (r.values.map some).getD i none = _
    rw [g3, List.map_map, List.getD_eq_getElem?_getD, List.getElem?_map, List.getElem?_range hi]
    rfl
  | false =>
    obtain ⟨m, h1, h2, h3, h4, h5, h6⟩ := plain_manager h (hst rfl)
    obtain ⟨gs, q, g1, g2, g3⟩ := read_part ha h h1 h2 h3 h4 (keys_of h5 h6) hn ho
    refine ⟨_, gs, q, holds_manager h h2 h5 ?_, g1, g2, g3⟩
    intro d hd
    obtain ⟨k, c, g1, g2, g3, _⟩ := h6 d hd
    refine ⟨k, c, g1, fun i hi => ?_⟩
    rw [g3, List.getD_eq_getElem?_getD, List.getElem?_map, List.getElem?_eq_getElem hi]
    simp [List.getD_eq_getElem?_getD, List.getElem?_eq_getElem hi]

/-- **C93.** With snapping, reading with intervals of labels or slices of samples never fails, whatever the limits. -/
theorem C93_limits_succeed (argsort : List ℚ → List ℕ) (ha : IsArgsort argsort) (h : SimpleLayout f ds channels) (hs : Snappable f ds channels)
    (hl : LittleLost (simpleLabels f channels "time")) (kw : Dict CQuery) (hk : (kw.map Prod.fst).Nodup) (hq : ∀ r ∈ kw, IntervalOrSlice r.2) :
    ∃ o, f.read argsort true kw = .ok o := by
  obtain ⟨m, h1, h2, h3, h4, h5, h6⟩ := snap_manager h hs hl
  have hd : m.dims ≠ [] := by rw [h2]; rintro rfl; exact absurd h.dims.2 (by simp)
  have heq : m.select argsort f.data kw = m.select argsort f.data (kw.filter fun p => m.ents.keys.contains p.1) := by
    unfold CM.select CM.groups
    simp only [List.filter_filter, Bool.and_self]
  have hin : ∀ r ∈ kw.filter fun p => m.ents.keys.contains p.1, r ∈ kw ∧ r.1 ∈ ds := by
    intro r hr
    rw [List.mem_filter] at hr
    refine ⟨hr.1, (keys_of h5 h6 r.1).1 ?_⟩
    simpa using hr.2
  have hask : ∀ r ∈ kw.filter fun p => m.ents.keys.contains p.1, Askable m r.1 := by
    intro r hr
    obtain ⟨k, c, g1, _, r', rfl, _⟩ := h6 r.1 (hin r hr).2
    exact ⟨r.1, k, _, g1, Or.inl ⟨_, rfl⟩⟩
  obtain ⟨r, hr⟩ := CM.select_total (argsort := argsort) (a := f.data) ha h3 hd h4 (by
    intro name ds' c hc
    obtain ⟨k, c', g1, _, r', rfl, _⟩ := h6 name ((keys_of h5 h6 name).1 (Dict.mem_keys.2 ⟨_, hc⟩))
    rw [hc] at g1; cases g1
    exact Or.inl ⟨_, rfl⟩) (kw := kw.filter fun p => m.ents.keys.contains p.1) (fun r hr => hq r (hin r hr).1) hask (by
    have hk' : (kw.filter fun p => m.ents.keys.contains p.1).Pairwise fun p q => p.1 ≠ q.1 := by
      rw [List.Nodup, List.pairwise_map] at hk
      exact hk.filter _
    have hmem : (kw.filter fun p => m.ents.keys.contains p.1).Pairwise fun p q => p.1 ∈ ds ∧ q.1 ∈ ds :=
      List.pairwise_of_forall_mem_list fun a ha b hb => ⟨(hin a ha).2, (hin b hb).2⟩
    refine (hk'.and hmem).imp ?_
    rintro p q ⟨hne, hp, hq⟩ d c c' hc hc'
    obtain ⟨_, _, g1, _⟩ := h6 _ hp
    obtain ⟨_, _, g2, _⟩ := h6 _ hq
    rw [hc] at g1; rw [hc'] at g2
    simp only [Option.some.injEq, Prod.mk.injEq, List.cons.injEq, and_true] at g1 g2
    exact hne (g1.1.symm.trans g2.1))
  rw [← heq] at hr
  have hshape : r.1.shape = r.2.shape := by
    have hp := groups_perm m kw
    refine (chain_spec ha _ ⟨m, f.data⟩ r h3 hd h4 (fun g hg r hr => ?_) (groups_onePerDim m kw) hr).2.2
    have := hq r (List.mem_of_mem_filter (hp.mem_iff.1 (List.mem_flatten.2 ⟨g, hg, hr⟩)))
    revert this
    cases r.2 <;> simp [IntervalOrSlice, NonNegSamples]
  unfold SimpleFile.read
  rw [h1]
  show ∃ o, (do let r ← m.select argsort f.data kw; if r.1.shape.prod = 0 then return none else (PatchM.new r.1 r.2).map some) = .ok o
  rw [hr]
  show ∃ o, (if r.1.shape.prod = 0 then Except.ok none else (PatchM.new r.1 r.2).map some) = .ok o
  split_ifs
  · exact ⟨_, rfl⟩
  · unfold PatchM.new
    rw [if_pos hshape]
    exact ⟨_, rfl⟩

/-- A file with times and no other labels. -/
def exSimple : SimpleFile ℕ := ⟨⟨[3, 4], fun i => 10 * i.getD 0 0 + i.getD 1 0⟩, [5, 51 / 10, 52 / 10], [], none⟩

theorem exSimple_layout : SimpleLayout exSimple ["time", "channel"] 4 where
  names := by simp [exSimple]
  dims := by decide
  arrays := by simp [exSimple]
  kinds := by simp [exSimple]
  plain := by decide
  shape := by decide +kernel
  some_data := by
    have : (["time", "channel"].all fun d => !(simpleLabels exSimple 4 d).isEmpty) = true := by decide +kernel
    rw [List.all_eq_true] at this
    intro d hd
    have := this d hd
    simpa using this
  told := Or.inr ⟨rfl, by decide, by simp⟩

theorem exSimple_snappable : Snappable exSimple ["time", "channel"] 4 where
  two := by decide +kernel
  apart := by decide +kernel
  ascending := by decide +kernel

example : LittleLost (simpleLabels exSimple 4 "time") := by unfold LittleLost; decide +kernel

example : (exSimple.read stableArgsort true [("time", .between (some 5050000000) none), ("nothing", .between none none)]).map
    (fun o => o.map fun q => (q.data.shape, q.data.get [1, 2], label q "time" [1, 2])) =
    .ok (some ([2, 4], 22, some (some 5200000000))) := by decide +kernel

example : ∀ d ∈ ["time", "channel"], Storable (simpleLabels exSimple 4 d) := by
  intro d hd
  right; left
  simp only [List.mem_cons, List.not_mem_nil, or_false] at hd
  rcases hd with rfl | rfl
  · exact ⟨5000000000, 100000000, 3, by norm_num, by decide +kernel⟩
  · exact ⟨0, 1, 4, by norm_num, by decide +kernel⟩

/-- The times of a perfectly regular recording of `n + 1` samples in `T` seconds. -/
def regularTimes (n : ℕ) (T : ℚ) : List ℚ := (List.range (n + 1)).map fun i : ℕ => (i : ℚ) * (T / n)

/-- A minute (and 59 microseconds) of two channels, with 60001 samples. -/
def exMinuteFile : SimpleFile ℕ := ⟨⟨[60001, 2], fun i => i.getD 0 0⟩, regularTimes 60000 (60 + 59 / 1000000), [], none⟩

theorem regular_ends {n : ℕ} (hn : 1 ≤ n) (T : ℚ) : ((regularTimes n T).map nanos).headD 0 = nanos 0 ∧ ((regularTimes n T).map nanos).getLastD 0 = nanos T ∧
    ((regularTimes n T).map nanos).length = n + 1 := by
  have hn' : (n : ℚ) ≠ 0 := by
    have : n ≠ 0 := by omega
    exact_mod_cast this
  refine ⟨?_, ?_, by simp [regularTimes]⟩
  · unfold regularTimes
    rw [List.range_succ_eq_map]
    simp
  · unfold regularTimes
    rw [List.range_succ, List.map_append, List.map_append, List.getLastD_eq_getLast?]
    simp only [List.map_cons, List.map_nil, List.getLast?_append, List.getLast?_singleton, Option.some_or, Option.getD_some]
    congr 1
    field_simp

theorem minute_times : simpleLabels exMinuteFile 2 "time" = (regularTimes 60000 (60 + 59 / 1000000)).map nanos := by
  unfold simpleLabels
  rw [if_pos rfl]
  simp only [exMinuteFile]

theorem exMinuteFile_layout : SimpleLayout exMinuteFile ["time", "channel"] 2 where
  names := by simp [exMinuteFile]
  dims := by decide
  arrays := by simp [exMinuteFile]
  kinds := by simp [exMinuteFile]
  plain := by decide
  shape := by
    have := (regular_ends (n := 60000) (by omega) (60 + 59 / 1000000)).2.2
    simp only [List.map_cons, List.map_nil]
    rw [minute_times, this]
    rfl
  some_data := by
    have := (regular_ends (n := 60000) (by omega) (60 + 59 / 1000000)).2.2
    intro d hd
    simp only [List.mem_cons, List.not_mem_nil, or_false] at hd
    rcases hd with rfl | rfl
    · rw [minute_times]
      intro hc
      rw [hc] at this
      simp at this
    · show ((List.range 2).map fun i : ℕ => (i : ℚ)) ≠ []
      simp
  told := Or.inr ⟨rfl, by show [60001, 2].Nodup; simp, by simp⟩

theorem minute_spacing : spacing (simpleLabels exMinuteFile 2 "time") = 60000059000 / 60000 ∧ ⌊spacing (simpleLabels exMinuteFile 2 "time")⌋ = 1000000 := by
  obtain ⟨h1, h2, h3⟩ := regular_ends (n := 60000) (by omega) (60 + 59 / 1000000)
  have hs : spacing (simpleLabels exMinuteFile 2 "time") = 60000059000 / 60000 := by
    rw [minute_times]
    unfold spacing
    rw [h1, h2, h3]
    have e1 : nanos 0 = 0 := by decide +kernel
    have e2 : nanos (60 + 59 / 1000000) = 60000059000 := by decide +kernel
    rw [e1, e2]
    norm_num
  refine ⟨hs, ?_⟩
  rw [hs]
  norm_num [Int.floor_eq_iff]

/-- **C93 violated** (small drift): a minute of a perfectly regular recording at a thousand samples per second whose clock is wrong by one in a million cannot
be read at all, because cutting the distance of samples to nanoseconds loses more than a twentieth of a sample. -/
theorem C93_drift_violated (argsort : List ℚ → List ℕ) : SimpleLayout exMinuteFile ["time", "channel"] 2 ∧ exMinuteFile.read argsort true [] = .error .assertionError := by
  refine ⟨exMinuteFile_layout, C93_drift_refused argsort exMinuteFile_layout ⟨?_, ?_, ?_⟩ ?_ []⟩
  · intro d hd
    simp only [List.mem_cons, List.not_mem_nil, or_false] at hd
    rcases hd with rfl | rfl
    · rw [minute_times,
        (regular_ends (n := 60000) (by omega) _).2.2]
      omega
    · exact le_refl 2
  · intro d hd ht
    simp only [List.mem_cons, List.not_mem_nil, or_false] at hd
    rcases hd with rfl | rfl
    · exact absurd rfl ht
    · decide +kernel
  · rw [minute_spacing.1]; norm_num
  · unfold LittleLost
    rw [minute_spacing.2]
    obtain ⟨h1, h2, h3⟩ := regular_ends (n := 60000) (by omega) (60 + 59 / 1000000)
    rw [minute_times, h1, h2, h3]
    have e1 : nanos 0 = 0 := by decide +kernel
    have e2 : nanos (60 + 59 / 1000000) = 60000059000 := by decide +kernel
    rw [e1, e2]
    norm_num

/-- **C93 violated** (two labels of a dimension): a file in which the second dimension is labelled by channels and by distances cannot be read. -/
theorem C93_twice_violated :
    ((⟨⟨[3, 2], fun i => i.getD 0 0⟩, [0, 1, 2], [("channels", .int, [0, 1]), ("distance", .float, [0, 10])], none⟩ : SimpleFile ℕ).read stableArgsort true []).map
      (fun o => o.map fun q => q.data.shape) = .error .coordError := by decide +kernel

/-- **C93 violated** (another array): an array of any other length makes reading fail. -/
theorem C93_other_violated :
    ((⟨⟨[3, 2], fun i => i.getD 0 0⟩, [0, 1, 2], [("distance", .float, [0, 10]), ("shots", .int, [7])], none⟩ : SimpleFile ℕ).read stableArgsort true []).map
      (fun o => o.map fun q => q.data.shape) = .error .assertionError := by decide +kernel

/-- **C93 violated** (one channel): a file with a single channel cannot be read by default, only without snapping. -/
theorem C93_single_violated :
    ((⟨⟨[3, 1], fun i => i.getD 0 0⟩, [0, 1, 2], [("distance", .float, [5])], none⟩ : SimpleFile ℕ).read stableArgsort true []).map
      (fun o => o.map fun q => q.data.shape) = .error .valueError ∧
    ((⟨⟨[3, 1], fun i => i.getD 0 0⟩, [0, 1, 2], [("distance", .float, [5])], none⟩ : SimpleFile ℕ).read stableArgsort false []).map
      (fun o => o.map fun q => q.data.shape) = .ok (some [3, 1]) := by
  constructor <;> decide +kernel

theorem foldl_setLen (l : List (ℕ × String)) : ∀ d : List (ℕ × String),
    (l.foldl SimpleFile.setLen d).length ≤ d.length + l.length ∧ ∀ e ∈ l.foldl SimpleFile.setLen d, e ∈ d ∨ e ∈ l := by
  induction l with
  | nil => intro d; simp
  | cons x l ih =>
    intro d
    obtain ⟨h1, h2⟩ := ih (SimpleFile.setLen d x)
    have h3 : (SimpleFile.setLen d x).length ≤ d.length + 1 := by
      unfold SimpleFile.setLen
      rw [List.length_cons]
      have := List.length_filter_le (fun y : ℕ × String => decide (y.1 ≠ x.1)) d
      omega
    rw [List.foldl_cons]
    refine ⟨by rw [List.length_cons]; omega, fun e he => ?_⟩
    rcases h2 e he with h | h
    · unfold SimpleFile.setLen at h
      rcases List.mem_cons.1 h with rfl | h
      · simp
      · exact Or.inl (List.mem_filter.1 h).1
    · simp [h]

/-- Only one axis is filled with numbers of channels: if the arrays are fewer than the axes and two lengths of the data have no array, nothing is read. -/
theorem C93_several_missing {α : Type} (f : SimpleFile α) (argsort : List ℚ → List ℕ) (snap : Bool) (kw : Dict CQuery) (hd : f.dims = none)
    (hfew : f.others.length + 1 < f.data.shape.length) {a b : ℕ} (hab : a ≠ b) (ha : a ∈ f.data.shape) (hb : b ∈ f.data.shape)
    (hta : f.time.length ≠ a ∧ f.time.length ≠ b) (ho : ∀ e ∈ f.others, e.2.2.length ≠ a ∧ e.2.2.length ≠ b) :
    f.read argsort snap kw = .error .assertionError := by
  obtain ⟨h1, h2⟩ := foldl_setLen (f.others.map (fun e => (e.2.2.length, e.1)) ++ [(f.time.length, "time")]) []
  have hby : (f.others.map (fun e => (e.2.2.length, e.1)) ++ [(f.time.length, "time")]).foldl SimpleFile.setLen [] = f.byLength := by
    rw [List.foldl_append]; rfl
  rw [hby] at h1 h2
  have hlen : f.byLength.length ≠ f.data.shape.length := by
    simp only [List.length_append, List.length_map, List.length_cons, List.length_nil] at h1
    omega
  have hout : ∀ n, n = a ∨ n = b → n ∉ f.byLength.map Prod.fst := by
    intro n hn hmem
    obtain ⟨e, he, rfl⟩ := List.mem_map.1 hmem
    rcases h2 e he with h | h
    · cases h
    · rcases List.mem_append.1 h with h | h
      · obtain ⟨x, hx, rfl⟩ := List.mem_map.1 h
        rcases hn with hn | hn
        · exact (ho x hx).1 hn
        · exact (ho x hx).2 hn
      · obtain rfl := List.mem_singleton.1 h
        rcases hn with hn | hn
        · exact hta.1 hn
        · exact hta.2 hn
  have hmiss : f.missing f.byLength = .error .assertionError := by
    unfold SimpleFile.missing
    have ma : a ∈ f.data.shape.dedup.filter fun n => !(f.byLength.map Prod.fst).contains n :=
      List.mem_filter.2 ⟨List.mem_dedup.2 ha, by simpa using hout a (Or.inl rfl)⟩
    have mb : b ∈ f.data.shape.dedup.filter fun n => !(f.byLength.map Prod.fst).contains n :=
      List.mem_filter.2 ⟨List.mem_dedup.2 hb, by simpa using hout b (Or.inr rfl)⟩
    split
    · rename_i n hn
      rw [hn] at ma mb
      exact absurd ((List.mem_singleton.1 ma).trans (List.mem_singleton.1 mb).symm) hab
    · rfl
  have hg : f.dimsOf = .error .assertionError := by
    unfold SimpleFile.dimsOf
    rw [hd]
    simp only
    unfold SimpleFile.guess
    split
    · unfold SimpleFile.filled
      rw [if_pos hlen, hmiss]
      rfl
    · rfl
  unfold SimpleFile.read SimpleFile.manager
  rw [hg]
  rfl

/-- Data with three axes and times only. -/
example : ((⟨⟨[3, 2, 4], fun i => i.getD 0 0⟩, [0, 1, 2], [], none⟩ : SimpleFile ℕ).read stableArgsort true []).map (fun o => o.map fun q => q.data.shape) =
    .error .assertionError := by
  rw [C93_several_missing _ _ _ _ rfl (by decide) (a := 2) (b := 4) (by decide) (by decide) (by decide) (by decide) (by decide)]
  rfl

end Verif
