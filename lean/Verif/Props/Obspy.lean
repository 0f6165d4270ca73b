import Verif.Proof.Obspy
import Verif.Props.Export
/-!
# C105: patches and ObsPy streams
-/
namespace Verif
open Spec
variable {α : Type} [Inhabited α] {p : PatchM α} {fl : ℚ → ℚ}

/-- **C105.** A patch with even, ascending times and one other dimension becomes a stream with one trace for each label of the other dimension, in order, with its samples, the first time, the
rate and the label. The stream becomes a patch with the same samples and labels; its times are what floats make of the times, provided these can be stored. -/
theorem C105_restored {o : String} (hm : Regular p.cm) (hsh : p.cm.shape = p.data.shape) (ho : p.cm.dims = [o, "time"] ∨ p.cm.dims = ["time", o]) (hne : o ≠ "time")
    {r : RangeCoord} (ht : p.cm.ents.get? "time" = some (["time"], .one .time (.range r))) (hp : 0 < r.step) {k : Kind} {c : Coord}
    (hc : p.cm.ents.get? o = some ([o], .one k c)) {l : List ℚ} (hl : c.labels = l.map some) (hl0 : l ≠ []) (hs : Storable l)
    (hfl : Storable ((progression r.start r.step r.len).map fl)) :
    ∃ s q, p.toObspy = .ok s ∧ s.length = lenDim p.cm o ∧ (∀ j x, l[j]? = some x → ∃ tr, s[j]? = some tr ∧ TraceOf p o r.start r.step k x j tr) ∧
      streamPatch fl s o = .ok (some q) ∧ StreamRestored fl p o q := by
  have hv : r.Valid := hm.classes "time" ["time"] .time (.range r) (Dict.mem_of_get? ht)
  have hlen : l.length = lenDim p.cm o := by
    show _ = p.cm.ents.lenOf o
    unfold Ents.lenOf
    rw [hc]
    simp only [MCoord.len, one_shape, List.getD_cons_zero]
    rw [← labels_length (hm.classes o [o] k c (Dict.mem_of_get? hc)), hl, List.length_map]
  have hlt : lenDim p.cm "time" = r.len := by
    show p.cm.ents.lenOf "time" = r.len
    unfold Ents.lenOf
    rw [ht]
    simp only [MCoord.len, one_shape, List.getD_cons_zero]
    rfl
  have hmin : min r.start (r.stop - r.step) = r.start := by
    rw [min_eq_left]
    rw [hv.stop_eq]
    have h1 : (1 : ℚ) ≤ r.len := by exact_mod_cast hv.len_pos
    nlinarith
  have hobs := toObspy_eq hsh ho hne ht hc hl hlen
  rw [hmin] at hobs
  set s := streamOf p o k l r.start (1000000000 / r.step) with hsdef
  have hget : ∀ j x, l[j]? = some x → s[j]? = some (ObsTrace.mk (traceAt p j) r.start (1000000000 / r.step) [(o, k, some x)]) := by
    intro j x hx
    have hj : j < l.length := (List.getElem?_eq_some_iff.1 hx).1
    rw [hsdef, streamOf, List.getElem?_map, List.getElem?_range hj, ← hx]
    rfl
  have hsl : s.length = lenDim p.cm o := by simp [hsdef, streamOf, hlen]
  have htl : ∀ j, (traceAt p j).length = r.len := by
    intro j
    unfold traceAt
    rw [List.length_map, List.length_range, hlt]
  obtain ⟨n, hn⟩ : ∃ n, l.length = n + 1 := ⟨l.length - 1, by have := List.length_pos_iff.2 hl0; omega⟩
  have hlast : s.getLast? = some (ObsTrace.mk (traceAt p n) r.start (1000000000 / r.step) [(o, k, l[n]?)]) := by
    rw [hsdef, streamOf, hn, List.range_succ, List.map_append]
    simp
  have hfits : streamFits s o = true := by
    unfold streamFits
    have h1 : (s.map fun t => t.data.length) = List.replicate l.length r.len := by
      rw [hsdef, streamOf, List.map_map, List.eq_replicate_iff]
      refine ⟨by simp, ?_⟩
      intro x hx
      obtain ⟨j, _, rfl⟩ := List.mem_map.1 hx
      exact htl j
    rw [h1, List.replicate_dedup (by omega)]
    rw [Bool.and_eq_true, List.all_eq_true]
    refine ⟨rfl, fun t hx => ?_⟩
    rw [hsdef, streamOf] at hx
    obtain ⟨j, _, rfl⟩ := List.mem_map.1 hx
    simp [Dict.get?]
  have hhead : headerCoord (s.filterMap fun t => Dict.get? t.stats o) = .one k (.arr l) := by
    have : (s.filterMap fun t => Dict.get? t.stats o) = l.map fun x => (k, some x) := by
      rw [show (l.map fun x => (k, some x)) = (l.map some).map fun x => (k, x) by rw [List.map_map]; rfl, ← lookups l, hsdef, streamOf, List.filterMap_map, List.map_map]
      rw [← List.filterMap_eq_map]
      congr 1
      funext j
      simp [Dict.get?]
    rw [this]
    exact headerCoord_eq hl0
  have htimes : ((List.range r.len).map fun i : ℕ => fl (r.start + i * (1000000000 / (1000000000 / r.step)))) = (progression r.start r.step r.len).map fl := by
    unfold progression
    rw [List.map_map]
    refine List.map_congr_left fun i _ => ?_
    show _ = fl _
    congr 2
    field_simp
  set T := (progression r.start r.step r.len).map fl with hT
  have hTl : T.length = r.len := by simp [hT, progression]
  obtain ⟨ct, hct, hctl⟩ := storable_cases (k := .time) hfl
  obtain ⟨co, hco, hcol⟩ := storable_cases (k := k) hs
  have hset : Dict.set [(o, CArg.nested [o] (.one k (.arr l)))] "time" (.nested ["time"] (.one .time (.arr T))) =
      [(o, CArg.nested [o] (.one k (.arr l))), ("time", CArg.nested ["time"] (.one .time (.arr T)))] := by
    unfold Dict.set
    simp [hne]
  set coords : Dict CArg := [(o, CArg.nested [o] (.one k (.arr l))), ("time", CArg.nested ["time"] (.one .time (.arr T)))] with hcoords
  have hgo : coords.get? o = some (.nested [o] (.one k (.arr l))) := by simp [hcoords, Dict.get?]
  have hgt : coords.get? "time" = some (.nested ["time"] (.one .time (.arr T))) := by simp [hcoords, Dict.get?, hne]
  have hko : (MCoord.one k (.arr l)).canon = .ok (.one k co) := by
    show (getCoordData k l).map _ = _
    rw [hco]; rfl
  have hkt : (MCoord.one .time (.arr T)).canon = .ok (.one .time ct) := by
    show (getCoordData .time T).map _ = _
    rw [hct]; rfl
  obtain ⟨m, h1, h2, h3, _, _, h6⟩ := shapedManager_total (coords := coords) (dims := [o, "time"]) (shape := [s.length, r.len]) (len := fun d => if d = "time" then r.len else l.length)
    (by simp [hcoords, Dict.keys, hne]) (by simp [hne])
    (by
      intro d hd
      simp only [List.mem_cons, List.not_mem_nil, or_false] at hd
      rcases hd with rfl | rfl
      · simp [hne, hsl, hlen]
      · simp [hne])
    (by
      intro name a ha
      have hmem : name ∈ Dict.keys coords := Dict.mem_keys.2 ⟨_, ha⟩
      simp only [hcoords, Dict.keys, List.map_cons, List.map_nil, List.mem_cons, List.not_mem_nil, or_false] at hmem
      rcases hmem with rfl | rfl
      · rw [hgo] at ha; cases ha
        exact ⟨_, _, _, rfl, hko, by simp, fun _ => rfl, Or.inr (by simp [hne, one_shape]; rfl)⟩
      · rw [hgt] at ha; cases ha
        exact ⟨_, _, _, rfl, hkt, by simp, fun _ => rfl, Or.inr (by simp [one_shape, ← hTl]; rfl)⟩)
  have hmo : m.ents.get? o = some ([o], .one k co) := by
    obtain ⟨x, g1, g2⟩ := h3 o _ _ _ hgo rfl
    rw [hko] at g1; cases g1; exact g2
  have hmt : m.ents.get? "time" = some (["time"], .one .time ct) := by
    obtain ⟨x, g1, g2⟩ := h3 "time" _ _ _ hgt rfl
    rw [hkt] at g1; cases g1; exact g2
  have hms : m.shape = [s.length, r.len] := by
    unfold CM.shape
    rw [h2, if_neg (by simp)]
    simp only [List.map_cons, List.map_nil]
    rw [h6 o (by simp), h6 "time" (by simp)]
    simp [hne, hsl, hlen]
  set q : PatchM α := ⟨m, stackTraces s r.len⟩ with hq
  have hpo : ∀ a b : ℕ, posAlong q o [a, b] = a := by
    intro a b
    unfold posAlong
    rw [hq]
    simp only
    rw [h2]
    simp
  have hpt : ∀ a b : ℕ, posAlong q "time" [a, b] = b := by
    intro a b
    unfold posAlong
    rw [hq]
    simp only
    rw [h2]
    simp [hne]
  have hshape : p.data.shape = p.cm.dims.map fun d => lenDim p.cm d := by
    rw [← hsh]
    unfold CM.shape
    rw [if_neg (by rcases ho with h | h <;> rw [h] <;> simp)]
    rfl
  have hmo' : o ∈ p.cm.dims := by rcases ho with h | h <;> rw [h] <;> simp
  have hmt' : "time" ∈ p.cm.dims := by rcases ho with h | h <;> rw [h] <;> simp
  have hin : ∀ i, InRange p.data.shape i → posAlong p o i < l.length ∧ posAlong p "time" i < r.len := by
    intro i hi
    rw [hshape] at hi
    exact ⟨by rw [hlen]; exact inRange_getD hi hmo', by rw [← hlt]; exact inRange_getD hi hmt'⟩
  refine ⟨s, q, hobs, hsl, ?_, ?_, h2, ?_, hms, ?_, ?_, ?_⟩
  · intro j x hx
    refine ⟨_, hget j x hx, rfl, rfl, ?_, ?_⟩
    · show 1000000000 / r.step * r.step = _
      field_simp
    · simp [Dict.get?]
  · unfold streamPatch
    rw [hlast]
    simp only
    rw [if_pos hfits, hhead, htl n, htimes, hset]
    unfold patchOf
    simp only [bind, Except.bind]
    rw [show (stackTraces s r.len).shape = [s.length, r.len] from rfl, h1]
    simp only
    unfold PatchM.new
    rw [if_pos (show m.shape = (stackTraces s r.len).shape from hms)]
    rfl
  · show [s.length, r.len] = _
    rw [hsl, hlt]
  · intro i hi
    obtain ⟨g1, g2⟩ := hin i hi
    obtain ⟨x, hx⟩ : ∃ x, l[posAlong p o i]? = some x := ⟨_, List.getElem?_eq_getElem g1⟩
    show ((s.map ObsTrace.data).getD (posAlong p o i) []).getD (posAlong p "time" i) default = _
    rw [List.getD_eq_getElem?_getD, List.getD_eq_getElem?_getD, List.getElem?_map, hget _ _ hx]
    show ((traceAt p (posAlong p o i))[posAlong p "time" i]?).getD default = _
    unfold traceAt
    rw [List.getElem?_map, List.getElem?_range (by rw [hlt]; exact g2)]
    show p.data.get _ = _
    congr 1
    rw [hshape] at hi
    rcases ho with h | h
    · rw [h] at hi ⊢
      unfold posAlong
      rw [h]
      match i, hi with
      | [a, b], _ => simp [hne]
    · rw [h] at hi ⊢
      unfold posAlong
      rw [h]
      match i, hi with
      | [a, b], _ => simp [hne, Ne.symm hne]
  · intro i hi
    rw [label_dim (p := q) hmo, label_dim hc, hpo, hcol, hl]
  · intro i hi
    obtain ⟨_, g2⟩ := hin i hi
    refine ⟨r.start + posAlong p "time" i * r.step, ?_, ?_⟩
    · rw [label_dim ht, range_labels hv, List.getD_eq_getElem?_getD, List.getElem?_map]
      unfold progression
      rw [List.getElem?_map, List.getElem?_range g2]
      rfl
    · rw [label_dim (p := q) hmt, hpt, hctl, List.getD_eq_getElem?_getD, List.getElem?_map, hT, List.getElem?_map]
      unfold progression
      rw [List.getElem?_map, List.getElem?_range g2]
      rfl

/-- There and back again. -/
def restored (fl : ℚ → ℚ) (p : PatchM ℕ) (o : String) : Except Err (Option (PatchM ℕ)) := p.toObspy.bind fun s => streamPatch fl s o

/-- `exEven` meets the hypotheses, with exact floats. -/
example : (Coord.range ⟨9, 3, -2, 3⟩).labels = [9, 7, 5].map some ∧ Storable [9, 7, 5] ∧ Storable ((progression 5000000000 1000000000 2).map fun x => x) :=
  ⟨by decide +kernel, Or.inr (Or.inl ⟨9, -2, 3, by norm_num, by decide +kernel⟩), Or.inr (Or.inl ⟨5000000000, 1000000000, 2, by norm_num, by decide +kernel⟩)⟩
example : exEven.toObspy.map (fun s => s.map fun t => (t.data, t.start)) = .ok [([0, 1], 5000000000), ([10, 11], 5000000000), ([20, 21], 5000000000)] := by decide +kernel
example : exEven.toObspy.map (fun s => s.map fun t => (t.rate, (Dict.get? t.stats "distance").map Prod.snd)) = .ok [(1, some (some 9)), (1, some (some 7)), (1, some (some 5))] := by
  decide +kernel
example : (restored (fun x => x) exEven "distance").map (fun q => q.map fun q => (q.data.shape, q.data.get [2, 1])) = .ok (some ([3, 2], 21)) := by decide +kernel
example : (restored (fun x => x) exEven "distance").map (fun q => q.map fun q => (label q "distance" [2, 1], label q "time" [2, 1])) =
    .ok (some (some (some 5), some (some 6000000000))) := by decide +kernel

/-- Descending times: 7, 6 and 5 seconds. -/
def exBackwards : PatchM ℕ :=
  ⟨⟨["distance", "time"], [("time", ["time"], .one .time (.range ⟨7000000000, 4000000000, -1000000000, 3⟩)), ("distance", ["distance"], .one .float (.range ⟨0, 2, 1, 2⟩))]⟩,
    ⟨[2, 3], fun i => i.getD 0 0 * 10 + i.getD 1 0⟩⟩

/-- **C105 violated** (descending times): the first sample, at 7 seconds, gets the lowest time, and the times go down from there. -/
theorem C105_backwards_violated : (restored (fun x => x) exBackwards "distance").map (fun q => q.map fun q => (List.range 3).map fun t => (q.data.get [0, t], label q "time" [0, t])) =
      .ok (some [(0, some (some 5000000000)), (1, some (some 4000000000)), (2, some (some 3000000000))]) ∧
    ((List.range 3).map fun t => (exBackwards.data.get [0, t], label exBackwards "time" [0, t])) =
      [(0, some (some 7000000000)), (1, some (some 6000000000)), (2, some (some 5000000000))] := by decide +kernel

/-- Seconds as floats of 64 bits, which in the years 2006 to 2038 are multiples of 2⁻²², and then (`_float_array_to_ns`, utils/time.py 24-26) nanoseconds as floats, multiples of 256. -/
def stamp64 (x : ℚ) : ℚ := 256 * rint (rint (x / 1000000000 * 4194304) / 4194304 * 1000000000 / 256 : ℚ)

/-- Four times, a millisecond apart, in the year 2017. -/
def exMillis : PatchM ℕ :=
  ⟨⟨["distance", "time"], [("time", ["time"], .one .time (.range ⟨1500000000000000000, 1500000000004000000, 1000000, 4⟩)), ("distance", ["distance"], .one .float (.range ⟨0, 2, 1, 2⟩))]⟩,
    ⟨[2, 4], fun i => i.getD 0 0 * 10 + i.getD 1 0⟩⟩

/-- **C105 violated** (floats): the floats are within 128 nanoseconds of the times, whose distance is a millisecond. But the patch made of the stream has the distance 999936 nanoseconds, one of
those that the floats have, and so every further sample is 64 nanoseconds more away from its time. -/
theorem C105_drift_violated : (restored stamp64 exMillis "distance").map (fun q => q.map fun q => (List.range 4).map fun t => label q "time" [0, t]) =
      .ok (some [some (some 1500000000000000000), some (some 1500000000000999936), some (some 1500000000001999872), some (some 1500000000002999808)]) ∧
    ((List.range 4).map fun t => label exMillis "time" [0, t]) =
      [some (some 1500000000000000000), some (some 1500000000001000000), some (some 1500000000002000000), some (some 1500000000003000000)] ∧
    ((List.range 4).all fun t : ℕ => decide (|stamp64 (1500000000000000000 + t * 1000000) - (1500000000000000000 + t * 1000000)| ≤ 128)) = true := by decide +kernel

/-- **C105.** A patch of two dimensions without times is refused; uneven times are refused. A stream is refused if its traces differ in length, or the header of one does not have the entry. A
stream without traces is an empty patch. -/
theorem C105_refused :
    (p.cm.dims.length = 2 → "time" ∉ p.cm.dims → p.toObspy = .error .incompatiblePatch) ∧
    (∀ (s : List (ObsTrace α)) (o : String), (∃ a ∈ s, ∃ b ∈ s, a.data.length ≠ b.data.length) → streamPatch fl s o = .error .incompatiblePatch) ∧
    (∀ (s : List (ObsTrace α)) (o : String), (∃ a ∈ s, Dict.get? a.stats o = none) → streamPatch fl s o = .error .incompatiblePatch) ∧
    ∀ o, streamPatch fl ([] : List (ObsTrace α)) o = .ok none := by
  have key : ∀ (s : List (ObsTrace α)) (o : String), (∃ a, a ∈ s) → streamFits s o = false → streamPatch fl s o = .error .incompatiblePatch := by
    rintro s o ⟨a, ha⟩ h
    unfold streamPatch
    cases hl : s.getLast? with
    | none => rw [List.getLast?_eq_none_iff] at hl; rw [hl] at ha; cases ha
    | some tr =>
      simp only
      rw [if_neg (by rw [h]; exact Bool.false_ne_true)]
  refine ⟨?_, ?_, ?_, fun _ => rfl⟩
  · intro h2 h
    unfold PatchM.toObspy
    rw [if_pos h, if_pos h2]
  · rintro s o ⟨a, ha, b, hb, hab⟩
    refine key s o ⟨a, ha⟩ ?_
    unfold streamFits
    rw [Bool.and_eq_false_iff]
    left
    rw [beq_eq_false_iff_ne]
    intro h1
    obtain ⟨x, hx⟩ := List.length_eq_one_iff.1 h1
    have h3 : a.data.length ∈ (s.map fun t => t.data.length).dedup := List.mem_dedup.2 (List.mem_map.2 ⟨a, ha, rfl⟩)
    have h4 : b.data.length ∈ (s.map fun t => t.data.length).dedup := List.mem_dedup.2 (List.mem_map.2 ⟨b, hb, rfl⟩)
    rw [hx, List.mem_singleton] at h3 h4
    exact hab (h3.trans h4.symm)
  · rintro s o ⟨a, ha, h⟩
    refine key s o ⟨a, ha⟩ ?_
    unfold streamFits
    rw [Bool.and_eq_false_iff]
    right
    rw [List.all_eq_false]
    exact ⟨a, ha, by rw [h]; simp⟩

example : ∃ s : List (ObsTrace ℕ), (∃ a ∈ s, ∃ b ∈ s, a.data.length ≠ b.data.length) ∧ ∃ a ∈ s, Dict.get? a.stats "distance" = none :=
  ⟨[⟨[1], 0, 1, []⟩, ⟨[1, 2], 0, 1, []⟩], ⟨⟨[1], 0, 1, []⟩, by simp, ⟨[1, 2], 0, 1, []⟩, by simp, by decide⟩, ⟨[1], 0, 1, []⟩, by simp, rfl⟩

omit [Inhabited α] in
/-- **C105 violated** (one dimension): a patch whose only dimension is time "must have a dimension named time", but fails. -/
theorem C105_single_violated (h : p.cm.dims = ["time"]) : p.toObspy = .error .keyError := by
  unfold PatchM.toObspy
  rw [h]
  rfl

example : (⟨⟨["time"], [("time", ["time"], .one .time (.range ⟨0, 2, 1, 2⟩))]⟩, ⟨[2], fun i => i.getD 0 0⟩⟩ : PatchM ℕ).cm.dims = ["time"] := rfl

end Verif
