import Verif.Proof.Instruments
import Verif.Props.Patch
/-!
# C95: Files of several instruments

Reading a file of AP Sensing, Silixa, Neubrex, GDR, OptoDAS or DASVader gives the samples of the file under the labels which its attributes define; limits select the
same part as from the whole file.
-/
namespace Verif
open Spec
variable {α : Type} {n m : ℕ} {ds : List String} {argsort : List ℚ → List ℕ}

/-- **C95** (AP Sensing). Times begin with the time stamp and are one sampling period (rounded to nanoseconds) apart; distances divide the way from the first to the last
position evenly. -/
theorem C95_ap {f : ApFile α} (ha : IsArgsort argsort) (h : ApLayout f n m) :
    ∃ dt, InNanos (1 / f.rate) dt ∧ ReadsWhole (f.read argsort) f.data ["time", "distance"] (evenly f.start dt f.first ((f.last - f.first) / m)) ∧
      ∀ time distance : Limits, time.isSome ∨ distance.isSome →
        ReadsPart (f.read argsort) f.data ["time", "distance"] (evenly f.start dt f.first ((f.last - f.first) / m)) time distance := by
  have hdt := nanos_rate h.rate
  have hm : (m : ℚ) ≠ 0 := by have := h.some_sample.2; exact_mod_cast (by omega : m ≠ 0)
  have hdx : (f.last - f.first) / m ≠ 0 := div_ne_zero (sub_ne_zero.2 (Ne.symm h.ends)) hm
  have h0 : f.data.shape.getD 0 0 = n := by rw [h.shape]; rfl
  have h1 : f.data.shape.getD 1 0 = m := by rw [h.shape]; rfl
  have ht : f.timeCoord = .ok (.range ⟨f.start, f.start + nanos (1 / f.rate) * n, nanos (1 / f.rate), n⟩) := by
    unfold ApFile.timeCoord
    rw [h.utc, if_neg (by simp), h0, h.traces, if_neg (by simp), if_neg h.rate.1.ne', mul_comm (n : ℚ), mkRange_canonical hdt.ne' h.some_sample.1]
    rfl
  have hx : f.distanceCoord = .ok (.range ⟨f.first, f.first + (f.last - f.first) / m * m, (f.last - f.first) / m, m⟩) := by
    unfold ApFile.distanceCoord
    rw [h1, if_neg (by have := h.some_sample.2; omega)]
    exact spanned_exact hdx h.some_sample.2 (by field_simp; ring) false
  refine ⟨_, nanos_nearest _, ?_⟩
  exact reads_two ha (n := n) (m := m) (fun a b => by unfold ApFile.read; rw [ht, hx]; rfl) (Or.inl rfl) (asks_range _ hdt.ne' h.some_sample.1)
    (asks_range _ hdx h.some_sample.2) h.shape h.some_sample

example : ApLayout (⟨1000, 5, true, 2, 10, 16, ⟨[2, 3], fun i => i.getD 0 0⟩⟩ : ApFile ℕ) 2 3 := ⟨rfl, by decide, rfl, rfl, by norm_num, by norm_num⟩

/-- **C95** (Silixa). Times begin with the stamp of GPS, if there is one, or else that of the computer. -/
theorem C95_silixa {f : SilixaFile α} (ha : IsArgsort argsort) (h : SilixaLayout f n m) :
    ∃ dt, InNanos (1 / f.rate) dt ∧
      ReadsWhole (f.read argsort) f.data ["time", "distance"] (evenly (f.gps.getD f.cpu) dt (f.start + f.measured * f.factor) (f.resolution * f.factor)) ∧
      ∀ time distance : Limits, time.isSome ∨ distance.isSome →
        ReadsPart (f.read argsort) f.data ["time", "distance"] (evenly (f.gps.getD f.cpu) dt (f.start + f.measured * f.factor) (f.resolution * f.factor)) time distance := by
  have hdt := nanos_rate h.rate
  have h0 : f.data.shape.getD 0 0 = n := by rw [h.shape]; rfl
  have h1 : f.data.shape.getD 1 0 = m := by rw [h.shape]; rfl
  have ht : f.timeCoord = .ok (.range ⟨f.gps.getD f.cpu, f.gps.getD f.cpu + nanos (1 / f.rate) * n, nanos (1 / f.rate), n⟩) := by
    unfold SilixaFile.timeCoord
    rw [if_neg h.rate.1.ne', h0, getCoordParts_even hdt.ne' h.some_sample.1]
  have hx := spanned_exact (a := f.start + f.measured * f.factor) h.spacing h.some_sample.2 (b := f.start + f.measured * f.factor + m * (f.resolution * f.factor)) (by ring) false
  refine ⟨_, nanos_nearest _, ?_⟩
  exact reads_two ha (n := n) (m := m) (fun a b => by unfold SilixaFile.read SilixaFile.distanceCoord; rw [ht, h1, hx]; rfl) (Or.inl rfl)
    (asks_range _ hdt.ne' h.some_sample.1) (asks_range _ h.spacing h.some_sample.2) h.shape h.some_sample

example : SilixaLayout (⟨none, 5, 1000, 2, 10, 1, 1 / 4, ⟨[2, 3], fun i => i.getD 0 0⟩⟩ : SilixaFile ℕ) 2 3 := ⟨rfl, by decide, by norm_num, by norm_num⟩

/-- **C95** (Neubrex DAS). -/
theorem C95_neubrex {f : NeubrexFile α} (ha : IsArgsort argsort) (h : NeubrexLayout f n m) :
    ∃ dt, InNanos f.interval dt ∧ ReadsWhole (f.read argsort) f.data ["time", "distance"] (evenly (f.gps.getD f.cpu) dt f.start f.spacing) ∧
      ∀ time distance : Limits, time.isSome ∨ distance.isSome →
        ReadsPart (f.read argsort) f.data ["time", "distance"] (evenly (f.gps.getD f.cpu) dt f.start f.spacing) time distance := by
  have hdt := nanos_pos h.fine
  have h0 : f.data.shape.getD 0 0 = n := by rw [h.shape]; rfl
  have h1 : f.data.shape.getD 1 0 = m := by rw [h.shape]; rfl
  have h2 : f.data.shape.length = 2 := by rw [h.shape]; rfl
  have ht : f.timeCoord = .ok (.range ⟨f.gps.getD f.cpu, f.gps.getD f.cpu + nanos f.interval * n, nanos f.interval, n⟩) := by
    unfold NeubrexFile.timeCoord
    rw [if_pos h.all.1, h0, mkRange_canonical hdt.ne' h.some_sample.1]
    rfl
  have hx : f.distanceCoord = .ok (.range ⟨f.start, f.start + f.spacing * m, f.spacing, m⟩) := by
    unfold NeubrexFile.distanceCoord
    rw [if_pos h.all.2, h1, show (m : ℚ) * f.spacing + f.start = f.start + f.spacing * m by ring, mkRange_canonical h.spacing h.some_sample.2]
    rfl
  refine ⟨_, nanos_nearest _, ?_⟩
  exact reads_two ha (n := n) (m := m) (fun a b => by
    unfold NeubrexFile.read
    rw [ht, hx]
    show (if f.data.shape.length ≠ 2 then _ else _) = _
    rw [if_neg (by rw [h2]; simp)]) (Or.inl rfl)
    (asks_range _ hdt.ne' h.some_sample.1) (asks_range _ h.spacing h.some_sample.2) h.shape h.some_sample

example : NeubrexLayout (⟨some 7, 5, 1 / 1000, 1, -2, 100, 0, ⟨[2, 3], fun i => i.getD 0 0⟩⟩ : NeubrexFile ℕ) 2 3 := ⟨rfl, by decide, by decide, by norm_num, by norm_num⟩

/-- **C95** (Neubrex frequency shifts). Without snapping every sample has the time of the file; snapping keeps the first and rounds the mean spacing to nanoseconds. -/
theorem C95_shifts {f : ShiftFile α} {x dx : ℚ} (ha : IsArgsort argsort) (h : ShiftLayout f x dx) (snap : Bool) :
    ∃ dt, Nearest (spacing (shiftTimes f)) dt ∧
      ReadsWhole (f.read argsort snap) f.data ["time", "distance"]
        (fun d k => if d = "time" then (if snap then (shiftTimes f).headD 0 + k * dt else (shiftTimes f).getD k 0) else x + k * dx) ∧
      ∀ time distance : Limits, time.isSome ∨ distance.isSome →
        ReadsPart (f.read argsort snap) f.data ["time", "distance"]
          (fun d k => if d = "time" then (if snap then (shiftTimes f).headD 0 + k * dt else (shiftTimes f).getD k 0) else x + k * dx) time distance := by
  have hlen : (shiftTimes f).length = f.stamps.length := by simp [shiftTimes]
  have h2 : 2 ≤ (shiftTimes f).length := by rw [hlen]; exact h.some_sample.1
  have hx : getCoordData .float f.depth = .ok (.range ⟨x, x + dx * f.depth.length, dx, f.depth.length⟩) := by
    conv_lhs => rw [h.depths]
    exact getCoordData_progression _ _ _ _ h.spacing h.some_sample.2 none
  have hz : ∀ y ∈ shiftTimes f, ∃ z : ℤ, y = z := by
    intro y hy
    obtain ⟨s, _, rfl⟩ := List.mem_map.1 hy
    exact ⟨_, rfl⟩
  obtain ⟨hpos, hsn⟩ := snap_times h2 hz h.ascending h.storable
  obtain ⟨c, hc, hca⟩ := asks_times h2 h.ascending h.storable
  have hnear : Nearest (spacing (shiftTimes f)) (rint (spacing (shiftTimes f))) := by
    have := rint_bounds (spacing (shiftTimes f))
    exact ⟨⟨_, rfl⟩, by linarith [this.2], by linarith [this.1]⟩
  have hsh : f.data.shape = ["time", "distance"].map fun d => if d = "time" then (shiftTimes f).length else f.depth.length := by
    rw [h.shape, hlen]; rfl
  have hsome : 1 ≤ (shiftTimes f).length ∧ 1 ≤ f.depth.length := ⟨by omega, by have := h.some_sample.2; omega⟩
  refine ⟨_, hnear, ?_⟩
  cases snap with
  | true =>
    have ht : f.timeCoord true = .ok (.one .time (.range ⟨(shiftTimes f).headD 0, (shiftTimes f).headD 0 + rint (spacing (shiftTimes f)) * (shiftTimes f).length,
      rint (spacing (shiftTimes f)), (shiftTimes f).length⟩)) := hsn
    exact reads_two ha (fun a b => by unfold ShiftFile.read; rw [ht, hx]; rfl) (Or.inl rfl) (asks_range _ hpos.ne' hsome.1)
      (asks_range _ h.spacing hsome.2) hsh hsome
  | false =>
    have ht : f.timeCoord false = .ok (.one .time c) := by
      show ((getCoordData .time (shiftTimes f)).map (MCoord.one .time)).bind _ = _
      rw [hc]
      rfl
    exact reads_two ha (fun a b => by unfold ShiftFile.read; rw [ht, hx]; rfl) (Or.inl rfl) hca (asks_range _ h.spacing hsome.2) hsh hsome

example : ShiftLayout (⟨[0, 10, 25, 40], [5, 3], ⟨[4, 2], fun i => i.getD 0 0⟩⟩ : ShiftFile ℕ) 5 (-2) where
  shape := rfl
  some_sample := by decide
  ascending := by
    have : shiftTimes (⟨[0, 10, 25, 40], [5, 3], ⟨[4, 2], fun i => i.getD 0 0⟩⟩ : ShiftFile ℕ) = [0, 10000, 25000, 40000] := by decide +kernel
    rw [this]
    simp only [List.pairwise_cons, List.mem_cons, List.not_mem_nil, or_false]
    norm_num
  storable := by
    have : shiftTimes (⟨[0, 10, 25, 40], [5, 3], ⟨[4, 2], fun i => i.getD 0 0⟩⟩ : ShiftFile ℕ) = [0, 10000, 25000, 40000] := by decide +kernel
    rw [this]
    right; right; right
    rintro ⟨m, hm⟩
    have h1 := hm 0 0 10000 (by decide +kernel) (by decide +kernel)
    have h2 := hm 1 10000 25000 (by decide +kernel) (by decide +kernel)
    rw [abs_le] at h1 h2
    rcases abs_cases m with ⟨h3, _⟩ | ⟨h3, _⟩ <;> rw [h3] at h1 h2 <;> norm_num at h1 h2 <;> linarith [h1.1, h1.2, h2.1, h2.2]
  depths := by decide +kernel
  spacing := by norm_num

/-- **C95** (GDR). Without snapping every sample has its time in the file, if these can be stored; snapping keeps the first and cuts the mean spacing to nanoseconds. -/
theorem C95_gdr {f : GdrFile α} (ha : IsArgsort argsort) (h : GdrLayout f ds m) (snap : Bool) (hs : snap = false → Storable f.times) :
    ReadsWhole (f.read argsort snap) f.data ds
      (fun d k => if d = "time" then (if snap then f.times.headD 0 + k * ⌊spacing f.times⌋ else f.times.getD k 0) else k * f.interval) ∧
    ∀ time distance : Limits, time.isSome ∨ distance.isSome →
      ReadsPart (f.read argsort snap) f.data ds
        (fun d k => if d = "time" then (if snap then f.times.headD 0 + k * ⌊spacing f.times⌋ else f.times.getD k 0) else k * f.interval) time distance := by
  have hne : f.times ≠ [] := by intro hc; have := h.some_sample.1; rw [hc] at this; simp at this
  have hw : f.words.mapM gdrDim = .ok ds := by
    have hw := h.words
    generalize f.words = l at hw ⊢
    clear h
    induction hw with
    | nil => rfl
    | @cons w d l ds hw _ ih =>
      have : gdrDim w = .ok d := by
        rcases hw with ⟨rfl, hw⟩ | ⟨rfl, rfl⟩
        · unfold gdrDim; rw [if_pos hw]
        · decide +kernel
      rw [List.mapM_cons, this, ih]
      rfl
  have hm : f.data.shape.getD (ds.idxOf "distance") 0 = m := by
    rw [h.shape]
    rcases h.dims with rfl | rfl <;> rfl
  have hx : f.distanceCoord m = .ok (.range ⟨0, 0 + f.interval * m, f.interval, m⟩) := spanned_exact h.spacing h.some_sample.2 (by ring) false
  have hxa := asks_range (a := 0) .float h.spacing h.some_sample.2
  have hxa' : Asks .float (.range ⟨0, 0 + f.interval * m, f.interval, m⟩) m fun i => i * f.interval := by
    refine ⟨hxa.canon, hxa.wf, hxa.length, hxa.class', fun i hi => ?_⟩
    rw [hxa.labels i hi, zero_add]
  have hsome : 1 ≤ f.times.length ∧ 1 ≤ m := ⟨by have := h.some_sample.1; omega, h.some_sample.2⟩
  cases snap with
  | true =>
    have hn : (0 : ℚ) < (f.times.length : ℚ) - 1 := by
      have : (2 : ℚ) ≤ f.times.length := by exact_mod_cast h.some_sample.1
      linarith
    have hspread := ints_spread h.whole h.ascending hne
    have hsp : 1 ≤ spacing f.times := by unfold spacing; rw [le_div_iff₀ hn]; linarith
    have hfl : (1 : ℤ) ≤ ⌊spacing f.times⌋ := by rw [Int.le_floor]; exact_mod_cast hsp
    have hfl' : (0 : ℚ) < (⌊spacing f.times⌋ : ℚ) := by exact_mod_cast (by omega : 0 < ⌊spacing f.times⌋)
    have hle : (⌊spacing f.times⌋ : ℚ) ≤ 10 * (f.times.getLastD 0 - f.times.headD 0) := by
      have h1 := Int.floor_le (spacing f.times)
      have h2 : spacing f.times * ((f.times.length : ℚ) - 1) = f.times.getLastD 0 - f.times.headD 0 := by unfold spacing; rw [div_mul_cancel₀ _ hn.ne']
      have h3 : (2 : ℚ) ≤ f.times.length := by exact_mod_cast h.some_sample.1
      nlinarith
    have htr : truncZ ((f.times.getLastD 0 - f.times.headD 0) / ((f.times.length : ℚ) - 1)) = ⌊spacing f.times⌋ := by
      show truncZ (spacing f.times) = _
      unfold truncZ
      rw [if_pos (by linarith)]
    have ht : f.timeCoord true = .ok (.range ⟨f.times.headD 0, f.times.headD 0 + ⌊spacing f.times⌋ * f.times.length, ⌊spacing f.times⌋, f.times.length⟩) := by
      unfold GdrFile.timeCoord
      have h1 : f.times.length ≠ 0 := by omega
      have h2 : f.times.length ≠ 1 := by have := h.some_sample.1; omega
      rw [if_neg (by simp), if_neg h1, if_neg h2, htr]
      exact range_of_length hfl' hsome.1 hle true (Or.inl rfl)
    exact reads_two ha (fun a b => by unfold GdrFile.read; rw [ht, hw]; simp only [bind, Except.bind]; rw [hm, hx]) h.dims
      (asks_range _ hfl'.ne' hsome.1) hxa' h.shape hsome
  | false =>
    obtain ⟨c, hc, hca⟩ := asks_times h.some_sample.1 h.ascending (hs rfl)
    have ht : f.timeCoord false = .ok c := hc
    exact reads_two ha (fun a b => by unfold GdrFile.read; rw [ht, hw]; simp only [bind, Except.bind]; rw [hm, hx]) h.dims hca hxa' h.shape hsome

/-- A GDR file whose spacing is no whole number of nanoseconds. -/
def exGdr : GdrFile ℕ := ⟨[0, 1000, 2001], 2, ["locus", "time"], ⟨[2, 3], fun i => 10 * i.getD 0 0 + i.getD 1 0⟩⟩

theorem exGdr_layout : GdrLayout exGdr ["distance", "time"] 2 where
  dims := Or.inr rfl
  words := .cons (Or.inr ⟨rfl, rfl⟩) (.cons (Or.inl ⟨rfl, by decide +kernel⟩) .nil)
  shape := by decide
  some_sample := by decide
  whole := by
    intro t ht
    simp only [exGdr, List.mem_cons, List.not_mem_nil, or_false] at ht
    rcases ht with rfl | rfl | rfl
    · exact ⟨0, by norm_num⟩
    · exact ⟨1000, by norm_num⟩
    · exact ⟨2001, by norm_num⟩
  ascending := by
    simp only [exGdr, List.pairwise_cons, List.mem_cons, List.not_mem_nil, or_false]
    norm_num
  spacing := by decide +kernel

/-- **C95** (DASVader). Files whose rounded step does not lose the end are read under the ranges of the file. -/
theorem C95_vader {f : VaderFile α} (ha : IsArgsort argsort) (h : VaderLayout f ds) (he : EndFits f) :
    ∃ t0 t1 dt, InNanos ((f.htime - 62135683200000 : ℤ) / 1000) t0 ∧ InNanos (f.time.ref + (1 - f.time.offset) * f.time.step) t1 ∧ InNanos f.time.step dt ∧
      ReadsWhole (f.read argsort) f.data ds (evenly (t0 + t1) dt (f.offset.ref + (1 - f.offset.offset) * f.offset.step) f.offset.step) ∧
      ∀ time distance : Limits, time.isSome ∨ distance.isSome →
        ReadsPart (f.read argsort) f.data ds (evenly (t0 + t1) dt (f.offset.ref + (1 - f.offset.offset) * f.offset.step) f.offset.step) time distance := by
  have hdt := nanos_pos h.fine
  have ht : f.timeCoord = .ok (.range ⟨nanos ((f.htime - 62135683200000 : ℤ) / 1000) + nanos f.time.first,
      nanos ((f.htime - 62135683200000 : ℤ) / 1000) + nanos f.time.first + nanos f.time.step * f.time.len, nanos f.time.step, f.time.len⟩) := by
    unfold VaderFile.timeCoord
    rw [(mkRange_length hdt h.some_sample.1).2]
    · rfl
    · rw [add_sub_add_left_eq_sub]
      exact he
  have hx : f.distanceCoord = .ok (.range ⟨f.offset.first, f.offset.first + f.offset.step * f.offset.len, f.offset.step, f.offset.len⟩) :=
    getCoordParts_even h.spacing h.some_sample.2
  refine ⟨_, _, _, nanos_nearest _, nanos_nearest _, nanos_nearest _, ?_⟩
  exact reads_two ha (fun a b => by unfold VaderFile.read; rw [ht, hx, ← h.dims]; rfl) (by rw [h.dims]; split_ifs; exacts [Or.inr rfl, Or.inl rfl])
    (asks_range _ hdt.ne' h.some_sample.1) (asks_range _ h.spacing h.some_sample.2) h.shape h.some_sample

example : VaderLayout (⟨62135683200001, ⟨0, 1 / 1000, 3, 1⟩, ⟨5, 2, 2, 2⟩, true, ⟨[2, 3], fun i => i.getD 0 0⟩⟩ : VaderFile ℕ) ["distance", "time"] :=
  ⟨rfl, rfl, by decide, by norm_num, by norm_num⟩

/-- **C95** (DASVader). Exactly those files can be read. -/
theorem C95_vader_iff {f : VaderFile α} (ha : IsArgsort argsort) (h : VaderLayout f ds) : (∃ o, f.read argsort none none = .ok o) ↔ EndFits f := by
  constructor
  · rintro ⟨o, ho⟩
    by_contra hc
    have hdt := nanos_pos h.fine
    have hds : ds = ["time", "distance"] ∨ ds = ["distance", "time"] := by rw [h.dims]; split_ifs; exacts [Or.inr rfl, Or.inl rfl]
    have hx : f.distanceCoord = .ok (.range ⟨f.offset.first, f.offset.first + f.offset.step * f.offset.len, f.offset.step, f.offset.len⟩) :=
      getCoordParts_even h.spacing h.some_sample.2
    rcases mkRange_cases (a := nanos ((f.htime - 62135683200000 : ℤ) / 1000) + nanos f.time.first)
      (b := nanos ((f.htime - 62135683200000 : ℤ) / 1000) + nanos (f.time.first + f.time.len * f.time.step)) hdt.ne' with ⟨e, hm⟩ | ⟨n, hn, hm⟩
    · unfold VaderFile.read VaderFile.timeCoord at ho
      rw [hm] at ho
      cases ho
    · have hne : n ≠ f.time.len := by
        rintro rfl
        have := (mkRange_length hdt hn).1 hm
        rw [add_sub_add_left_eq_sub] at this
        exact hc this
      unfold VaderFile.read VaderFile.timeCoord at ho
      rw [hm, hx, ← h.dims] at ho
      have ho' : readLabelled argsort (timeDistance _ _) ds f.data none = .ok o := ho
      rw [two_misfit argsort hds (asks_range .time hdt.ne' hn) (asks_range .float h.spacing h.some_sample.2)] at ho'
      · cases ho'
      · rw [h.shape]
        rcases hds with rfl | rfl <;> simp <;> omega
      · rw [h.shape]
        have h1 := h.some_sample.1
        have h2 := h.some_sample.2
        rcases hds with rfl | rfl <;> simp <;> omega
  · intro he
    obtain ⟨_, _, _, _, _, _, ⟨q, hq, _⟩, _⟩ := C95_vader ha h he
    exact ⟨_, hq⟩

/-- **C95** (DASVader). If the step and the first time are whole numbers of nanoseconds, the end fits, however long the file is. -/
theorem C95_vader_fits {f : VaderFile α} (h : 1 / 2000000000 < f.time.step) {a b : ℤ} (hs : f.time.step * 1000000000 = a) (hf : f.time.first * 1000000000 = b) : EndFits f := by
  have h1 : nanos f.time.step = a := by unfold nanos; rw [hs, rint_int]
  have h2 : nanos f.time.first = b := by unfold nanos; rw [hf, rint_int]
  have h3 : nanos (f.time.first + f.time.len * f.time.step) = b + f.time.len * a := by
    unfold nanos
    have : (f.time.first + f.time.len * f.time.step) * 1000000000 = ((b + f.time.len * a : ℤ) : ℚ) := by
      push_cast
      rw [← hs, ← hf]
      ring
    rw [this, rint_int]
    push_cast
    rfl
  have hp : (0 : ℚ) < a := by rw [← h1]; exact nanos_pos h
  unfold EndFits
  rw [h1, h2, h3]
  constructor <;> nlinarith

/-- **C95** (OptoDAS). Times are counted from the time of the header, distances are multiples of the channel numbers. Reading always selects, also without limits. -/
theorem C95_opto {f : OptoFile α} {c dc : ℤ} (ha : IsArgsort argsort) (h : OptoLayout f ds c dc) :
    ∃ t0 dt, InNanos f.start t0 ∧ InNanos f.interval dt ∧
      ∀ time distance : Limits, ReadsPart (f.read argsort) f.data ds (evenly (t0 + f.lo * dt) dt (c * f.spacing) (dc * f.spacing)) time distance := by
  have hdt := nanos_pos h.fine
  have hlen : 1 ≤ (f.hi + 1 - f.lo).toNat := by have := h.some_sample.1; omega
  have hdx : (dc : ℚ) * f.spacing ≠ 0 := mul_ne_zero (by exact_mod_cast h.spacing.1) h.spacing.2
  have ht : f.timeCoord = .ok (.range ⟨nanos f.start + f.lo * nanos f.interval, nanos f.start + f.lo * nanos f.interval + nanos f.interval * (f.hi + 1 - f.lo).toNat,
      nanos f.interval, (f.hi + 1 - f.lo).toNat⟩) := by
    unfold OptoFile.timeCoord
    have : nanos f.start + (f.hi + 1) * nanos f.interval = nanos f.start + f.lo * nanos f.interval + nanos f.interval * ((f.hi + 1 - f.lo).toNat : ℕ) := by
      have : (((f.hi + 1 - f.lo).toNat : ℕ) : ℚ) = ((f.hi + 1 - f.lo : ℤ) : ℚ) := by
        rw [← Int.cast_natCast, Int.toNat_of_nonneg (by omega)]
      rw [this]
      push_cast
      ring
    rw [this, mkRange_canonical hdt.ne' hlen]
    rfl
  have hx : getCoordData .float (f.channels.map fun i : ℤ => (i : ℚ) * f.spacing) =
      .ok (.range ⟨c * f.spacing, c * f.spacing + dc * f.spacing * f.channels.length, dc * f.spacing, f.channels.length⟩) := by
    rw [← getCoordData_progression .float _ _ _ hdx h.some_sample.2 none]
    congr 1
    conv_lhs => rw [h.channels]
    unfold progression
    rw [List.map_map]
    refine List.map_congr_left fun i _ => ?_
    simp only [Function.comp]
    push_cast
    ring
  refine ⟨_, _, nanos_nearest _, nanos_nearest _, ?_⟩
  intro time distance
  obtain ⟨w, gs, q, h1, h2, h3, h4⟩ := two_part (data := f.data) ha (ds := ds) (by rw [h.dims]; split_ifs; exacts [Or.inl rfl, Or.inr rfl])
    (asks_range .time (a := nanos f.start + f.lo * nanos f.interval) hdt.ne' hlen)
    (asks_range .float (a := c * f.spacing) hdx (show 1 ≤ f.channels.length by have := h.some_sample.2; omega)) h.shape (time.getD (none, none)) (distance.getD (none, none))
    (kw := [("distance", .between (distance.getD (none, none)).1 (distance.getD (none, none)).2), ("time", .between (time.getD (none, none)).1 (time.getD (none, none)).2)])
    (List.Perm.swap _ _ _)
  refine ⟨w, gs, q, h1, h2, h3, ?_⟩
  unfold OptoFile.read
  rw [ht, hx, ← h.dims]
  exact h4

example : OptoLayout (⟨3, 1 / 1000, 0, 2, 4, [10, 12], true, ⟨[3, 2], fun i => i.getD 0 0⟩⟩ : OptoFile ℕ) ["time", "distance"] 10 2 :=
  ⟨rfl, rfl, by decide, by norm_num, by decide, by norm_num⟩

/-- **C95.** Labels which are a rounded period apart differ from the exact times by at most half a nanosecond per sample. -/
theorem C95_drift {p dt : ℚ} (h : InNanos p dt) (t : ℚ) (k : ℕ) : |(t + k * dt) - (t + k * (p * 1000000000))| ≤ k / 2 := by
  have hk : (0 : ℚ) ≤ k := Nat.cast_nonneg k
  rw [abs_le]
  constructor <;> nlinarith [h.2.1, h.2.2]

/-- **C95 violated** (drift): at 7000 samples a second the fourth sample after the first is labelled 571428 ns, although 571429 ns is nearer to its time. Errors add up: after
a million samples they are a whole sampling period. -/
theorem C95_drift_violated :
    Nearest (4 / 7000 * 1000000000) 571429 ∧
    ((⟨7000, 0, true, 5, 0, 1, ⟨[5, 1], fun i => i.getD 0 0⟩⟩ : ApFile ℕ).read stableArgsort none none).map (fun o => o.map fun q => label q "time" [4, 0]) =
      .ok (some (some (some 571428))) := by
  refine ⟨⟨⟨571429, by norm_num⟩, by norm_num, by norm_num⟩, by decide +kernel⟩

/-- **C95 violated** (DASVader): a file with 60 000 samples, 7000 of them a second, cannot be read: there is one label too many. -/
theorem C95_vader_violated :
    ((⟨62135683200000, ⟨0, 1 / 7000, 60000, 1⟩, ⟨0, 1, 2, 1⟩, true, ⟨[2, 60000], fun i => i.getD 0 0⟩⟩ : VaderFile ℕ).read stableArgsort none none).map (fun o => o.isSome) =
      .error .coordError := by decide +kernel

/-- **C95 violated** (GDR): the time of the last sample is in the file, 2001 ns. It is read as 2000 ns. -/
theorem C95_gdr_violated :
    (exGdr.read stableArgsort true none none).map (fun o => o.map fun q => label q "time" [0, 2]) = .ok (some (some (some 2000))) := by decide +kernel

/-- **C95 violated** (GDR): a file with one time can only be read without snapping. -/
theorem C95_gdr_single_violated :
    ((⟨[7], 2, ["time", "locus"], ⟨[1, 2], fun i => i.getD 0 0⟩⟩ : GdrFile ℕ).read stableArgsort true none none).map (fun o => o.isSome) = .error .valueError ∧
    ((⟨[7], 2, ["time", "locus"], ⟨[1, 2], fun i => i.getD 0 0⟩⟩ : GdrFile ℕ).read stableArgsort false none none).map (fun o => o.isSome) = .ok true := by
  constructor <;> decide +kernel

end Verif
