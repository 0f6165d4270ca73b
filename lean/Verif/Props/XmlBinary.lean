import Verif.Proof.XmlBinary
import Verif.Props.Patch
/-!
# C100: Directories of raw files with an XML header
-/
namespace Verif
open Spec
variable {α : Type} {n m : ℕ} {argsort : List ℚ → List ℕ}

/-- **C100.** Reading a raw file within any limits, open or not, never fails, and gives what selecting from the whole file gives: its values frame after frame, times from the instant in
its name on, one sampling period (rounded to nanoseconds) apart, channel `c` at `c - 1` sampling intervals. -/
theorem C100_file (ha : IsArgsort argsort) {x : XmlInfo} {f : RawFile α} (h : RawLayout x f n m) :
    ∃ dt, InNanos (1 / x.rate) dt ∧ ∀ time distance : Option ℚ × Option ℚ, ∃ q, x.readFile argsort f time distance = .ok q ∧ RawWithin x dt n m time distance f q :=
  ⟨_, nanos_nearest _, fun time distance => raw_read ha h time distance⟩

/-- Two frames of three channels. -/
def exInfo : XmlInfo := ⟨11, 13, 1, 1 / 2, 1000, 2, false⟩

/-- A file of it. -/
def exFrames (start : ℚ) : RawFile ℕ := ⟨start, 6, fun k => k⟩

example : RawLayout exInfo (exFrames 7) 2 3 := ⟨rfl, by decide, by decide, rfl, by norm_num [exInfo], by norm_num [exInfo], rfl⟩
example : ((exInfo.readFile stableArgsort (exFrames 7) (none, none) (some (11 / 2), none)).map fun q => (q.data.shape, q.data.get [1, 0], label q "distance" [1, 0], label q "time" [1, 0])) =
    .ok ([2, 2], 4, some (some (11 / 2)), some (some 1000007)) := by decide +kernel

/-- **C100.** Reading a directory gives, in the order of the files, one patch for each file kept, with what lies within the limits; and no file with a sample within the limits is left
out. -/
theorem C100_directory (ha : IsArgsort argsort) (x : XmlInfo) (files : List (RawFile α)) (h : ∀ f ∈ files, RawLayout x f n m) :
    ∃ dt, InNanos (1 / x.rate) dt ∧ ∀ time distance : Option ℚ × Option ℚ, ∃ kept qs, x.readDir argsort files time distance = .ok qs ∧ kept.Sublist files ∧
      List.Forall₂ (RawWithin x dt n m time distance) kept qs ∧
      ∀ f ∈ files, ∀ i < n, ∀ j < m, Bounded time (f.start + (i : ℕ) * dt) → Bounded distance ((x.first - 1 + (j : ℕ)) * x.interval) → f ∈ kept := by
  refine ⟨_, nanos_nearest _, fun time distance => ?_⟩
  set dt := nanos (1 / x.rate) with hdt
  set keep : RawFile α → Bool := fun f =>
    meets time (some (Coord.range ⟨f.start, f.start + dt * n, dt, n⟩).ends.1, some (Coord.range ⟨f.start, f.start + dt * n, dt, n⟩).ends.2) &&
      meets distance (some (Coord.range ⟨(x.first - 1) * x.interval, (x.first - 1) * x.interval + x.interval * m, x.interval, m⟩).ends.1,
        some (Coord.range ⟨(x.first - 1) * x.interval, (x.first - 1) * x.interval + x.interval * m, x.interval, m⟩).ends.2) with hkeep
  have hw : ∀ l : List (RawFile α), (∀ f ∈ l, RawLayout x f n m) → l.mapM (x.wanted time distance) = .ok (l.map fun f => (f, keep f)) := by
    intro l
    induction l with
    | nil => intro _; rfl
    | cons f l ih =>
      intro hl
      obtain ⟨h1, h2⟩ := raw_coords (hl f (by simp))
      have hf : x.wanted time distance f = .ok (f, keep f) := by
        unfold XmlInfo.wanted
        rw [h1, h2]
        rfl
      rw [List.mapM_cons, hf, ih fun g hg => hl g (by simp [hg])]
      rfl
  have hk : (((files.map fun f => (f, keep f)).filter fun w => w.2).map fun w => w.1) = files.filter keep := by
    rw [List.filter_map, List.map_map]
    exact List.map_id' _
  have hr : ∀ l : List (RawFile α), (∀ f ∈ l, RawLayout x f n m) → ∃ qs, (l.mapM fun f => x.readFile argsort f time distance) = .ok qs ∧
      List.Forall₂ (RawWithin x dt n m time distance) l qs := by
    intro l
    induction l with
    | nil => intro _; exact ⟨[], rfl, .nil⟩
    | cons f l ih =>
      intro hl
      obtain ⟨q, h1, h2⟩ := raw_read ha (hl f (by simp)) time distance
      obtain ⟨qs, h3, h4⟩ := ih fun g hg => hl g (by simp [hg])
      refine ⟨q :: qs, ?_, .cons h2 h4⟩
      rw [List.mapM_cons, h1, h3]
      rfl
  obtain ⟨qs, h1, h2⟩ := hr (files.filter keep) fun f hf => h f (List.mem_of_mem_filter hf)
  refine ⟨files.filter keep, qs, ?_, List.filter_sublist, h2, ?_⟩
  · unfold XmlInfo.readDir
    rw [hw files h]
    simp only [bind, Except.bind]
    rw [hk, h1]
  · intro f hf i hi j hj ht hx
    have hlay := h f hf
    have hpos := nanos_rate hlay.rate
    refine List.mem_filter.2 ⟨hf, ?_⟩
    rw [hkeep]
    simp only [Bool.and_eq_true]
    refine ⟨meets_bounded ht (ends_bounds hpos hi _), meets_bounded hx ?_⟩
    have := ends_bounds (a := (x.first - 1) * x.interval) hlay.spacing hj ((x.first - 1) * x.interval + x.interval * m)
    rw [show (((x.first : ℚ) - 1 + (j : ℕ)) * x.interval) = (x.first - 1) * x.interval + j * x.interval by ring]
    exact this

example : ((exInfo.readDir stableArgsort [exFrames 7, exFrames 3000007] (none, some 5) (none, none)).map fun qs => qs.length) = .ok 0 ∧
    ((exInfo.readDir stableArgsort [exFrames 7, exFrames 3000007] (some 2000000, none) (none, none)).map fun qs => qs.map fun q => label q "time" [1, 0]) = .ok [some (some 4000007)] := by
  decide +kernel

/-- **C100.** A file of another size than its header says, and a header which says that the data are transposed, are refused. -/
theorem C100_refused {x : XmlInfo} {f : RawFile α} {time distance : Option ℚ × Option ℚ} :
    (x.transposed = true → x.readFile argsort f time distance = .error .assertionError) ∧
    ∀ g : RawFile α, RawLayout x g n m → f.start = g.start → f.size ≠ n * m → x.readFile argsort f time distance = .error .assertionError := by
  constructor
  · intro h
    unfold XmlInfo.readFile
    rw [if_pos h]
  · intro g h hs hne
    have hdt := nanos_rate h.rate
    obtain ⟨ht, hx⟩ := raw_coords h
    obtain ⟨cm, h1, h2⟩ : ∃ cm, wholeCM (timeDistance (.range ⟨g.start, g.start + nanos (1 / x.rate) * n, nanos (1 / x.rate), n⟩)
        (.range ⟨(x.first - 1) * x.interval, (x.first - 1) * x.interval + x.interval * m, x.interval, m⟩)) ["time", "distance"] = .ok cm ∧ cm.shape = [n, m] := by
      obtain ⟨cm, h1, _, _, h4, _⟩ := wholeCM_spec (two_labels (Or.inl rfl) (asks_range .time (a := g.start) hdt.ne' h.some_sample.1)
        (asks_range .float (a := (x.first - 1) * x.interval) h.spacing.ne' h.some_sample.2))
      exact ⟨cm, h1, h4⟩
    unfold XmlInfo.readFile
    rw [h.upright, if_neg Bool.false_ne_true, hs, ht, hx]
    simp only [bind, Except.bind]
    rw [h1]
    simp only
    unfold RawFile.fill
    rw [h2, if_pos (by simpa using hne)]

example : RawLayout exInfo (exFrames 7) 2 3 ∧ (⟨7, 5, fun k => k⟩ : RawFile ℕ).start = (exFrames 7).start ∧ (⟨7, 5, fun k => k⟩ : RawFile ℕ).size ≠ 2 * 3 :=
  ⟨⟨rfl, by decide, by decide, rfl, by norm_num [exInfo], by norm_num [exInfo], rfl⟩, rfl, by decide⟩

/-- **C100 violated** (every second channel): the header tells of a stride, but the distances are made without it. A file with the channels 1, 3 and 5 can not be read. -/
theorem C100_stride_violated : ((⟨1, 5, 2, 1 / 2, 1000, 2, false⟩ : XmlInfo).readFile stableArgsort (exFrames 7) (none, none) (none, none)).map (fun q => q.data.shape) =
    .error .assertionError := by decide +kernel

/-- **C100** (history). A header is read from the disk the first time. -/
theorem C100_fresh (cache disk : Dict XmlInfo) (path : String) (x : XmlInfo) (hc : cache.get? path = none) (hd : disk.get? path = some x) :
    (readInfo cache disk path).map Prod.fst = .ok x := by
  unfold readInfo
  rw [hc, hd]
  rfl

/-- **C100 violated** (history). After that, whatever is written to the disk, reading goes on with the first header. -/
theorem C100_stale_violated (cache disk disk' : Dict XmlInfo) (path : String) (x y : XmlInfo) (hc : cache.get? path = none) (hd : disk.get? path = some x)
    (_hd' : disk'.get? path = some y) (_hxy : x ≠ y) : ∃ cache', readInfo cache disk path = .ok (x, cache') ∧ readInfo cache' disk' path = .ok (x, cache') := by
  refine ⟨Dict.set cache path x, ?_, ?_⟩
  · unfold readInfo
    rw [hc, hd]
  · unfold readInfo
    rw [show Dict.get? (Dict.set cache path x) path = some x by rw [Dict.get?_set]; simp]

example : Dict.get? ([] : Dict XmlInfo) "metadata.xml" = none ∧ Dict.get? [("metadata.xml", exInfo)] "metadata.xml" = some exInfo ∧
    Dict.get? [("metadata.xml", { exInfo with frames := 3 })] "metadata.xml" = some { exInfo with frames := 3 } ∧ exInfo ≠ { exInfo with frames := 3 } :=
  ⟨rfl, rfl, rfl, fun h => absurd (congrArg XmlInfo.frames h) (by decide)⟩

end Verif
