import Verif.Proof.Registry
/-! # Properties C32, C33: finding readers of file formats -/
namespace Verif
open Spec Reg

variable {eps : List EntryPoint} {fs : List Fiber}

/-! ## Examples -/

/-- Two versions of an installed format, one of another, and an entry point that fails to load. -/
def exEps : List EntryPoint :=
  [⟨"DASDAE__V1", some ⟨"DASDAE", "1", ["h5"], "file", 1⟩⟩, ⟨"PICKLE", some ⟨"Pickle", "1.0", ["pkl"], "file", 2⟩⟩,
   ⟨"STALE__V2", none⟩, ⟨"DASDAE__V2", some ⟨"dasdae", "2", ["h5"], "file", 3⟩⟩, ⟨"ZARR", some ⟨"zarr", "3", [], "directory", 4⟩⟩]

/-- A format registered by hand, out of order and one of them twice. -/
def exFibers : List Fiber :=
  [⟨"mine", "1.2", ["h5", "m"], "file", 10⟩, ⟨"MINE", "1.10a", ["h5"], "file", 11⟩, ⟨"mine", "1.2", ["h5", "m"], "file", 10⟩]

theorem exSetup : Setup exEps exFibers where
  unambiguous := by unfold Unambiguous; decide +kernel
  named := by
    constructor
    · have : ∀ e ∈ exEps, e.fiber = none ∨ e.fiber.map (fun f => upperS f.name) = some (String.ofList (beforeDunder e.name.toList)) := by
        decide +kernel
      intro e he f hf
      have := this e he
      rw [hf] at this
      simp only [reduceCtorEq, Option.map_some, Option.some.injEq, false_or] at this
      exact this.symm
    · unfold PlainName; decide +kernel
  separate := by unfold Separate; decide +kernel

/-! ## C33: looking readers up -/

/-- C33. After registering any readers, in any order and any number of times, and after any lookups and detections, `get_fiberio(name,
version)` returns the reader with that name and version, and raises `UnknownFiberFormatError` if there is none. -/
theorem C33_version (hs : Setup eps fs) (ops : List RegOp) (ho : ∀ op ∈ ops, LookupOnly eps op) {fmt v : String} (hv : v ≠ "")
    (hF : PlainName eps fmt) (hF' : PlainName eps (upperS fmt)) :
    FindsVersion (allReaders eps fs) fmt v ((ops.foldl Registry.step (registered eps fs)).getFiberio fmt (some v)).1 :=
  (getFiberio_spec hs (inv_history hs ops (inv_registered hs) ho) (some v) hF hF').2.2 v rfl hv

/-- C33. ... `get_fiberio(name)` returns the reader with the greatest version, compared as strings. -/
theorem C33_latest_string (hs : Setup eps fs) (ops : List RegOp) (ho : ∀ op ∈ ops, LookupOnly eps op) {fmt : String}
    (hF : PlainName eps fmt) (hF' : PlainName eps (upperS fmt)) :
    FindsNewest LaterString (allReaders eps fs) fmt ((ops.foldl Registry.step (registered eps fs)).getFiberio fmt none).1 :=
  (getFiberio_spec hs (inv_history hs ops (inv_registered hs) ho) none hF hF').2.1 (.inl rfl)

theorem newest_iff {all : List Fiber} (hv : VersionsSortAsStrings all) {fmt : String} {f : Fiber} :
    Newest LaterString all fmt f ↔ Newest AtLeast all fmt f := by
  constructor
  · rintro ⟨a, b, c⟩
    exact ⟨a, b, fun g hg e => (hv g hg f a (e.trans b.symm)).1 (c g hg e)⟩
  · rintro ⟨a, b, c⟩
    exact ⟨a, b, fun g hg e => (hv g hg f a (e.trans b.symm)).2 (c g hg e)⟩

/-- C33. ... which is the newest version. Missing: versions whose order as strings is not that of their numbers
(`C33_newest_violated`). -/
theorem C33_newest_partial (hs : Setup eps fs) (hv : VersionsSortAsStrings (allReaders eps fs)) (ops : List RegOp)
    (ho : ∀ op ∈ ops, LookupOnly eps op) {fmt : String} (hF : PlainName eps fmt) (hF' : PlainName eps (upperS fmt)) :
    FindsNewest AtLeast (allReaders eps fs) fmt ((ops.foldl Registry.step (registered eps fs)).getFiberio fmt none).1 := by
  rcases C33_latest_string hs ops ho hF hF' with ⟨f, hr, hf⟩ | h
  · exact .inl ⟨f, hr, (newest_iff hv).1 hf⟩
  · exact .inr h

theorem looksUp_unique {all all' : List Fiber} (hu : Unambiguous all) (hm : ∀ f, f ∈ all ↔ f ∈ all') {fmt : String}
    {version : Option String} {r r' : Except Err Fiber} (h : LooksUp LaterString all fmt version r)
    (h' : LooksUp LaterString all' fmt version r') : r = r' := by
  by_cases hv : version = none ∨ version = some ""
  · rcases h.1 hv with ⟨f, rfl, hf⟩ | ⟨rfl, hn⟩
    · rcases h'.1 hv with ⟨g, rfl, hg⟩ | ⟨rfl, hn⟩
      · have h1 := hf.2.2 g ((hm g).2 hg.1) hg.2.1
        have h2 := hg.2.2 f ((hm f).1 hf.1) hf.2.1
        have : f = g := hu f hf.1 g ((hm g).2 hg.1) (by
          rw [Fiber.key, Fiber.key, hf.2.1, hg.2.1, le_antisymm h2 h1])
        rw [this]
      · exact absurd hf.2.1 (hn f ((hm f).1 hf.1))
    · rcases h'.1 hv with ⟨g, rfl, hg⟩ | ⟨rfl, -⟩
      · exact absurd hg.2.1 (hn g ((hm g).2 hg.1))
      · rfl
  · cases version with
    | none => exact absurd (.inl rfl) hv
    | some v =>
      have hv' : v ≠ "" := fun e => hv (.inr (by rw [e]))
      rcases h.2 v rfl hv' with ⟨f, rfl, hf⟩ | ⟨rfl, hn⟩
      · rcases h'.2 v rfl hv' with ⟨g, rfl, hg⟩ | ⟨rfl, hn⟩
        · have : f = g := hu f hf.1 g ((hm g).2 hg.1) (by
            rw [Fiber.key, Fiber.key, hf.2.1, hg.2.1, hf.2.2, hg.2.2])
          rw [this]
        · exact absurd hf.2 (hn f ((hm f).1 hf.1))
      · rcases h'.2 v rfl hv' with ⟨g, rfl, hg⟩ | ⟨rfl, -⟩
        · exact absurd hg.2 (hn g ((hm g).2 hg.1))
        · rfl

/-- C33. Two sessions which registered the same readers, in different orders and numbers of times, and looked up or detected different
things since, give the same answer to any lookup. -/
theorem C33_order {fs' : List Fiber} (hs : Setup eps fs) (hs' : Setup eps fs') (hm : ∀ f, f ∈ fs ↔ f ∈ fs') (ops ops' : List RegOp)
    (ho : ∀ op ∈ ops, LookupOnly eps op) (ho' : ∀ op ∈ ops', LookupOnly eps op) {fmt : String} (version : Option String)
    (hF : PlainName eps fmt) (hF' : PlainName eps (upperS fmt)) :
    ((ops.foldl Registry.step (registered eps fs)).getFiberio fmt version).1 =
      ((ops'.foldl Registry.step (registered eps fs')).getFiberio fmt version).1 := by
  refine looksUp_unique hs.unambiguous (fun f => ?_)
    (getFiberio_spec hs (inv_history hs ops (inv_registered hs) ho) version hF hF').2
    (getFiberio_spec hs' (inv_history hs' ops' (inv_registered hs') ho') version hF hF').2
  rw [mem_all, mem_all, hm]

/-- A history of lookups and detections. -/
def exOps : List RegOp :=
  [.lookup "dasdae" none, .detect id (fun f => if f.uid = 11 then .yes "MINE" "1.10a" else .no) none none none (some "h5") "file",
   .lookup "nothing" (some "2"), .detect List.reverse (fun _ => .raises) none none none none "directory"]

theorem exOps_ok : ∀ op ∈ exOps, LookupOnly exEps op := by
  intro op hop
  simp only [exOps, List.mem_cons, List.not_mem_nil, or_false] at hop
  rcases hop with rfl | rfl | rfl | rfl
  · refine ⟨?_, ?_⟩ <;> (unfold PlainName; decide +kernel)
  · exact ⟨fun l => List.Perm.refl l, fun f h => by cases h⟩
  · refine ⟨?_, ?_⟩ <;> (unfold PlainName; decide +kernel)
  · exact ⟨fun l => List.reverse_perm l, fun f h => by cases h⟩

/-- Example: the lookups after that history. -/
example : ((exOps.foldl Registry.step (registered exEps exFibers)).getFiberio "Dasdae" none).1 = .ok ⟨"dasdae", "2", ["h5"], "file", 3⟩ := by
  decide +kernel

example : ((exOps.foldl Registry.step (registered exEps exFibers)).getFiberio "mine" (some "1.2")).1 =
    .ok ⟨"mine", "1.2", ["h5", "m"], "file", 10⟩ := by decide +kernel

example : ((exOps.foldl Registry.step (registered exEps exFibers)).getFiberio "mine" (some "1.3")).1 = .error .unknownFiberFormat := by
  decide +kernel

/-- Example: the installed versions sort as strings. -/
example : VersionsSortAsStrings (installed exEps) := by unfold VersionsSortAsStrings AtLeast; decide +kernel

/-- C33 is violated: versions are compared as strings. Of the versions 8, 9, 10 and 11 of OptoDAS (io/optodas), 9 counts as newest. -/
theorem C33_newest_violated :
    let fs : List Fiber := [⟨"OptoDAS", "8", ["hdf5"], "file", 8⟩, ⟨"OptoDAS", "9", ["hdf5"], "file", 9⟩,
      ⟨"OptoDAS", "10", ["hdf5"], "file", 10⟩, ⟨"OptoDAS", "11", ["hdf5"], "file", 11⟩]
    Setup [] fs ∧ ((registered [] fs).getFiberio "OPTODAS" none).1 = .ok ⟨"OptoDAS", "9", ["hdf5"], "file", 9⟩ ∧
      ¬ FindsNewest AtLeast (allReaders [] fs) "OPTODAS" ((registered [] fs).getFiberio "OPTODAS" none).1 := by
  refine ⟨⟨?_, ?_, ?_⟩, ?_, ?_⟩
  · unfold Unambiguous; decide +kernel
  · unfold WellNamed; simp
  · unfold Separate; simp
  · decide +kernel
  · have : ((registered [] [⟨"OptoDAS", "8", ["hdf5"], "file", 8⟩, ⟨"OptoDAS", "9", ["hdf5"], "file", 9⟩,
      ⟨"OptoDAS", "10", ["hdf5"], "file", 10⟩, ⟨"OptoDAS", "11", ["hdf5"], "file", 11⟩]).getFiberio "OPTODAS" none).1 =
        .ok ⟨"OptoDAS", "9", ["hdf5"], "file", 9⟩ := by decide +kernel
    rw [this]
    rintro (⟨f, hf, -, -, hn⟩ | ⟨hf, -⟩)
    · cases hf
      have := hn ⟨"OptoDAS", "10", ["hdf5"], "file", 10⟩ (by decide +kernel) (by decide +kernel)
      revert this
      unfold AtLeast
      decide +kernel
    · cases hf

/-- C33 is violated: of two readers with the same name and version the first registered is found, so the order matters. -/
theorem C33_order_violated :
    let a : Fiber := ⟨"mine", "1", [], "file", 1⟩
    let b : Fiber := ⟨"Mine", "1", [], "file", 2⟩
    ((registered [] [a, b]).getFiberio "mine" none).1 = .ok a ∧ ((registered [] [b, a]).getFiberio "mine" none).1 = .ok b := by
  decide +kernel

/-- C33 is violated: a lookup before a newer version is registered goes on giving the older one. -/
theorem C33_stale_violated :
    let a : Fiber := ⟨"mine", "1", [], "file", 1⟩
    let b : Fiber := ⟨"mine", "2", [], "file", 2⟩
    let s := [RegOp.register a, .lookup "mine" none, .register b].foldl Registry.step (fresh [])
    (s.getFiberio "mine" none).1 = .ok a ∧ (s.getFiberio "mine" (some "2")).1 = .ok b := by
  decide +kernel

/-- C33 is violated: registering one version of an installed format by hand hides the installed ones. -/
theorem C33_hidden_violated :
    let a : Fiber := ⟨"dasdae", "0", [], "file", 20⟩
    ((registered exEps []).getFiberio "DASDAE" (some "2")).1 = .ok ⟨"dasdae", "2", ["h5"], "file", 3⟩ ∧
      ((registered exEps [a]).getFiberio "DASDAE" (some "2")).1 = .error .unknownFiberFormat := by
  decide +kernel

/-! ## C32: detecting formats -/

theorem rest_numbers {all : List Fiber} (hv : VersionsSortAsStrings all) {t : String} {P : Fiber → Prop} {l : List Fiber}
    (h : Rest LaterString all t P l) : Rest AtLeast all t P l := by
  refine ⟨h.mem, h.once, ?_, ?_⟩
  · refine h.newer.imp_of_mem ?_
    intro f g hf hg hfg e
    exact (hv g ((h.mem g).1 hg).1.1 f ((h.mem f).1 hf).1.1 e.symm).1 (hfg e)
  · exact h.newestFirst.imp fun h hn => (newest_iff hv).1 (h ((newest_iff hv).2 hn))

/-- C32. After registering any readers and any lookups and detections, detecting the format of a file asks every reader for its
type: the one hinted at, then those with its extension, then the others (the newest of each format before older ones). The answer is that
of the first which recognises the file; readers which fail are passed over; the detection fails exactly if none recognises it.

Missing: the readers with the extension need not be tried newest first (`C32_extension_violated`); versions whose order as strings is not
that of their numbers; readers registered after the first detection (`C32_late_violated`). -/
theorem C32_detect_partial (hs : Setup eps fs) (hv : VersionsSortAsStrings (allReaders eps fs)) (ops : List RegOp)
    (ho : ∀ op ∈ ops, LookupOnly eps op) {order : List String → List String} (hord : ∀ l, (order l).Perm l)
    (ask : Fiber → Registry.Answer) (hint : Option Fiber) (ext : Option String) (t : String) :
    ∃ l, SearchOrder AtLeast (allReaders eps fs) hint ext t l ∧
      FirstToRecognise ask l ((ops.foldl Registry.step (registered eps fs)).getFormat order ask none none hint ext t).1 := by
  obtain ⟨-, l, ⟨b, r, h1, h2, h3⟩, hf⟩ := getFormat_detect hs (inv_history hs ops (inv_registered hs) ho) (.inl rfl) hord ask hint ext t
  exact ⟨l, ⟨b, r, h1, h2, rest_numbers hv h3⟩, hf⟩

/-- C32, whatever the versions: `UnknownFiberFormatError` is raised exactly if no reader for the type (nor the one hinted at) recognises
the file, and what is returned is what one of them answered. -/
theorem C32_error_iff (hs : Setup eps fs) (ops : List RegOp)
    (ho : ∀ op ∈ ops, LookupOnly eps op) {order : List String → List String} (hord : ∀ l, (order l).Perm l)
    (ask : Fiber → Registry.Answer) (hint : Option Fiber) (ext : Option String) (t : String) :
    let r := ((ops.foldl Registry.step (registered eps fs)).getFormat order ask none none hint ext t).1
    let asked : Fiber → Prop := fun f => hint = some f ∨ ForType (allReaders eps fs) t f
    (r = .error .unknownFiberFormat ↔ ∀ f, asked f → ∀ n v, ask f ≠ .yes n v) ∧
      (∀ e, r = .error e → e = .unknownFiberFormat) ∧ ∀ n v, r = .ok (n, v) → ∃ f, asked f ∧ ask f = .yes n v := by
  intro r asked
  obtain ⟨-, l, ⟨b, c, h1, h2, h3⟩, hf⟩ := getFormat_detect hs (inv_history hs ops (inv_registered hs) ho) (.inl rfl) hord ask hint ext t
  have hm : ∀ f, f ∈ l ↔ asked f := by
    intro f
    rw [h1, List.mem_append, List.mem_append, h2, h3.mem, Option.mem_toList]
    simp only [asked]
    tauto
  have hf : FirstToRecognise ask l r := hf
  rcases hf with ⟨l1, f, l2, n, v, rfl, hy, -, hr⟩ | ⟨hr, hn⟩
  · have hfa := (hm f).1 (by simp)
    refine ⟨⟨fun h => ?_, fun h => absurd hy (h f hfa n v)⟩, ?_, ?_⟩
    · rw [hr] at h; cases h
    · intro e h; rw [hr] at h; cases h
    · intro n' v' h
      rw [hr] at h; cases h
      exact ⟨f, hfa, hy⟩
  · refine ⟨⟨fun _ f hfa => hn f ((hm f).2 hfa), fun _ => hr⟩, ?_, ?_⟩
    · intro e h; rw [hr] at h; cases h; rfl
    · intro n v h; rw [hr] at h; cases h

/-- C32, the format given: its readers are asked newest first, or only the one with the version given. -/
theorem C32_format_partial (hs : Setup eps fs) (hv : VersionsSortAsStrings (allReaders eps fs)) (ops : List RegOp)
    (ho : ∀ op ∈ ops, LookupOnly eps op) {fmt : String} (version : Option String) (hF : PlainName eps fmt)
    (hF' : PlainName eps (upperS fmt)) (order : List String → List String) (ask : Fiber → Registry.Answer) (hint : Option Fiber)
    (ext : Option String) (t : String) :
    ∃ l, FormatOrder AtLeast (allReaders eps fs) fmt version l ∧
      FirstToRecognise ask l ((ops.foldl Registry.step (registered eps fs)).getFormat order ask (some fmt) version hint ext t).1 := by
  obtain ⟨-, l, hl, hf⟩ := getFormat_given hs (inv_history hs ops (inv_registered hs) ho) version hF hF' order ask hint ext t
  refine ⟨l, ⟨hl.mem, ?_⟩, hf⟩
  refine hl.newer.imp_of_mem ?_
  intro f g hf hg hfg
  have h1 := (hl.mem f).1 hf
  have h2 := (hl.mem g).1 hg
  exact (hv g h2.1 f h1.1 (h2.2.1.trans h1.2.1.symm)).1 hfg

/-- Only a version: an error. -/
theorem C32_version_only (s : Registry) (order : List String → List String) (ask : Fiber → Registry.Answer) {v : String} (hv : v ≠ "")
    (hint : Option Fiber) (ext : Option String) (t : String) :
    (s.getFormat order ask none (some v) hint ext t).1 = .error .unknownFiberFormat := by
  unfold Registry.getFormat
  simp only [Option.getD_some]
  rw [if_pos hv]

/-- Example: the search order. The reader hinted at fails, those with the extension do not know the file, the last to be tried does. -/
example : let ask : Fiber → Registry.Answer := fun f => if f.uid = 10 then .raises else if f.uid = 2 then .yes "PICKLE" "1.0" else .no
    ((exOps.foldl Registry.step (registered exEps exFibers)).getFormat id ask none none (some ⟨"mine", "1.2", ["h5", "m"], "file", 10⟩)
      (some "h5") "file").1 = .ok ("PICKLE", "1.0") := by decide +kernel

example : let ask : Fiber → Registry.Answer := fun f => if f.uid = 4 then .yes "ZARR" "3" else .no
    ((exOps.foldl Registry.step (registered exEps exFibers)).getFormat id ask none none none (some "h5") "file").1 =
      .error .unknownFiberFormat := by decide +kernel

/-- C32 is violated: among the readers with the extension the one registered first is tried first, though there is a newer version
(both recognise the file). -/
theorem C32_extension_violated :
    let a : Fiber := ⟨"mine", "1", ["m"], "file", 1⟩
    let b : Fiber := ⟨"mine", "2", ["m"], "file", 2⟩
    let ask : Fiber → Registry.Answer := fun f => .yes f.name f.version
    ((registered [] [a, b]).getFormat id ask none none none (some "m") "file").1 = .ok ("mine", "1") ∧
      ((registered [] [a, b]).getFormat id ask none none none none "file").1 = .ok ("mine", "2") := by
  decide +kernel

/-- C32 is violated: a reader registered after the first detection is not asked (unless it has the extension). -/
theorem C32_late_violated :
    let a : Fiber := ⟨"mine", "1", ["m"], "file", 1⟩
    let b : Fiber := ⟨"yours", "1", ["y"], "file", 2⟩
    let ask : Fiber → Registry.Answer := fun f => if f.uid = 2 then .yes f.name f.version else .no
    let late := [RegOp.register a, .detect id ask none none none none "file", .register b].foldl Registry.step (fresh [])
    (late.getFormat id ask none none none none "file").1 = .error .unknownFiberFormat ∧
      ((registered [] [a, b]).getFormat id ask none none none none "file").1 = .ok ("yours", "1") := by
  decide +kernel

end Verif
