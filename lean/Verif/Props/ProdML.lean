import Verif.Proof.ProdML
import Verif.Props.Patch
/-!
# C94: ProdML files

Reading a ProdML file gives one patch for every band and every raw recording in it, with the samples of the file under the times and distances
which the file gives them.
-/
namespace Verif
open Spec
variable {α : Type} {f : ProdFile α}

/-- **C94.** Every recording in the file is read, bands first: its samples under its times and under the distances of its loci. Times are evenly spaced if
the spacing is a whole number of nanoseconds, and taken from the array of times otherwise (if these can be stored, C14, and nobody is unlucky). -/
theorem C94_read_partial (argsort : List ℚ → List ℕ) (hc : 1 ≤ f.count) (hi : f.interval ≠ 0) (h : ∀ p ∈ prodParts f, PartLayout f p) :
    ∃ qs, f.read argsort none none = .ok qs ∧ List.Forall₂ (HoldsPart f) (prodParts f) qs := by
  have hall : ∀ (ns : List (Option (ℤ × ℕ) × ProdNode α)) (ps : List (ℤ × ℕ × ProdNode α)), (∀ p ∈ ps, PartLayout f p) →
      List.Forall₂ (fun n p => n.2 = p.2.2 ∧ (n.1 = none ∧ p.1 = 0 ∧ p.2.1 = f.count ∨ n.1 = some (p.1, p.2.1))) ns ps →
      ∃ qs : List (PatchM α), ns.mapM (ProdFile.readNode argsort ⟨f.first * f.interval, f.first * f.interval + f.interval * f.count, f.interval, f.count⟩ none none) =
        .ok (qs.map some) ∧ List.Forall₂ (HoldsPart f) ps qs := by
    intro ns ps hps hr
    induction hr with
    | nil => exact ⟨[], rfl, List.Forall₂.nil⟩
    | @cons n p ns ps hnp _ ih =>
      obtain ⟨qs, h1, h2⟩ := ih fun p hp => hps p (by simp [hp])
      obtain ⟨q, h3, h4⟩ := ProdFile.readNode_whole argsort hc hi (hps p (by simp)) hnp.2
      refine ⟨q :: qs, ?_, List.Forall₂.cons h4 h2⟩
      have : n = (n.1, p.2.2) := by rw [← hnp.1]
      rw [List.mapM_cons, this, h3, h1]
      rfl
  obtain ⟨qs, h1, h2⟩ := hall _ _ h ProdFile.nodes_parts
  refine ⟨qs, ?_, h2⟩
  unfold ProdFile.read
  rw [ProdFile.distanceCoord_spec hc hi]
  simp only [bind, Except.bind, h1, pure, Except.pure]
  simp

/-- **C94.** With limits, reading gives what selecting from each recording gives, without the recordings of which nothing is left; it never fails. -/
theorem C94_limits (argsort : List ℚ → List ℕ) (ha : IsArgsort argsort) (hc : 1 ≤ f.count) (hi : f.interval ≠ 0) (h : ∀ p ∈ prodParts f, PartLayout f p)
    (time distance : Option (Option ℚ × Option ℚ)) (hl : time.isSome ∨ distance.isSome) :
    ∃ os, f.read argsort time distance = .ok (os.filterMap id) ∧
      List.Forall₂ (PartWithin f (time.getD (none, none)) (distance.getD (none, none))) (prodParts f) os := by
  have hall : ∀ (ns : List (Option (ℤ × ℕ) × ProdNode α)) (ps : List (ℤ × ℕ × ProdNode α)), (∀ p ∈ ps, PartLayout f p) →
      List.Forall₂ (fun n p => n.2 = p.2.2 ∧ (n.1 = none ∧ p.1 = 0 ∧ p.2.1 = f.count ∨ n.1 = some (p.1, p.2.1))) ns ps →
      ∃ os, ns.mapM (ProdFile.readNode argsort ⟨f.first * f.interval, f.first * f.interval + f.interval * f.count, f.interval, f.count⟩ time distance) =
        .ok os ∧ List.Forall₂ (PartWithin f (time.getD (none, none)) (distance.getD (none, none))) ps os := by
    intro ns ps hps hr
    induction hr with
    | nil => exact ⟨[], rfl, List.Forall₂.nil⟩
    | @cons n p ns ps hnp _ ih =>
      obtain ⟨qs, h1, h2⟩ := ih fun p hp => hps p (by simp [hp])
      obtain ⟨q, h3, h4⟩ := ProdFile.readNode_part ha hc hi (hps p (by simp)) hnp.2 hl
      refine ⟨q :: qs, ?_, List.Forall₂.cons h4 h2⟩
      have : n = (n.1, p.2.2) := by rw [← hnp.1]
      rw [List.mapM_cons, this, h3, h1]
      rfl
  obtain ⟨os, h1, h2⟩ := hall _ _ h ProdFile.nodes_parts
  refine ⟨os, ?_, h2⟩
  unfold ProdFile.read
  rw [ProdFile.distanceCoord_spec hc hi]
  simp only [bind, Except.bind, h1, pure, Except.pure]

/-- **C94.** The times which are evenly spaced already are kept, whatever the spacing: a file of a regular recording is read as it is. -/
theorem C94_regular (l : List ℚ) (hn : 2 ≤ l.length) (s : ℚ) (hl : ∀ i < l.length, l.getD i 0 = l.headD 0 + i * s) : ∀ i < l.length, prodTime l i = l.getD i 0 := by
  intro i hi
  unfold prodTime
  split_ifs with hw
  · have hn' : ((l.length - 1 : ℕ) : ℚ) = (l.length : ℚ) - 1 := by rw [Nat.cast_sub (by omega)]; simp
    have hpos : (0 : ℚ) < (l.length : ℚ) - 1 := by
      have : (2 : ℚ) ≤ l.length := by exact_mod_cast hn
      linarith
    have hlast : l.getLastD 0 = l.headD 0 + ((l.length : ℚ) - 1) * s := by
      have := hl (l.length - 1) (by omega)
      rw [hn'] at this
      rw [← this, List.getLastD_eq_getLast?, List.getLast?_eq_getElem?, List.getD_eq_getElem?_getD]
    have hsp : spacing l = s := by
      unfold spacing
      rw [hlast]
      field_simp
      ring
    rw [hsp, hl i hi]
  · rfl

/-- Raw data of three loci at four irregular times, and a band of two of the loci at the times 5 s, 6 s and 7 s. -/
def exProd : ProdFile ℕ where
  first := 10
  count := 3
  interval := 2
  bands := [((1, 2), ⟨⟨5000000000, 0⟩, ⟨7000000000, 0⟩, [5000000, 6000000, 7000000], ["locus", "time"], ⟨[2, 3], fun i => 100 + 10 * i.getD 0 0 + i.getD 1 0⟩⟩)]
  raws := [none, some ⟨⟨0, 0⟩, ⟨-3600000000000 + 40000, -3600000000000⟩, [0, 10, 25, 40], ["Time", "Locus"], ⟨[4, 3], fun i => 10 * i.getD 0 0 + i.getD 1 0⟩⟩]

theorem exProd_layout : ∀ p ∈ prodParts exProd, PartLayout exProd p := by
  intro p hp
  simp only [prodParts, exProd, List.map_cons, List.map_nil, List.filterMap_cons, Option.map_none, Option.map_some, List.filterMap_nil, List.cons_append,
    List.nil_append, List.mem_cons, List.not_mem_nil, or_false] at hp
  rcases hp with rfl | rfl
  · refine ⟨⟨["distance", "time"], Or.inr rfl, ?_, by decide, by decide, ?_, ?_, by decide +kernel, by decide +kernel, by decide +kernel⟩, by decide, ?_, ?_⟩
    · exact .cons (Or.inr ⟨rfl, by decide⟩) (.cons (Or.inl ⟨rfl, by decide⟩) .nil)
    · intro x hx
      simp only [List.mem_cons, List.not_mem_nil, or_false] at hx
      rcases hx with rfl | rfl | rfl
      · exact ⟨5000000, by norm_num⟩
      · exact ⟨6000000, by norm_num⟩
      · exact ⟨7000000, by norm_num⟩
    · simp only [List.pairwise_cons, List.mem_cons, List.not_mem_nil, or_false]
      norm_num
    · rintro ⟨j, hj, _, hu⟩
      have e1 : ⌊spacing (stampTimes (⟨⟨5000000000, 0⟩, ⟨7000000000, 0⟩, [5000000, 6000000, 7000000], ["locus", "time"],
        ⟨[2, 3], fun i => 100 + 10 * i.getD 0 0 + i.getD 1 0⟩⟩ : ProdNode ℕ))⌋ = 1000000000 := by decide +kernel
      simp only [e1] at hu
      have hj' : (1 : ℚ) ≤ j := by exact_mod_cast hj
      simp only [stampTimes, List.map_cons, List.map_nil, List.getLastD_cons, List.getLastD_nil, List.headD_cons, List.length_cons, List.length_nil] at hu
      norm_num at hu
      linarith
    · intro hc
      exact absurd (by decide +kernel) hc
  · refine ⟨⟨["time", "distance"], Or.inl rfl, ?_, by decide, by decide, ?_, ?_, by decide +kernel, by decide +kernel, by decide +kernel⟩, by decide, ?_, ?_⟩
    · exact .cons (Or.inl ⟨rfl, by decide⟩) (.cons (Or.inr ⟨rfl, by decide⟩) .nil)
    · intro x hx
      simp only [List.mem_cons, List.not_mem_nil, or_false] at hx
      rcases hx with rfl | rfl | rfl | rfl
      · exact ⟨0, by norm_num⟩
      · exact ⟨10, by norm_num⟩
      · exact ⟨25, by norm_num⟩
      · exact ⟨40, by norm_num⟩
    · simp only [List.pairwise_cons, List.mem_cons, List.not_mem_nil, or_false]
      norm_num
    · rintro ⟨j, hj, _, hu⟩
      have e1 : ⌊spacing (stampTimes (⟨⟨0, 0⟩, ⟨-3600000000000 + 40000, -3600000000000⟩, [0, 10, 25, 40], ["Time", "Locus"],
        ⟨[4, 3], fun i => 10 * i.getD 0 0 + i.getD 1 0⟩⟩ : ProdNode ℕ))⌋ = 13333 := by decide +kernel
      simp only [e1] at hu
      have hj' : (1 : ℚ) ≤ j := by exact_mod_cast hj
      simp only [stampTimes, List.map_cons, List.map_nil, List.getLastD_cons, List.getLastD_nil, List.headD_cons, List.length_cons, List.length_nil] at hu
      norm_num at hu
      linarith
    · intro _
      right; right; right
      rintro ⟨m, hm⟩
      have h1 := hm 0 0 10000 (by decide +kernel) (by decide +kernel)
      have h2 := hm 1 10000 25000 (by decide +kernel) (by decide +kernel)
      rw [abs_le] at h1 h2
      rcases abs_cases m with ⟨h3, _⟩ | ⟨h3, _⟩ <;> rw [h3] at h1 h2 <;> norm_num at h1 h2 <;> linarith [h1.1, h1.2, h2.1, h2.2]

example : (exProd.read stableArgsort none (some (some 24, none))).map (fun qs => qs.map fun q => (q.cm.dims, q.data.shape)) =
    .ok [(["distance", "time"], [1, 3]), (["time", "distance"], [4, 1])] := by decide +kernel

example : (exProd.read stableArgsort none (some (some 24, none))).map (fun qs => qs.map fun q => (q.data.get [0, 0], label q "distance" [0, 0])) =
    .ok [(110, some (some 24)), (2, some (some 24))] := by decide +kernel

/-- **C94 violated** (time zones): the recording starts at midnight UTC, which the file gives as 02:00+02:00 (and in its array of times). It is read as starting at 02:00. -/
theorem C94_zone_violated :
    instantOf ⟨7200000000000, 7200000000000⟩ = 0 ∧
    ((⟨0, 2, 1, [], [some ⟨⟨7200000000000, 7200000000000⟩, ⟨7202000000000, 7200000000000⟩, [0, 1000000, 2000000], ["time", "locus"], ⟨[3, 2], fun i => i.getD 0 0⟩⟩]⟩ :
      ProdFile ℕ).read stableArgsort none none).map (fun qs => qs.map fun q => label q "time" [0, 0]) = .ok [some (some 7200000000000)] := by
  constructor <;> decide +kernel

/-- **C94 violated** (wrong end): the array gives one second per sample, the attribute ends after 100 seconds instead of 12. The array is ignored, as the attribute is wrong by more
than ten samples. -/
theorem C94_end_violated :
    ((⟨0, 1, 1, [], [some ⟨⟨0, 0⟩, ⟨100000000000, 0⟩, (List.range 13).map fun i : ℕ => (i : ℚ) * 1000000, ["time", "locus"], ⟨[13, 1], fun i => i.getD 0 0⟩⟩]⟩ :
      ProdFile ℕ).read stableArgsort none none).map (fun qs => qs.map fun q => label q "time" [12, 0]) = .ok [some (some 99999999996)] := by decide +kernel

/-- The times of `n` samples recorded 1024 times a second, as whole microseconds. -/
def times1024 (n : ℕ) : List ℚ := (List.range n).map fun i : ℕ => (⌊(i : ℚ) * (1000000 / 1024)⌋ : ℚ)

/-- **C94 violated** (correction): a recording of 17 samples, 1024 of them a second. As the spacing is no whole number of nanoseconds the array of times is used, which is made evenly
spaced by its median difference: the last label is seven microseconds late, although attributes and array give it exactly. -/
theorem C94_correction_violated :
    (times1024 17).getLastD 0 = 15625 ∧
    ((⟨0, 1, 1, [], [some ⟨⟨0, 0⟩, ⟨15625000, 0⟩, times1024 17, ["time", "locus"], ⟨[17, 1], fun i => i.getD 0 0⟩⟩]⟩ :
      ProdFile ℕ).read stableArgsort none none).map (fun qs => qs.map fun q => label q "time" [16, 0]) = .ok [some (some 15632000)] := by
  constructor <;> decide +kernel

/-- **C94 violated** (bands): in the standard the first locus of a band is numbered like those of the acquisition. Here the band of the loci 12 and 13 of an acquisition which begins with
locus 10 is read under the distances of the loci 22 and 23. -/
theorem C94_band_violated :
    ((⟨10, 20, 1, [((12, 2), ⟨⟨0, 0⟩, ⟨1000000000, 0⟩, [0, 1000000], ["time", "locus"], ⟨[2, 2], fun i => i.getD 0 0⟩⟩)], []⟩ :
      ProdFile ℕ).read stableArgsort none none).map (fun qs => qs.map fun q => label q "distance" [0, 0]) = .ok [some (some 22)] := by decide +kernel

/-- **C94 violated** (cut spacing): 2500 samples, 600 thousand of them a second, whose array agrees with the attributes. Cutting the spacing to nanoseconds loses two thirds of a nanosecond
per sample, in total exactly one spacing. So there is one label too many, its time is the stored end and the array is not used: the file cannot be read. -/
theorem C94_unlucky_violated :
    ((List.range 2500).map fun i : ℕ => (⌊(i : ℚ) * (5 / 3)⌋ : ℚ)).getLastD 0 * 1000 = 4165000 ∧
    ((⟨0, 1, 1, [], [some ⟨⟨0, 0⟩, ⟨4165000, 0⟩, (List.range 2500).map fun i : ℕ => (⌊(i : ℚ) * (5 / 3)⌋ : ℚ), ["time", "locus"], ⟨[2500, 1], fun i => i.getD 0 0⟩⟩]⟩ :
      ProdFile ℕ).read stableArgsort none none).map (fun qs => qs.length) = .error .coordError := by
  constructor <;> decide +kernel

/-- **C94 violated** (one sample): a recording of a single sample makes reading the file fail. -/
theorem C94_single_violated :
    ((⟨0, 1, 1, [], [some ⟨⟨0, 0⟩, ⟨0, 0⟩, [0], ["time", "locus"], ⟨[1, 1], fun i => i.getD 0 0⟩⟩]⟩ :
      ProdFile ℕ).read stableArgsort none none).map (fun qs => qs.length) = .error .valueError := by decide +kernel

end Verif
