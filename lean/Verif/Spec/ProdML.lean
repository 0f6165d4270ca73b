import Verif.Spec.Labelled
import Verif.Spec.H5Simple
import Verif.Model.ProdML
/-! # How ProdML files are laid out -/
namespace Spec
open Verif

/-- The instant which a string names, in nanoseconds of UTC. -/
def instantOf (t : ClockTime) : ℚ := t.clock - t.ahead

/-- The array of times, in nanoseconds. -/
def stampTimes {α} (t : ProdNode α) : List ℚ := t.stamps.map fun x => x * 1000

/-- A recording with the dimensions `ds` whose array of times (whole microseconds, ascending) agrees with its attributes. Clocks are not ahead of UTC. -/
structure NodeLayout {α} (t : ProdNode α) (ds : List String) (count : ℕ) : Prop where
  dims : ds = ["time", "distance"] ∨ ds = ["distance", "time"]
  words : List.Forall₂ (fun w d => (d = "time" ∧ w ∈ ["time", "Time"]) ∨ (d = "distance" ∧ w ∈ ["distance", "Distance", "locus", "Locus"])) t.words ds
  shape : t.data.shape = ds.map fun d => if d = "time" then t.stamps.length else count
  two : 2 ≤ t.stamps.length
  whole : ∀ x ∈ t.stamps, ∃ z : ℤ, x = z
  ascending : t.stamps.Pairwise (· < ·)
  zones : t.start.ahead ≤ 0 ∧ t.stop.ahead ≤ 0
  starts : (stampTimes t).headD 0 = instantOf t.start
  stops : (stampTimes t).getLastD 0 = instantOf t.stop

/-- What cutting the spacing `s` to nanoseconds loses over the whole list falls short of a multiple of `s` by less than a microsecond. -/
def Unlucky (l : List ℚ) : Prop :=
  ∃ j : ℕ, 1 ≤ j ∧ 0 ≤ j * (⌊spacing l⌋ : ℚ) - (l.getLastD 0 - (l.headD 0 + ((l.length : ℚ) - 1) * ⌊spacing l⌋)) ∧
    j * (⌊spacing l⌋ : ℚ) - (l.getLastD 0 - (l.headD 0 + ((l.length : ℚ) - 1) * ⌊spacing l⌋)) < 1000

/-- The labels of the times: evenly spaced, if the spacing is a whole number of nanoseconds, and those of the array otherwise. -/
noncomputable def prodTime (l : List ℚ) (k : ℕ) : ℚ := open Classical in if (⌊spacing l⌋ : ℚ) = spacing l then l.headD 0 + k * spacing l else l.getD k 0

/-- The recordings of a file, in the order in which they are read: bands first. Each with its first locus, counted from the first of the acquisition,
and the number of its loci. -/
def prodParts {α} (f : ProdFile α) : List (ℤ × ℕ × ProdNode α) :=
  (f.bands.map fun b => (b.1.1, b.1.2, b.2)) ++ f.raws.filterMap fun r => r.map fun n => (0, f.count, n)

/-- A recording as it should be: it lies within the acquisition, and its times can be told. -/
structure PartLayout {α} (f : ProdFile α) (p : ℤ × ℕ × ProdNode α) : Prop where
  node : ∃ ds, NodeLayout p.2.2 ds p.2.1
  loci : 0 ≤ p.1 ∧ 1 ≤ p.2.1 ∧ p.1 + p.2.1 ≤ f.count
  lucky : ¬ Unlucky (stampTimes p.2.2)
  storable : (⌊spacing (stampTimes p.2.2)⌋ : ℚ) ≠ spacing (stampTimes p.2.2) → Storable (stampTimes p.2.2)

/-- The patch has the samples of a recording, under its times and the distances of its loci. -/
def HoldsPart {α} (f : ProdFile α) (p : ℤ × ℕ × ProdNode α) (q : PatchM α) : Prop :=
  ∃ ds, NodeLayout p.2.2 ds p.2.1 ∧
    HoldsArray p.2.2.data ds (fun d k => if d = "time" then prodTime (stampTimes p.2.2) k else ((f.first + p.1 + k : ℤ) : ℚ) * f.interval) q

/-- The limits `time` and `distance` as a query. -/
def bothLimits (time distance : Option ℚ × Option ℚ) : Dict CQuery := [("time", .between time.1 time.2), ("distance", .between distance.1 distance.2)]

/-- What is left of a recording within limits: what selecting gives, or nothing if no sample is left. -/
def PartWithin {α} (f : ProdFile α) (time distance : Option ℚ × Option ℚ) (p : ℤ × ℕ × ProdNode α) (o : Option (PatchM α)) : Prop :=
  ∃ w gs q, HoldsPart f p w ∧ gs.flatten.Perm (bothLimits time distance) ∧ SelectedBy w gs q ∧ o = if q.data.shape.prod = 0 then none else some q

end Spec
