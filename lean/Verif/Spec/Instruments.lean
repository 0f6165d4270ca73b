import Verif.Spec.ProdML
import Verif.Spec.Reader
import Verif.Model.Instruments
/-! # How the files of several instruments are laid out -/
namespace Spec
open Verif

/-- The limits which `read` can be given. -/
abbrev Limits := Option (Option ℚ × Option ℚ)

/-- Without limits the whole array is read, under the labels `L`. -/
def ReadsWhole {α} (read : Limits → Limits → Except Err (Option (PatchM α))) (stored : Nd α) (ds : List String) (L : String → ℕ → ℚ) : Prop :=
  ∃ q, read none none = .ok (some q) ∧ HoldsArray stored ds L q

/-- With limits, reading gives what selecting from the whole array gives, or nothing if no sample is left; it never fails. -/
def ReadsPart {α} (read : Limits → Limits → Except Err (Option (PatchM α))) (stored : Nd α) (ds : List String) (L : String → ℕ → ℚ) (time distance : Limits) : Prop :=
  ∃ w gs q, HoldsArray stored ds L w ∧ gs.flatten.Perm (bothLimits (time.getD (none, none)) (distance.getD (none, none))) ∧ SelectedBy w gs q ∧
    read time distance = .ok (if q.data.shape.prod = 0 then none else some q)

/-- Evenly spaced labels: time `t`, a step of `dt`, distance `x`, a step of `dx`. -/
def evenly (t dt x dx : ℚ) (d : String) (k : ℕ) : ℚ := if d = "time" then t + k * dt else x + k * dx

/-- `ns` is the whole number of nanoseconds nearest to `s` seconds. -/
abbrev InNanos (s ns : ℚ) : Prop := Nearest (s * 1000000000) ns

/-- An AP Sensing file with `n` times and `m` distances. -/
structure ApLayout {α} (f : ApFile α) (n m : ℕ) : Prop where
  shape : f.data.shape = [n, m]
  some_sample : 1 ≤ n ∧ 1 ≤ m
  utc : f.utc = true
  traces : f.traces = n
  rate : 0 < f.rate ∧ f.rate < 2000000000
  ends : f.first ≠ f.last

/-- A Silixa file with `n` times and `m` distances. -/
structure SilixaLayout {α} (f : SilixaFile α) (n m : ℕ) : Prop where
  shape : f.data.shape = [n, m]
  some_sample : 1 ≤ n ∧ 1 ≤ m
  rate : 0 < f.rate ∧ f.rate < 2000000000
  spacing : f.resolution * f.factor ≠ 0

/-- A Neubrex DAS file with `n` times and `m` distances. -/
structure NeubrexLayout {α} (f : NeubrexFile α) (n m : ℕ) : Prop where
  shape : f.data.shape = [n, m]
  some_sample : 1 ≤ n ∧ 1 ≤ m
  all : (f.everyTime = 0 ∨ f.everyTime = 1) ∧ (f.everyDistance = 0 ∨ f.everyDistance = 1)
  fine : 1 / 2000000000 < f.interval
  spacing : f.spacing ≠ 0

/-- The times of a file of frequency shifts, in nanoseconds. -/
def shiftTimes {α} (f : ShiftFile α) : List ℚ := f.stamps.map fun x => nanos (x / 1000000)

/-- A Neubrex file of frequency shifts, with ascending times that can be stored and evenly spaced depths. -/
structure ShiftLayout {α} (f : ShiftFile α) (x dx : ℚ) : Prop where
  shape : f.data.shape = [f.stamps.length, f.depth.length]
  some_sample : 2 ≤ f.stamps.length ∧ 2 ≤ f.depth.length
  ascending : (shiftTimes f).Pairwise (· < ·)
  storable : Storable (shiftTimes f)
  depths : f.depth = progression x dx f.depth.length
  spacing : dx ≠ 0

/-- A GDR file: ascending times in whole nanoseconds; either order of dimensions. -/
structure GdrLayout {α} (f : GdrFile α) (ds : List String) (m : ℕ) : Prop where
  dims : ds = ["time", "distance"] ∨ ds = ["distance", "time"]
  words : List.Forall₂ (fun w d => (d = "time" ∧ w.startsWith "time") ∨ (d = "distance" ∧ w = "locus")) f.words ds
  shape : f.data.shape = ds.map fun d => if d = "time" then f.times.length else m
  some_sample : 2 ≤ f.times.length ∧ 1 ≤ m
  whole : ∀ t ∈ f.times, ∃ z : ℤ, t = z
  ascending : f.times.Pairwise (· < ·)
  spacing : f.interval ≠ 0

/-- A DASVader file. The lengths of the ranges are those of the data. -/
structure VaderLayout {α} (f : VaderFile α) (ds : List String) : Prop where
  dims : ds = if f.isData then ["distance", "time"] else ["time", "distance"]
  shape : f.data.shape = ds.map fun d => if d = "time" then f.time.len else f.offset.len
  some_sample : 1 ≤ f.time.len ∧ 1 ≤ f.offset.len
  fine : 1 / 2000000000 < f.time.step
  spacing : f.offset.step ≠ 0

/-- The rounded step, taken as often as there are samples, misses the rounded end by less than a twentieth of a step, or falls at most 95 percent of a step behind it. -/
def EndFits {α} (f : VaderFile α) : Prop :=
  (f.time.len - 1 + 1 / 20) * nanos f.time.step < nanos (f.time.first + f.time.len * f.time.step) - nanos f.time.first ∧
  nanos (f.time.first + f.time.len * f.time.step) - nanos f.time.first ≤ (f.time.len + 1 / 20) * nanos f.time.step

/-- An OptoDAS file, with evenly spaced channels. -/
structure OptoLayout {α} (f : OptoFile α) (ds : List String) (c dc : ℤ) : Prop where
  dims : ds = if f.timeFirst then ["time", "distance"] else ["distance", "time"]
  shape : f.data.shape = ds.map fun d => if d = "time" then (f.hi + 1 - f.lo).toNat else f.channels.length
  some_sample : f.lo ≤ f.hi ∧ 2 ≤ f.channels.length
  fine : 1 / 2000000000 < f.interval
  channels : f.channels = (List.range f.channels.length).map fun i : ℕ => c + dc * i
  spacing : dc ≠ 0 ∧ f.spacing ≠ 0

end Spec
