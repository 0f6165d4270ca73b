import Verif.Spec.CoordManager
import Verif.Spec.PatchOps
import Verif.Spec.Coord
import Verif.Model.H5Simple
/-! # How simple HDF5 files are laid out -/
namespace Spec
open Verif

/-- The labels of a dimension in a file: its times in nanoseconds, the array of that name or, if there is none, the numbers of `channels` channels. -/
def simpleLabels {α} (f : SimpleFile α) (channels : ℕ) (d : String) : List ℚ :=
  if d = "time" then f.time.map nanos
  else match f.others.get? d with
    | some a => a.2
    | none => (List.range channels).map fun i : ℕ => (i : ℚ)

/-- A file with the dimensions `ds`. Every array labels one dimension. The file names its dimensions, or they have different lengths;
in that case one of them may have no labels, and is then called "channel". -/
structure SimpleLayout {α} (f : SimpleFile α) (ds : List String) (channels : ℕ) : Prop where
  names : (f.others.map Prod.fst).Nodup ∧ "time" ∉ f.others.map Prod.fst
  dims : ds.Nodup ∧ "time" ∈ ds
  arrays : ∀ n ∈ f.others.map Prod.fst, n ∈ ds
  shape : f.data.shape = ds.map fun d => (simpleLabels f channels d).length
  kinds : ∀ e ∈ f.others, e.2.1 ≠ .time
  plain : ∀ d ∈ ds, matchesPrefixSuffix ds d = false
  some_data : ∀ d ∈ ds, simpleLabels f channels d ≠ []
  told : (f.dims = some ds ∧ ∀ d ∈ ds, d = "time" ∨ d ∈ f.others.map Prod.fst) ∨
    (f.dims = none ∧ f.data.shape.Nodup ∧ ∀ d ∈ ds, d = "time" ∨ d ∈ f.others.map Prod.fst ∨ d = "channel")

/-- The patch has the samples of the file under the labels `L`. -/
structure HoldsFile {α} (f : SimpleFile α) (ds : List String) (L : String → ℕ → ℚ) (q : PatchM α) : Prop where
  dims : q.cm.dims = ds
  shape : q.data.shape = f.data.shape
  data : ∀ i, InRange f.data.shape i → q.data.get i = f.data.get i
  labels : ∀ d ∈ ds, ∀ i, InRange f.data.shape i → label q d i = some (some (L d (posAlong q d i)))
  only : ∀ n, n ∉ ds → q.cm.ents.get? n = none

/-- The average distance between neighbours in a list. -/
def spacing (l : List ℚ) : ℚ := (l.getLastD 0 - l.headD 0) / ((l.length : ℚ) - 1)

/-- Evenly spaced labels: `spacing` apart, which for times is cut to nanoseconds. -/
def snapLabel (d : String) (l : List ℚ) (k : ℕ) : ℚ := l.headD 0 + k * (if d = "time" then (⌊spacing l⌋ : ℚ) else spacing l)

/-- What can be made evenly sampled: labels at two places at least, the last not the first; times ascending, a nanosecond apart at least. -/
structure Snappable {α} (f : SimpleFile α) (ds : List String) (channels : ℕ) : Prop where
  two : ∀ d ∈ ds, 2 ≤ (simpleLabels f channels d).length
  apart : ∀ d ∈ ds, d ≠ "time" → (simpleLabels f channels d).headD 0 ≠ (simpleLabels f channels d).getLastD 0
  ascending : 1 ≤ spacing (simpleLabels f channels "time")

/-- What cutting the spacing to nanoseconds loses over the whole list is at most a twentieth of a sample. -/
def LittleLost (l : List ℚ) : Prop := l.getLastD 0 - (l.headD 0 + ((l.length : ℚ) - 1) * ⌊spacing l⌋) ≤ (⌊spacing l⌋ : ℚ) / 20

end Spec
