import Verif.Spec.PatchOps
import Verif.Spec.CoordManager
import Verif.Model.Export
/-! # What RSF and WAV files should hold -/
namespace Spec
open Verif

/-- Where RSF files have the sample with this index: the first axis runs fastest. -/
def rsfOffset : List ℕ → List ℕ → ℕ
  | n :: ns, i :: is => i + n * rsfOffset ns is
  | _, _ => 0

/-- Seconds for instants and durations, other numbers as they are. -/
def Written (k : Kind) (x y : ℚ) : Prop := if k = Kind.time then y * 1000000000 = x else y = x

/-- The axis of the header describes the dimension `d` of the patch: its name and length, and its labels, `start + position * d`, where the start of the times is the entry
`starttime` and their origin is written as zero. -/
structure AxisOf {α} (p : PatchM α) (d : String) (a : RsfAxis) : Prop where
  name : a.label = d
  length : a.n = lenDim p.cm d
  origin : d = "time" → a.o = some 0
  labels : ∃ start step k c, p.cm.ents.get? d = some ([d], .one k c) ∧ a.d = some step ∧ (if d = "time" then a.starttime = some (some start) else a.o = some start) ∧
    ∀ i, InRange p.data.shape i → ∃ y, label p d i = some (some y) ∧ Written k y (start + posAlong p d i * step)

/-- All dimensions are evenly sampled. -/
def EvenDims {α} (p : PatchM α) : Prop := ∀ d ∈ p.cm.dims, ∃ k r, p.cm.ents.get? d = some ([d], .one k (.range r))

/-- The samples at place `j` of the other dimension, in the order of the times. -/
def traceAt {α} (p : PatchM α) (j : ℕ) : List α := (List.range (lenDim p.cm "time")).map fun t => p.data.get (p.cm.dims.map fun d => if d = "time" then t else j)

end Spec
