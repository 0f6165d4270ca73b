import Verif.Spec.Export
import Verif.Model.Obspy
/-! # What streams and the patches made of them should hold -/
namespace Spec
open Verif
variable {α : Type}

/-- The trace has the samples of the patch at place `j` of the dimension `o`, in the order of the times, the first time as its start, so many samples in a second as follows from the
distance of two times, and in its header the label of this place. -/
structure TraceOf (p : PatchM α) (o : String) (first step : ℚ) (k : Kind) (x : ℚ) (j : ℕ) (tr : ObsTrace α) : Prop where
  data : tr.data = traceAt p j
  start : tr.start = first
  rate : tr.rate * step = 1000000000
  place : Dict.get? tr.stats o = some (k, some x)

/-- `q` has dimensions `[o, "time"]`, and for every sample of `p` the same sample with the same label along `o`, and the time `fl` makes of its time. -/
structure StreamRestored (fl : ℚ → ℚ) (p : PatchM α) (o : String) (q : PatchM α) : Prop where
  dims : q.cm.dims = [o, "time"]
  shape : q.data.shape = [lenDim p.cm o, lenDim p.cm "time"]
  conforms : q.cm.shape = q.data.shape
  samples : ∀ i, InRange p.data.shape i → q.data.get [posAlong p o i, posAlong p "time" i] = p.data.get i
  places : ∀ i, InRange p.data.shape i → label q o [posAlong p o i, posAlong p "time" i] = label p o i
  times : ∀ i, InRange p.data.shape i → ∃ t, label p "time" i = some (some t) ∧ label q "time" [posAlong p o i, posAlong p "time" i] = some (some (fl t))

end Spec
