import Verif.Spec.Reader
import Verif.Model.Segy
/-! # What is in a SEGY file -/
namespace Spec
open Verif

/-- The samples of all traces at each of `n` times. -/
def atEachTime {α} (n : ℕ) (traces : List (List α)) : List (List α) := (List.range n).map fun i => traces.filterMap fun t => t[i]?

/-- A readable file: two traces of two samples at least, all of the length in the header, and a positive interval. -/
structure SegyLayout {α} (f : SegyFile α) : Prop where
  samples : ∀ t ∈ f.traces, t.length = f.count
  two_traces : 2 ≤ f.traces.length
  two_samples : 2 ≤ f.count
  forward : 0 < f.interval

/-- The sample of a patch at a time and a channel. -/
def segySample {α} (p : SegyPatch α) (time channel : ℕ) : Option α :=
  if p.dims.1 = "time" then p.data.rows[time]?.bind fun r => r[channel]? else p.data.rows[channel]?.bind fun r => r[time]?

/-- A patch with the dimensions time and channel or distance, in either order, evenly sampled times a microsecond or more apart, and two
samples and two channels at least. -/
structure SegyWritable {α} (p : SegyPatch α) (time channel : RangeCoord) : Prop where
  dims : p.dims = ("time", "distance") ∨ p.dims = ("time", "channel") ∨ p.dims = ("distance", "time") ∨ p.dims = ("channel", "time")
  coords : p.coords = if p.dims.1 = "time" then (.range time, .range channel) else (.range channel, .range time)
  height : p.data.rows.length = if p.dims.1 = "time" then time.len else channel.len
  width : p.data.width = if p.dims.1 = "time" then channel.len else time.len
  rectangle : ∀ r ∈ p.data.rows, r.length = p.data.width
  two_channels : 2 ≤ channel.len
  two_samples : 2 ≤ time.len
  stop : time.stop = time.start + time.step * time.len
  slow : 1000 ≤ time.step

/-- What was read from a file has these labels, and these samples at each time and channel. -/
def ReadsSamples {α} (r : Except Err (Option (Recording α))) (times channels : List ℚ) (sample : ℕ → ℕ → Option α) : Prop :=
  ∃ w, r = .ok (some w) ∧ w.times.labels = times.map some ∧ w.distances.labels = channels.map some ∧ w.rows.length = times.length ∧
    (∀ row ∈ w.rows, row.length = channels.length) ∧ ∀ i j : ℕ, (w.rows[i]?.bind fun row => row[j]?) = sample i j

end Spec
