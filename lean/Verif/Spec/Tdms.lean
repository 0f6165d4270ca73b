import Verif.Spec.Febus
import Verif.Model.Tdms
/-! # Where the samples of a TDMS file are -/
namespace Spec
open Verif

/-- The place of sample `i` of channel `c` in interleaved data of `nch` channels. -/
def interleavedPlace (nch i c : ℕ) : ℕ := i * nch + c

/-- The place of sample `i` of channel `c` in data stored in chunks of `size` samples of each channel, of `len` samples in all. Chunk
`i / size` starts after the earlier chunks; it has as many samples of each channel as are left, `size` at most. -/
def chunkedPlace (nch size len i c : ℕ) : ℕ :=
  i / size * size * nch + c * min size (len - i / size * size) + i % size

/-- The samples of a segment of `len` samples of each channel. -/
def segmentSamples {α} (f : TdmsFile α) (s : RawSegment α) (len : ℕ) : List (List α) :=
  (List.range len).map fun i => (List.range f.nch).map fun c =>
    s.elem (if f.interleaved then interleavedPlace f.nch i c else chunkedPlace f.nch f.chunk len i c)

/-- A file of one segment of `len` samples of each channel, sampled every `1 / frequency` seconds, with a cable of as many channels as
there are in the data. -/
structure TdmsLayout {α} (f : TdmsFile α) (s : RawSegment α) (len : ℕ) : Prop where
  one : f.segments = [s]
  size : s.size = len * f.nch
  channels : 1 ≤ f.nch
  chunks : 1 ≤ f.chunk
  item : 1 ≤ f.itemsize
  no_more : f.otherBytes = 0
  some_samples : 1 ≤ len
  forward : 0 < f.frequency
  slow : f.frequency ≤ 1000000000
  outwards : 0 < f.resolution * f.multiplier
  cable : f.measured = f.resolution * f.nch

end Spec
