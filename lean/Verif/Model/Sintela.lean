import Verif.Model.Reader
/-!
# Sintela binary files (dascore/io/sintela_binary/utils.py)

A file is a sequence of packets, each with a header of the same size and the samples of all channels for some times, four bytes each.
Numbers of the header are exact here (numpy computes with 32-bit integers and floats, so sizes are taken to be less than 4 GiB).
-/
namespace Verif

/-- What the reader uses of a file: the bytes, and the numbers of the first header. `decode` is what four bytes mean (`view(dtype)`). -/
structure SintelaFile (β α : Type) where
  raw : List β
  decode : List β → α
  headerSize : ℕ
  numChannels : ℕ
  numSamples : ℕ
  startTime : ℤ
  sampleRate : ℚ
  channelSpacing : ℚ
  startChannel : ℕ
  channelStep : ℕ

namespace SintelaFile
variable {β α : Type} (f : SintelaFile β α)

/-- utils.py 115 and 195, `packet_size`. -/
def packetSize : ℕ := f.headerSize + f.numChannels * f.numSamples * 4

/-- utils.py 108-121, `_get_number_of_packets`. -/
def numPackets : Except Err ℕ :=
  if f.packetSize = 0 then .error .zeroDivision
  else if f.raw.length % f.packetSize ≠ 0 then .error .invalidFileFormat
  else .ok (f.raw.length / f.packetSize)

/-- utils.py 145-153, `_get_time_coord`. -/
def timeCoord (packets : ℕ) : Except Err RangeCoord := do
  if f.sampleRate = 0 then .error .zeroDivision
  else do
    let step := nanos (1 / f.sampleRate)
    let total := packets * f.numSamples
    let c ← mkRange f.startTime (f.startTime + step * total) step
    if c.len = total then .ok c else .error .assertionError

/-- utils.py 156-170, `_get_dist_coord`. -/
def distanceCoord : Except Err RangeCoord := do
  let start := f.startChannel * f.channelSpacing
  let c ← mkRange start (start + (f.numChannels * f.channelStep) * f.channelSpacing) (f.channelStep * f.channelSpacing)
  if c.len = f.numChannels then .ok c else .error .assertionError

/-- utils.py 189-205, `_load_data`: the bytes as rows of one packet each, without the header; four bytes are one sample; rows of all
channels. -/
def loadData : Except Err (Sheet α) :=
  let packets := chunksOf f.packetSize (f.raw.length / f.packetSize) f.raw
  let bytes := (packets.map fun p => p.drop f.headerSize).flatten
  reshapeRows f.numChannels ((chunksOf 4 (bytes.length / 4) bytes).map f.decode)

/-- utils.py 207-214, `_get_attrs_coords_header`: the coordinates, which a scan tells as well. -/
def scan : Except Err (RangeCoord × RangeCoord) := do
  let n ← f.numPackets
  let tc ← f.timeCoord n
  let dc ← f.distanceCoord
  return (tc, dc)

/-- utils.py 217-232, `_get_patches`. -/
def read (time distance : Option (Option ℚ × Option ℚ)) : Except Err (Option (Recording α)) := do
  let (tc, dc) ← f.scan
  let d ← f.loadData
  readPart tc dc d time distance

end SintelaFile
end Verif
