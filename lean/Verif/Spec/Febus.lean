import Verif.Spec.Reader
import Verif.Model.Febus
/-! # What a Febus file says (in terms of its header and its array only) -/
namespace Spec
open Verif

/-- A zone of which `kept` of the `pad` rows of each block are to be read, sampled every `dt` seconds. -/
structure FebusLayout {α} (z : Zone α) (dt : ℚ) (pad kept : ℕ) : Prop where
  /-- A file with a version says how many rows a block has and how far apart they are (in milliseconds) -/
  versioned : z.hasVersion = true → (pad : ℤ) = 1 + z.extent.2.2.2 - z.extent.2.2.1 ∧ dt = z.spacing.2 / 1000
  /-- an older file has a sampling rate, unless that is the 250 MHz of the instrument. -/
  unversioned : z.hasVersion = false → pad = z.nrow ∧ z.samplingRate ≠ 0 ∧
    dt = if z.samplingRate < 100000000 then 1 / z.samplingRate else z.spacing.2 / 1000
  /-- Overlapping rows are in the array if the extent of times starts at zero; they are `overlap` percent -/
  overlapping : z.extent.2.2.1 = 0 → 1 + z.overlap / 100 ≠ 0 ∧ |(kept : ℚ) - pad / (1 + z.overlap / 100)| < 1 / 2
  /-- otherwise the rows of a block last as long as it takes to the next block. -/
  fitting : z.extent.2.2.1 ≠ 0 → |(kept : ℚ) - z.blockTime / dt| < 1 / 2
  several : 1 < pad
  some_kept : 1 ≤ kept
  no_more : kept ≤ pad
  stored : pad ≤ z.nrow
  gauge : z.hasGauge = true
  before : z.origin.2 ≤ 0
  /-- Rows are two nanoseconds apart or more, channels follow each other. -/
  slow : 2 / 1000000000 ≤ dt
  outwards : 0 < z.spacing.1
  some_blocks : z.blocks ≠ []
  some_channels : 1 ≤ z.nchan
  shape : ∀ b ∈ z.blocks, b.length = z.nrow ∧ ∀ row ∈ b, row.length = z.nchan

/-- The rows of a zone: of each block the middle `kept` of `pad`. -/
def zoneRows {α} (z : Zone α) (pad kept : ℕ) : List (List α) :=
  z.blocks.flatMap fun b => (b.drop ((pad - kept) / 2)).take kept

end Spec
