import Verif.Spec.Coord
import Verif.Model.Sor
/-! # SR-4731 files as they are written -/
namespace Spec
open Verif

/-- The bytes of numbers, the lowest first. -/
def le16 (n : ℕ) : List ℕ := [n % 256, n / 256 % 256]
def le32 (n : ℕ) : List ℕ := [n % 256, n / 256 % 256, n / 65536 % 256, n / 16777216 % 256]

/-- A block: its name, version, and what it holds. -/
structure SorBlock where
  name : List ℕ
  version : ℕ
  payload : List ℕ

/-- A block starts with its name and a zero. -/
def SorBlock.bytes (b : SorBlock) : List ℕ := b.name ++ 0 :: b.payload

/-- The entry of the map for a block. -/
def SorBlock.entry (b : SorBlock) : List ℕ := b.name ++ 0 :: (le16 b.version ++ le32 b.bytes.length)

/-- The map: version, its own size, the number of blocks with the map itself, and the entries. -/
def mapBlock (version : ℕ) (bs : List SorBlock) : SorBlock :=
  ⟨[77, 97, 112], version, le16 version ++ le32 (12 + (bs.flatMap SorBlock.entry).length) ++ le16 (bs.length + 1) ++ bs.flatMap SorBlock.entry⟩

/-- A file: the map and then all blocks. -/
def sorBytes (version : ℕ) (bs : List SorBlock) : List ℕ := (mapBlock version bs :: bs).flatMap SorBlock.bytes

/-- Blocks which can be written: names without zero which differ from each other and from that of the map, and numbers which fit. -/
structure Writable (version : ℕ) (bs : List SorBlock) : Prop where
  some : bs ≠ []
  few : bs.length + 1 < 65536
  version' : version < 65536
  versions : ∀ b ∈ bs, b.version < 65536
  sizes : ∀ b ∈ bs, b.bytes.length < 4294967296
  mapSize : 12 + (bs.flatMap SorBlock.entry).length < 4294967296
  names : ∀ b ∈ bs, 0 ∉ b.name
  distinct : ([77, 97, 112] :: bs.map SorBlock.name).Nodup

/-- The fixed parameters: instant, spacing in 1e-8 microseconds, number of samples, index of refraction in 1e-5, and in between what is not looked at. -/
def fixedBytes (stamp spacing n index : ℕ) (unit wave gap gap' range rest : List ℕ) : List ℕ :=
  le32 stamp ++ unit ++ wave ++ gap ++ le32 spacing ++ le32 n ++ le32 index ++ gap' ++ range ++ rest

/-- The samples of one trace with a scale. -/
def pointBytes (raw : List ℕ) (scale : ℕ) (rest : List ℕ) : List ℕ :=
  le32 raw.length ++ le16 1 ++ le32 raw.length ++ le16 scale ++ raw.flatMap le16 ++ rest

/-- The samples which belong to the numbers of the file: distances below the greatest one, in thousandths of dB times the scale. -/
def Display (raw : List ℕ) (scale : ℕ) (samples : List ℚ) : Prop :=
  ∃ top ∈ raw, (∀ r ∈ raw, r ≤ top) ∧ samples = raw.map fun r : ℕ => ((top : ℚ) - r) * scale / 1000000

end Spec
