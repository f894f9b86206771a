import Verif.Spec.SameDesign
import Verif.Spec.Directory
import Verif.Spec.Ending
/-! # What the files of a database say about a design

For databases without aliased tiles: no more than looking things up in tilegrid.json and in the text files of the tile types. -/
namespace Verif.Spec
open Verif.Db

/-- What the files of a tile type list: `segbits_T.db`, `segbits_T.block_ram.db`, `ppips_T.db`. -/
structure TypeContents where
  clb : Option (List (TileFeature × List SegmentBit))
  ram : Option (List (TileFeature × List SegmentBit))
  pips : List (Bytes × PseudoPIPType)

/-- The file for the bus lists these bits; of several entries the first counts. -/
def TypeContents.Gives (c : TypeContents) (bus : ConfigBusType) (key : TileFeature) (bits : List SegmentBit) : Prop :=
  (bus = .clbIoClk ∧ ∃ es, c.clb = some es ∧ es.lookup key = some bits) ∨ (bus = .blockRam ∧ ∃ es, c.ram = some es ∧ es.lookup key = some bits)

/-- The feature is a pseudo PIP. -/
def TypeContents.Pip (c : TypeContents) (tile type feature : Bytes) : Prop :=
  ∃ v, c.pips.lookup (tile ++ 0x2e :: feature) = some v ∨ c.pips.lookup (type ++ 0x2e :: feature) = some v

/-- A block of the tile and a segment bit the files list for bit `addr` of the feature. -/
def FilesList (grid : TileGrid) (files : Bytes → TypeContents) (tile feature : Bytes) (addr : Nat) (block : BitsBlock) (s : SegmentBit) : Prop :=
  ∃ t bus bits, grid.lookup tile = some t ∧ ¬ (files t.type).Pip tile t.type feature ∧ (bus, block) ∈ t.bits ∧
    (files t.type).Gives bus (t.type ++ 0x2e :: feature, addr) bits ∧ s ∈ bits

/-- The segment bit `column_bit` of a block is bit `b` of word `w` of frame `k`: `column` frames behind the base address, `bit` bits behind word `offset`. -/
def At (block : BitsBlock) (s : SegmentBit) (k w b : Nat) : Prop :=
  k = (block.baseAddress + s.wordColumn) % 2 ^ 32 ∧ b < 32 ∧ ((w * 32 + b : Nat) : Int) = (block.offset * 32 + s.wordBit) % 2 ^ 32

/-- The files have something to say about bit `addr` of the feature, within the 101 words of a frame. -/
def FilesKnow (grid : TileGrid) (files : Bytes → TypeContents) (tile feature : Bytes) (addr : Nat) : Prop :=
  ∃ t, grid.lookup tile = some t ∧
    ((files t.type).Pip tile t.type feature ∨ ∃ bus block bits, (bus, block) ∈ t.bits ∧ (files t.type).Gives bus (t.type ++ 0x2e :: feature, addr) bits) ∧
    ∀ block s k w b, FilesList grid files tile feature addr block s → At block s k w b → s.isSet = true → w < 101

/-- No tile is an alias of another, and no pin mentions `PUDC_B`. -/
structure PlainGrid (grid : TileGrid) : Prop where
  own : ∀ tile t, grid.lookup tile = some t → ∀ e ∈ t.bits, e.2.alias? = none
  pins : ∀ tile pin, ¬ PudcPin grid tile pin

/-- The name of the feature of the line does not mention `STEPDOWN`. -/
def SourceLine.NoStepdown : SourceLine → Prop
  | .empty _ _ => True
  | .statement _ f _ _ => ¬ Occurs bytes!"STEPDOWN" f.name

/-- The design writes bit `addr` of the feature of the tile as 1. -/
def Wants (ls : List SourceLine) (tile feature : Bytes) (addr : Nat) : Prop := 0x2e ∉ tile ∧ ∃ l ∈ ls, l.Sets (tile ++ 0x2e :: feature) addr

/-- The frames written when the segment bit is used: the frame it is in, and the frames of the block. -/
def Fills (block : BitsBlock) (s : SegmentBit) (k : Nat) : Prop :=
  k = (block.baseAddress + s.wordColumn) % 2 ^ 32 ∨ ∃ i < block.frames, k = (block.baseAddress + i) % 2 ^ 64

/-- The files below `path` that matter for the design: tile grid, part and pins, and the text files of the types of the tiles it uses. -/
structure DesignFiles (env : Env) (path name : Bytes) (grid : TileGrid) (part : Db.Part) (files : Bytes → TypeContents) (ls : List SourceLine) : Prop where
  dir : ∃ pins, PartDir env [path] name grid part pins
  listed : ∃ entries, env.listing [path] = some entries
  types : ∀ tile feature addr t, Wants ls tile feature addr → grid.lookup tile = some t →
    TypeFiles env [path] t.type (files t.type).clb (files t.type).ram (files t.type).pips
  plain : PlainGrid grid

end Verif.Spec
