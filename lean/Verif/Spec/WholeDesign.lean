import Verif.Spec.EndToEnd
/-! # What the files of a database say about a design, in general

With tiles that are aliases, and with what the assembler adds for the PUDC_B pin and for STEPDOWN. -/
namespace Verif.Spec
open Verif.Db Verif.Asm

/-- `tile.site.tag`, with nothing or a dot and more behind it. -/
def TagOf (name tile site tag : Bytes) : Prop :=
  0x2e ∉ tile ∧ 0x2e ∉ site ∧ 0x2e ∉ tag ∧
  (name = tile ++ 0x2e :: (site ++ 0x2e :: tag) ∨ ∃ rest, name = tile ++ 0x2e :: (site ++ 0x2e :: (tag ++ 0x2e :: rest)))

/-- One of the three features set for the pin of the grid that mentions `PUDC_B`. -/
def PudcName (grid : TileGrid) (name : Bytes) : Prop := ∃ tile pin site, PudcPin grid tile pin ∧ PudcSite pin site ∧ name ∈ pudcNames tile site

/-- The design writes a bit of the feature as 1, or it is one of those for the PUDC_B pin. -/
def InUse (grid : TileGrid) (ls : List SourceLine) (name : Bytes) : Prop := (∃ l ∈ ls, ∃ n, l.Sets name n) ∨ PudcName grid name

/-- The bank of a tile: for `HCLK_IOI3_x`, the one part.json has at `x`; otherwise the bank of the first pin in the tile. -/
def HeadBank (part : Db.Part) (pins : PackagePins) (tile : Bytes) (bank : Nat) : Prop :=
  (∃ loc, (bank, loc) ∈ part.iobanks ∧ tile = bytes!"HCLK_IOI3_" ++ loc) ∨
  ((∀ e ∈ part.iobanks, tile ≠ bytes!"HCLK_IOI3_" ++ e.2) ∧
    ∃ before p behind, pins = before ++ p :: behind ∧ p.tile = tile ∧ p.bank = bank ∧ ∀ q ∈ before, q.tile ≠ tile)

/-- A feature in use has the tag, which mentions `STEPDOWN`, in a tile of the bank. -/
def StepUsed (grid : TileGrid) (part : Db.Part) (pins : PackagePins) (ls : List SourceLine) (bank : Nat) (tag : Bytes) : Prop :=
  ∃ name tile site, InUse grid ls name ∧ TagOf name tile site tag ∧ Occurs bytes!"STEPDOWN" tag ∧ HeadBank part pins tile bank

/-- A feature of the IOB33 site is in use. -/
def SiteUsed (grid : TileGrid) (ls : List SourceLine) (tile site : Bytes) : Prop :=
  ∃ name t s tag, InUse grid ls name ∧ TagOf name t s tag ∧ Occurs bytes!"IOB33" t ∧ t ++ 0x2e :: s = tile ++ 0x2e :: site

/-- The features the assembler adds. -/
inductive Added (grid : TileGrid) (part : Db.Part) (pins : PackagePins) (ls : List SourceLine) : Bytes → Prop
  /-- for the PUDC_B pin -/
  | pudc {name} : PudcName grid name → Added grid part pins ls name
  /-- in a bank with a STEPDOWN tag: the tag for the unused sites of IOB33 tiles -/
  | site {bank tag tile t pin site} : StepUsed grid part pins ls bank tag → InBank part pins bank tile → Occurs bytes!"IOB33" tile →
      grid.lookup tile = some t → pin ∈ t.sites.map (·.1) → IobName pin site → ¬ SiteUsed grid ls tile site →
      Added grid part pins ls (tile ++ 0x2e :: site ++ 0x2e :: tag)
  /-- and STEPDOWN for its HCLK_IOI3 tiles -/
  | bank {bank tag tile} : StepUsed grid part pins ls bank tag → InBank part pins bank tile → Occurs bytes!"HCLK_IOI3" tile →
      Added grid part pins ls (tile ++ 0x2e :: bytes!"STEPDOWN")

/-- Bit `addr` of the feature of the tile is to be 1: a line says so, or the assembler adds it. -/
def WantsBit (grid : TileGrid) (part : Db.Part) (pins : PackagePins) (ls : List SourceLine) (tile feature : Bytes) (addr : Nat) : Prop :=
  0x2e ∉ tile ∧ ((∃ l ∈ ls, l.Sets (tile ++ 0x2e :: feature) addr) ∨ (addr = 0 ∧ Added grid part pins ls (tile ++ 0x2e :: feature)))

/-- A block of the tile and a segment bit the files list for bit `addr` of the feature, looked up under the type and name the aliases of the tile say. -/
def FileBits (grid : TileGrid) (files : Bytes → TypeContents) (tile feature : Bytes) (addr : Nat) (block : BitsBlock) (s : SegmentBit) : Prop :=
  ∃ t type name bus bits, grid.lookup tile = some t ∧ KnownAs t feature type name ∧ ¬ (files type).Pip tile type name ∧ (bus, block) ∈ t.bits ∧
    (files type).Gives bus (type ++ 0x2e :: name, addr) bits ∧ s ∈ bits

/-- Where the segment bit is: `column` frames behind the base address, `bit` bits behind word `offset`, less the start offset of an alias. -/
def Lies (block : BitsBlock) (s : SegmentBit) (k w b : Nat) : Prop :=
  k = (block.baseAddress + s.wordColumn) % 2 ^ 32 ∧ b < 32 ∧
  ((w * 32 + b : Nat) : Int) = ((block.offset - (block.alias?.elim 0 fun a => (a.startOffset : Int))) * 32 + s.wordBit) % 2 ^ 32

/-- The files have something to say about bit `addr` of the feature, within the 101 words of a frame. -/
def BitKnown (grid : TileGrid) (files : Bytes → TypeContents) (tile feature : Bytes) (addr : Nat) : Prop :=
  (∃ t type name, grid.lookup tile = some t ∧ KnownAs t feature type name ∧
    ((files type).Pip tile type name ∨ ∃ bus block bits, (bus, block) ∈ t.bits ∧ (files type).Gives bus (type ++ 0x2e :: name, addr) bits)) ∧
  ∀ block s k w b, FileBits grid files tile feature addr block s → Lies block s k w b → s.isSet = true → w < 101

/-- Nothing is left to the order of hash containers. -/
structure SettledFiles (grid : TileGrid) (part : Db.Part) : Prop where
  aliases : ∀ tile t, grid.lookup tile = some t → AliasesAgree t
  onePudc : ∀ t p t' p', PudcPin grid t p → PudcPin grid t' p' → t = t' ∧ p = p'
  banks : (part.iobanks.map (·.2)).Nodup
  buses : NoBusClash part

/-- The files below `path` that matter for the design. -/
structure WholeFiles (env : Env) (path name : Bytes) (grid : TileGrid) (part : Db.Part) (pins : PackagePins) (files : Bytes → TypeContents) (ls : List SourceLine) : Prop where
  dir : PartDir env [path] name grid part pins
  listed : ∃ entries, env.listing [path] = some entries
  types : ∀ tile feature addr t type f, WantsBit grid part pins ls tile feature addr → grid.lookup tile = some t → KnownAs t feature type f →
    TypeFiles env [path] type (files type).clb (files type).ram (files type).pips
  settled : SettledFiles grid part

/-- Everything the files need to say. -/
structure FilesSuffice (grid : TileGrid) (part : Db.Part) (pins : PackagePins) (files : Bytes → TypeContents) (ls : List SourceLine) : Prop where
  /-- a STEPDOWN tag is used in a tile that has a bank, -/
  banks : ∀ name tile site tag, InUse grid ls name → TagOf name tile site tag → Occurs bytes!"STEPDOWN" tag → ∃ bank, HeadBank part pins tile bank
  /-- whose IOB33 tiles are in the grid, with names for their sites, -/
  sites : ∀ bank tag tile, StepUsed grid part pins ls bank tag → InBank part pins bank tile → Occurs bytes!"IOB33" tile →
    ∃ t, grid.lookup tile = some t ∧ ∀ pin ∈ t.sites.map (·.1), ∃ site, IobName pin site
  /-- every bit to be 1 is known, -/
  bits : ∀ tile feature addr, WantsBit grid part pins ls tile feature addr → BitKnown grid files tile feature addr
  /-- and the PUDC_B pin has a name. -/
  pudc : ∀ tile pin, PudcPin grid tile pin → pin ≠ []

end Verif.Spec
