import Verif.Spec.DbJson
/-! # Specification: writing parts and tile grids as JSON -/
namespace Verif.Spec
open Verif.Db

/-- `n` in base `b` (2 ≤ b ≤ 16), lower-case. -/
def digitsText (b : Nat) (n : Nat) : Bytes :=
  if h : n < b ∨ b < 2 then [digit n] else digitsText b (n / b) ++ [digit (n % b)]
termination_by n
decreasing_by exact Nat.div_lt_self (by omega) (by omega)
where
  /-- One digit. -/
  digit (d : Nat) : UInt8 := if d < 10 then UInt8.ofNat (0x30 + d) else UInt8.ofNat (0x61 + (d - 10))

/-- Objects with keys 0, 1, 2, … -/
def sequenceObj {α : Type} (item : α → Json) (l : List α) : Json :=
  .obj (l.zipIdx.map fun e => (digitsText 10 e.2, item e.1))

/-- One member per bus. -/
def busObj {α : Type} (item : α → Json) (m : List (ConfigBusType × α)) : Json :=
  .obj (m.map fun e => (busName e.1, item e.2))

/-- A map from strings to strings. -/
def stringObj (m : List (Bytes × Bytes)) : Json := .obj (m.map fun e => (e.1, .str e.2))

/-- `{"frame_count": n}` -/
def columnObj (n : Nat) : Json :=
  .obj [(bytes!"frame_count", .int n)]

/-- `{"configuration_columns": {"0": …, "1": …}}` -/
def busColumnsObj (counts : List Nat) : Json :=
  .obj [(bytes!"configuration_columns", sequenceObj columnObj counts)]

/-- `{"configuration_buses": {"CLB_IO_CLK": …}}` -/
def rowObj (row : ClockRegionRow) : Json :=
  .obj [(bytes!"configuration_buses", busObj busColumnsObj row)]

/-- `{"rows": {"0": …, "1": …}}` -/
def halfObj (half : ClockRegionHalf) : Json := .obj [(bytes!"rows", sequenceObj rowObj half)]

/-- `{"idcode": …, "iobanks": …, "global_clock_regions": {"bottom": …, "top": …}}` -/
def partObj (p : Db.Part) : Json :=
  .obj [(bytes!"idcode", .int p.idcode.toNat),
    (bytes!"iobanks", .obj (p.iobanks.map fun e => (digitsText 10 e.1, .str e.2))),
    (bytes!"global_clock_regions", .obj [(bytes!"bottom", halfObj p.bottomRows),
        (bytes!"top", halfObj p.topRows)])]

/-- Parts a file can describe: 32-bit numbers, distinct map keys, C strings. -/
structure PartValid (p : Db.Part) : Prop where
  banks : (p.iobanks.map (·.1)).Nodup ∧ ∀ e ∈ p.iobanks, e.1 < 2 ^ 32 ∧ (0 : UInt8) ∉ e.2
  halves : ∀ half, half = p.bottomRows ∨ half = p.topRows → half.length ≤ 2 ^ 31 ∧
    ∀ row ∈ half, (row.map (·.1)).Nodup ∧ ∀ bus ∈ row, bus.2.length ≤ 2 ^ 31 ∧ ∀ n ∈ bus.2, n < 2 ^ 32

/-- `{"sites": …, "start_offset": …, "type": …}` -/
def aliasObj (a : BitsBlockAlias) : Json :=
  .obj [(bytes!"sites", stringObj a.sites),
    (bytes!"start_offset", .int a.startOffset),
    (bytes!"type", .str a.type)]

/-- `{"baseaddr": "0x…", "frames": …, "offset": …, "words": …, "alias": …}` -/
def blockObj (b : BitsBlock) : Json :=
  .obj ([(bytes!"baseaddr", .str (0x30 :: 0x78 :: digitsText 16 b.baseAddress)),
    (bytes!"frames", .int b.frames), (bytes!"offset", .int b.offset),
    (bytes!"words", .int b.words)] ++
    (b.alias?.map fun a => (bytes!"alias", aliasObj a)).toList)

/-- A tile. -/
def tileObj (t : Db.Tile) : Json :=
  .obj ([(bytes!"type", .str t.type), (bytes!"grid_x", .int t.x),
    (bytes!"grid_y", .int t.y), (bytes!"bits", busObj blockObj t.bits),
    (bytes!"pin_functions", stringObj t.pinFunctions),
    (bytes!"sites", stringObj t.sites),
    (bytes!"prohibited_sites",
      .arr (t.prohibitedSites.map .str))] ++
    (t.clockRegion.map fun s => (bytes!"clock_region", .str s)).toList)

/-- A tile grid. -/
def gridObj (g : TileGrid) : Json := .obj (g.map fun e => (e.1, tileObj e.2))

/-- Blocks a file can describe. -/
structure BlockValid (b : BitsBlock) : Prop where
  base : b.baseAddress < 2 ^ 63
  frames : b.frames < 2 ^ 32
  words : b.words < 2 ^ 32
  offset : -(2 ^ 31) ≤ b.offset ∧ b.offset < 2 ^ 31
  alias : ∀ a, b.alias? = some a → a.startOffset < 2 ^ 32 ∧ (a.sites.map (·.1)).Nodup

/-- Tiles a file can describe. -/
structure TileValid (t : Db.Tile) : Prop where
  x : t.x < 2 ^ 32
  y : t.y < 2 ^ 32
  bits : (t.bits.map (·.1)).Nodup ∧ ∀ e ∈ t.bits, BlockValid e.2
  pins : (t.pinFunctions.map (·.1)).Nodup
  sites : (t.sites.map (·.1)).Nodup
  prohibited : ∀ s ∈ t.prohibitedSites, (0 : UInt8) ∉ s

/-- Grids a file can describe. -/
structure GridValid (g : TileGrid) : Prop where
  names : (g.map (·.1)).Nodup ∧ ∀ e ∈ g, (0 : UInt8) ∉ e.1
  tiles : ∀ e ∈ g, TileValid e.2

end Verif.Spec
