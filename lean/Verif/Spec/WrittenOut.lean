import Verif.Spec.WholeDesign
/-! # Designs written out in full

A file that says as lines of its own what the assembler would add to another. -/
namespace Verif.Spec
open Verif.Db Verif.Asm

/-- The lines of `full` write as 1 exactly what `ls` asks for or the assembler adds to it. -/
def WritesOut (grid : TileGrid) (part : Db.Part) (pins : PackagePins) (ls full : List SourceLine) : Prop :=
  ∀ tile feature addr, 0x2e ∉ tile → ((∃ l ∈ full, l.Sets (tile ++ 0x2e :: feature) addr) ↔ WantsBit grid part pins ls tile feature addr)

/-- No tile is in two banks, and there is no dot in the name of a tile of a bank. -/
structure BanksApart (part : Db.Part) (pins : PackagePins) : Prop where
  one : ∀ b b' tile, InBank part pins b tile → InBank part pins b' tile → b = b'
  dots : ∀ b tile, InBank part pins b tile → 0x2e ∉ tile

/-- The names of the database can stand in a FASM file: letters, digits, dots and underscores. -/
structure NamesPlain (grid : TileGrid) (part : Db.Part) (pins : PackagePins) : Prop where
  tiles : ∀ e ∈ grid, ∀ c ∈ e.1, NameChar c
  banks : ∀ b tile, InBank part pins b tile → ∀ c ∈ tile, NameChar c
  /-- the site of the PUDC_B pin is not `IOB_Y-1` -/
  pudc : ∀ tile pin, PudcPin grid tile pin → ¬ PudcSite pin bytes!"IOB_Y-1"

end Verif.Spec
