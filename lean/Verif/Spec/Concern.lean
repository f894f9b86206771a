import Verif.Spec.Compose
/-! # Specification: what a design takes from the database -/
namespace Verif.Spec
open Verif.Db Verif.Asm Verif.Xc7

/-- The design asks for bit `addr` of the feature: a statement of the text, or one added for the PUDC_B pin or STEPDOWN, writes it as 1. -/
def AsksFor (tiles : Tiles) (text tile feature : Bytes) (addr : Nat) : Prop := ∃ F, Design tiles text F ∧ Asks F tile feature addr

/-- The tile is in a bank of which the design uses a STEPDOWN tag. -/
def InStepdownBank (tiles : Tiles) (text tile : Bytes) : Prop :=
  ∃ bank tag ts, StepTag tiles.banks (Basic tiles text) bank tag ∧ tiles.banks.tiles bank = some ts ∧ tile ∈ ts

/-- The two databases say the same about the bit of the feature: the tile has the same blocks, the bit stands for the same configuration bits. -/
def AgreeOn (tiles tiles' : Tiles) (tile feature : Bytes) (addr : Nat) : Prop :=
  (tiles'.grid.lookup tile).map (·.bits) = (tiles.grid.lookup tile).map (·.bits) ∧
  ∀ bits, FeatureBits tiles' tile feature addr bits ↔ FeatureBits tiles tile feature addr bits

/-- The two databases agree on everything the design needs, but perhaps on the extent of its tiles: the PUDC_B pin, the bits it asks for, the bank of
tiles with STEPDOWN tags, these banks and the sites of their IOB33 tiles. -/
structure AgreeBits (tiles tiles' : Tiles) (text : Bytes) : Prop where
  pudc : ∀ tile pin, FirstPudcB tiles'.grid tile pin ↔ FirstPudcB tiles.grid tile pin
  bits : ∀ tile feature addr, AsksFor tiles text tile feature addr →
    ∀ bits, FeatureBits tiles' tile feature addr bits ↔ FeatureBits tiles tile feature addr bits
  bankOf : ∀ F tile site tag, Basic tiles text F → HasTag F tile site tag → Occurs bytes!"STEPDOWN" tag →
    tiles'.banks.tileBanks tile = tiles.banks.tileBanks tile
  bank : ∀ bank tag, StepTag tiles.banks (Basic tiles text) bank tag → tiles'.banks.tiles bank = tiles.banks.tiles bank
  banked : ∀ tile, InStepdownBank tiles text tile → Occurs bytes!"IOB33" tile →
    (tiles'.grid.lookup tile).map (·.sites) = (tiles.grid.lookup tile).map (·.sites)

/-- The two databases agree on everything the design needs: the PUDC_B pin, the bits it asks for, the bank of tiles with STEPDOWN tags, these banks and the sites of
their IOB33 tiles. -/
structure Agree (tiles tiles' : Tiles) (text : Bytes) : Prop where
  pudc : ∀ tile pin, FirstPudcB tiles'.grid tile pin ↔ FirstPudcB tiles.grid tile pin
  named : ∀ tile feature addr, AsksFor tiles text tile feature addr → AgreeOn tiles tiles' tile feature addr
  bankOf : ∀ F tile site tag, Basic tiles text F → HasTag F tile site tag → Occurs bytes!"STEPDOWN" tag →
    tiles'.banks.tileBanks tile = tiles.banks.tileBanks tile
  bank : ∀ bank tag, StepTag tiles.banks (Basic tiles text) bank tag → tiles'.banks.tiles bank = tiles.banks.tiles bank
  banked : ∀ tile, InStepdownBank tiles text tile → Occurs bytes!"IOB33" tile →
    (tiles'.grid.lookup tile).map (·.sites) = (tiles.grid.lookup tile).map (·.sites)

/-- The second database says what the first says, and perhaps more: on more tiles, on more features of tiles. -/
structure Extends (tiles tiles' : Tiles) : Prop where
  grid : ∀ name t, tiles.grid.lookup name = some t → ∃ t', tiles'.grid.lookup name = some t' ∧ t'.bits = t.bits ∧ t'.sites = t.sites
  features : ∀ tile feature addr bits, FeatureBits tiles tile feature addr bits → FeatureBits tiles' tile feature addr bits
  banks : tiles'.banks = tiles.banks
  pudc : ∀ tile pin, FirstPudcB tiles'.grid tile pin ↔ FirstPudcB tiles.grid tile pin

/-- The block with its base address modulo 2^32. -/
def lowBlock (b : BitsBlock) : BitsBlock := { b with baseAddress := b.baseAddress % 2 ^ 32 }

/-- The two databases differ at most in base addresses of tiles, and these only by multiples of 2^32. -/
structure Rebased (tiles tiles' : Tiles) : Prop where
  grid : ∀ name, (tiles'.grid.lookup name).map (fun t => (t.type, t.sites, t.bits.map fun e => (e.1, lowBlock e.2))) =
    (tiles.grid.lookup name).map (fun t => (t.type, t.sites, t.bits.map fun e => (e.1, lowBlock e.2)))
  pudc : ∀ tile pin, FirstPudcB tiles'.grid tile pin ↔ FirstPudcB tiles.grid tile pin
  bits : tiles'.bits = tiles.bits
  banks : tiles'.banks = tiles.banks
  part : tiles'.part = tiles.part

end Verif.Spec
