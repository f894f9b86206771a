import Verif.Model.Database
/-! # Specification of the part database

`Tiles`, `SegBits` and the record types are shared with the model. -/
namespace Verif.Spec
open Verif.Db

/-- The tile belongs to the bank: a package pin says so, or it is the clock tile of the bank. -/
def InBank (part : Db.Part) (pins : PackagePins) (bank : Nat) (tile : Bytes) : Prop :=
  (∃ p ∈ pins, p.bank = bank ∧ p.tile = tile) ∨
  -- HCLK_IOI3_
  ∃ loc, (bank, loc) ∈ part.iobanks ∧ tile = bytes!"HCLK_IOI3_" ++ loc

/-- Feature name after the site table of an alias: the code looks up everything behind the first dot. -/
def Renamed (sites : List (Bytes × Bytes)) (feature f : Bytes) : Prop :=
  (∃ head site to, feature = head ++ 0x2e :: site ∧ 0x2e ∉ head ∧ sites.lookup site = some to ∧ f = head ++ 0x2e :: to) ∨
  ((∀ head site to, feature = head ++ 0x2e :: site → 0x2e ∉ head → sites.lookup site ≠ some to) ∧ f = feature)

/-- Tile type and feature name under which the feature of a tile is to be looked up: its own, or those of the last
aliased block in the iteration order of the map. -/
def KnownAs (t : Db.Tile) (feature ty f : Bytes) : Prop :=
  ((∀ e ∈ t.bits, e.2.alias? = none) ∧ ty = t.type ∧ f = feature) ∨
  ∃ pre bus block a post, t.bits = pre ++ (bus, block) :: post ∧ block.alias? = some a ∧
    (∀ e ∈ post, e.2.alias? = none) ∧ ty = a.type ∧ Renamed a.sites feature f

/-- All aliased blocks of the tile name the same type and sites. -/
def AliasesAgree (t : Db.Tile) : Prop :=
  ∀ e ∈ t.bits, ∀ e' ∈ t.bits, ∀ a a', e.2.alias? = some a → e'.2.alias? = some a' →
    a.type = a'.type ∧ ∀ s, a.sites.lookup s = a'.sites.lookup s

/-- One configuration bit: where it is and whether it is to be 1. -/
structure BitCall where
  bus : ConfigBusType
  frame : Nat
  word : Nat
  index : Nat
  value : Bool
deriving DecidableEq, Repr

/-- Call the setter once for every bit of the list. -/
def applyCalls {σ : Type} (setter : BitSetter σ) (s : σ) (calls : List BitCall) : Outcome σ :=
  calls.foldlM (fun s c => setter s c.bus c.frame c.word c.index c.value) s

/-- First word of the tile in a frame. -/
def firstWord (b : BitsBlock) : Int := b.offset - (b.alias?.elim 0 fun a => (a.startOffset : Int))

/-- Frame of a listed bit (32-bit). -/
def bitFrame (b : BitsBlock) (s : SegmentBit) : Nat := (b.baseAddress + s.wordColumn) % 2 ^ 32

/-- Position of a listed bit in its frame (32-bit). -/
def bitPos (b : BitsBlock) (s : SegmentBit) : Nat := ((firstWord b * 32 + s.wordBit) % 2 ^ 32).toNat

/-- What the segment bits of a bus list for a feature. -/
def listed (sb : SegBits) (key : TileFeature) (bus : ConfigBusType) : Option (List SegmentBit) :=
  (sb.segmentBits.lookup bus).bind (·.lookup key)

/-- The bits of a feature in all blocks of a tile. -/
def tileBits (t : Db.Tile) (sb : SegBits) (key : TileFeature) : List BitCall :=
  t.bits.flatMap fun e => ((listed sb key e.1).getD []).map fun s =>
    ⟨e.1, bitFrame e.2 s, bitPos e.2 s / 32, bitPos e.2 s % 32, s.isSet⟩

/-- The feature is a pseudo PIP: listed under the tile name or the tile type. -/
def IsPip (sb : SegBits) (tile ty f : Bytes) : Prop :=
  (∃ v, sb.pips.lookup (tile ++ 0x2e :: f) = some v) ∨ ∃ v, sb.pips.lookup (ty ++ 0x2e :: f) = some v

/-- The database says that bit `addr` of `feature` in `tile` stands for `bits`. -/
def FeatureBits (tiles : Tiles) (tile feature : Bytes) (addr : Nat) (bits : List BitCall) : Prop :=
  ∃ t ty f sb, tiles.grid.lookup tile = some t ∧ KnownAs t feature ty f ∧ tiles.bits ty = .ok (some sb) ∧
    ((IsPip sb tile ty f ∧ bits = []) ∨
     (¬ IsPip sb tile ty f ∧ (∃ e ∈ t.bits, (listed sb (ty ++ 0x2e :: f, addr) e.1).isSome) ∧
      bits = tileBits t sb (ty ++ 0x2e :: f, addr)))

/-- A loaded database: the blocks of a tile have distinct buses. -/
def TilesOk (tiles : Tiles) : Prop := ∀ name t, tiles.grid.lookup name = some t → (t.bits.map (·.1)).Nodup

/-- Same map, whatever the order. -/
def SameMap {κ ν : Type} [BEq κ] (R : ν → ν → Prop) (m m' : List (κ × ν)) : Prop :=
  ∀ k, match m.lookup k, m'.lookup k with
    | none, none => True
    | some v, some v' => R v v'
    | _, _ => False

/-- Same block, site table in another order. -/
def SameBlock (b b' : BitsBlock) : Prop :=
  b.baseAddress = b'.baseAddress ∧ b.frames = b'.frames ∧ b.offset = b'.offset ∧ b.words = b'.words ∧
  match b.alias?, b'.alias? with
  | none, none => True
  | some a, some a' => a.type = a'.type ∧ a.startOffset = a'.startOffset ∧ SameMap (· = ·) a.sites a'.sites
  | _, _ => False

/-- Same tile, maps in another order. -/
def SameTile (t t' : Db.Tile) : Prop := t.type = t'.type ∧ SameMap SameBlock t.bits t'.bits

/-- Same segment bits, maps in another order. -/
def SameSegBits (s s' : SegBits) : Prop :=
  SameMap (· = ·) s.pips s'.pips ∧ SameMap (SameMap (· = ·)) s.segmentBits s'.segmentBits

/-- Same database, maps in another order. -/
def SameTiles (T T' : Tiles) : Prop :=
  SameMap SameTile T.grid T'.grid ∧
  ∀ ty, match T.bits ty, T'.bits ty with
    | .ok (some s), .ok (some s') => SameSegBits s s'
    | .ok none, .ok none => True
    | .err, .err => True
    | .abort, .abort => True
    | .ub, .ub => True
    | _, _ => False

/-- The same map in another order, the values related. -/
def Reordered {κ ν : Type} (R : ν → ν → Prop) (m m' : List (κ × ν)) : Prop :=
  ∃ zs : List (κ × ν × ν), m.Perm (zs.map fun z => (z.1, z.2.1)) ∧ m' = zs.map (fun z => (z.1, z.2.2)) ∧ ∀ z ∈ zs, R z.2.1 z.2.2

/-- The same block, the site table of its alias in another order. -/
def BlockReordered (b b' : BitsBlock) : Prop :=
  b.baseAddress = b'.baseAddress ∧ b.frames = b'.frames ∧ b.offset = b'.offset ∧ b.words = b'.words ∧
  match b.alias?, b'.alias? with
  | none, none => True
  | some a, some a' => a.type = a'.type ∧ a.startOffset = a'.startOffset ∧ a.sites.Perm a'.sites
  | _, _ => False

/-- The same tile, its maps in another order. -/
def TileReordered (t t' : Db.Tile) : Prop :=
  t.type = t'.type ∧ t.x = t'.x ∧ t.y = t'.y ∧ t.clockRegion = t'.clockRegion ∧ t.prohibitedSites = t'.prohibitedSites ∧
  Reordered BlockReordered t.bits t'.bits ∧ t.pinFunctions.Perm t'.pinFunctions ∧ t.sites.Perm t'.sites

/-- The same rows, the buses of each in another order. -/
def RowsReordered (rs rs' : ClockRegionHalf) : Prop :=
  ∃ zs : List (ClockRegionRow × ClockRegionRow), rs = zs.map (·.1) ∧ rs' = zs.map (·.2) ∧ ∀ z ∈ zs, z.1.Perm z.2

/-- The same part description, its maps in another order. -/
def PartReordered (p p' : Db.Part) : Prop :=
  p.idcode = p'.idcode ∧ p.iobanks.Perm p'.iobanks ∧ RowsReordered p.topRows p'.topRows ∧ RowsReordered p.bottomRows p'.bottomRows

/-- Loading keeps the content of hash containers, whatever their iteration order. -/
structure LoadOk (load : LoadOrder) : Prop where
  sets : ∀ l, (load.sets l).Perm l
  grid : ∀ g, Reordered TileReordered g (load.grid g)
  part : ∀ p, PartReordered p (load.part p)

/-- Databases reached from a freshly loaded one by queries. -/
inductive Reachable (tiles : Tiles) : PartDatabase → Prop
  | fresh : Reachable tiles ⟨tiles, []⟩
  | query {σ : Type} {db db' : PartDatabase} (order : Bits → Bits) (tile feature : Bytes) (address : Nat)
      (setter : BitSetter σ) (s s' : σ) : Reachable tiles db →
      db.configBits order tile feature address setter s = .ok (db', s') → Reachable tiles db'

/-! ## Files of a tile type -/

/-- `tile_type_T.json` -/
def tileTypeFile (T : Bytes) : Bytes :=
  bytes!"tile_type_" ++ T ++ bytes!".json"
/-- `segbits_t.db` -/
def segbitsFile (t : Bytes) : Bytes := bytes!"segbits_" ++ t ++ bytes!".db"
/-- `segbits_t.block_ram.db` -/
def blockRamFile (t : Bytes) : Bytes :=
  bytes!"segbits_" ++ t ++
    bytes!".block_ram.db"
/-- `ppips_t.db` -/
def ppipsFile (t : Bytes) : Bytes := bytes!"ppips_" ++ t ++ bytes!".db"

/-- ASCII lower case. -/
def lowerByte (b : UInt8) : UInt8 := if 65 ≤ b.toNat ∧ b.toNat ≤ 90 then UInt8.ofNat (b.toNat + 32) else b
/-- ASCII lower case of a name. -/
def lowerCase (T : Bytes) : Bytes := T.map lowerByte

/-- `dir` is the directory of the first regular file `tile_type_T.json` of the listing. -/
def FirstTypeDir (entries : List (Path × Bool)) (T : Bytes) (dir : Path) : Prop :=
  ∃ pre post, entries = pre ++ (dir ++ [tileTypeFile T], true) :: post ∧
    ∀ e ∈ pre, ∀ d, e ≠ (d ++ [tileTypeFile T], true)

/-- `o` is the file if it exists, and nothing otherwise. -/
def FileIfPresent (env : Env) (p : Path) (o : Option Path) : Prop :=
  (env.fileExists p = true ∧ o = some p) ∨ (env.fileExists p = false ∧ o = none)

end Verif.Spec
