import Verif.Model.DbText
import Verif.Model.DbJson
/-! # Part database: `/repo/fpga/database.cc`, `database.h`

Hash maps and sets are lists with distinct keys in iteration order.  A map built inside a function gets
its iteration order from a function argument (`order…`), of which theorems only assume that it permutes. -/
namespace Verif.Db
open Verif.Text

/-! ## Banks -/

/-- `class BanksTilesRegistry` — database.h:19-48. -/
structure Registry where
  tileToBanks : List (Bytes × List Nat)
  banksToTiles : List (Nat × List Bytes)
deriving DecidableEq, Repr

/-- `set.insert(x)` on a hash set. -/
def setInsert {α : Type} [BEq α] (s : List α) (x : α) : List α := if s.contains x then s else s ++ [x]

/-- `map[k]` default-constructed, then `insert(x)` on the set — database.cc:38, 46. -/
def addToSet {κ α : Type} [BEq κ] [BEq α] (m : List (κ × List α)) (k : κ) (x : α) : List (κ × List α) :=
  assign m k (setInsert ((m.lookup k).getD []) x)

/-- `insert({k, {}})` if missing, then `at(k).push_back(x)` — database.cc:39-42, 47-50. -/
def pushTo {κ α : Type} [BEq κ] (m : List (κ × List α)) (k : κ) (x : α) : List (κ × List α) :=
  assign m k ((m.lookup k).getD [] ++ [x])

/-- `HCLK_IOI3_` -/
def hclkPrefix : Bytes := bytes!"HCLK_IOI3_"

/-- One bank/tile pair: the bodies of both loops — database.cc:36-51. -/
def registryAdd (s : List (Bytes × List Nat) × List (Nat × List Bytes)) (bank : Nat) (tile : Bytes) :
    List (Bytes × List Nat) × List (Nat × List Bytes) :=
  (pushTo s.1 tile bank, addToSet s.2 bank tile)

/-- `BanksTilesRegistry::Create` — database.cc:31-60; `order` is the iteration order of the tile sets. -/
def Registry.create (order : List Bytes → List Bytes) (part : Part) (pins : PackagePins) : Registry :=
  let s := part.iobanks.foldl (fun s e => registryAdd s e.1 (hclkPrefix ++ e.2)) ([], [])
  let s := pins.foldl (fun s p => registryAdd s p.bank p.tile) s
  { tileToBanks := s.1, banksToTiles := s.2.map fun e => (e.1, order e.2) }

/-- `Tiles(bank)` — database.cc:62-68. -/
def Registry.tiles (r : Registry) (bank : Nat) : Option (List Bytes) := r.banksToTiles.lookup bank

/-- `TileBanks(tile)` — database.cc:70-76. -/
def Registry.tileBanks (r : Registry) (tile : Bytes) : List Nat := (r.tileToBanks.lookup tile).getD []

/-! ## Feature bits -/

/-- `struct SegmentsBitsWithPseudoPIPs` — database.h:62-65. -/
structure SegBits where
  pips : PseudoPIPs
  segmentBits : List (ConfigBusType × SegmentsBits)
deriving DecidableEq, Repr

/-- `PartDatabase::Tiles` — database.h:75-87; `bits` is the `TileTypesSegmentsBitsGetter` — 68-69, a
function that may also fail to return (`abort`, `ub`). -/
structure Tiles where
  grid : TileGrid
  bits : Bytes → Outcome (Option SegBits)
  banks : Registry
  part : Part

/-- `class PartDatabase` — database.h:72-111. -/
structure PartDatabase where
  tiles : Tiles
  /-- `segment_bits_cache_` -/
  cache : List (Bytes × SegBits)

/-- `AddSegbitsToCache` — database.cc:78-90. -/
def PartDatabase.addSegbitsToCache (db : PartDatabase) (tileType : Bytes) : Outcome PartDatabase :=
  if (db.cache.lookup tileType).isSome then .ok db
  else (db.tiles.bits tileType) >>= fun r => match r with
    | none => .ok db
    | some s => .ok { db with cache := insertNew db.cache tileType s }

/-- `absl::StrJoin({a, b}, ".")`. -/
def dotted (a b : Bytes) : Bytes := a ++ 0x2e :: b

/-- Loop state of lines 366-400: tile type, aliased feature, `aliased_bits_map`. -/
structure AliasState where
  tileType : Bytes
  feature : Bytes
  blocks : Bits
deriving DecidableEq, Repr

/-- `int32_t(bits_block.offset - alias.start_offset)` — database.cc:393: unsigned 32-bit subtraction. -/
def aliasOffset (offset : Int) (start : Nat) : Int := (BitVec.ofInt 32 offset - BitVec.ofNat 32 start).toInt

/-- `aliased_feature` for an aliased block — database.cc:380-388; `old` is its value before. -/
def aliasFeature (a : BitsBlockAlias) (feature old : Bytes) : Bytes :=
  match splitMax 0x2e 1 feature with
  | head :: site :: _ => dotted head ((a.sites.lookup site).getD site)
  | _ => old

/-- One iteration of the loop — database.cc:372-400. -/
def aliasStep (feature : Bytes) (s : AliasState) (e : ConfigBusType × BitsBlock) : AliasState :=
  match e.2.alias? with
  | none => { s with blocks := insertNew s.blocks e.1 e.2 }
  | some a =>
    { tileType := a.type
      feature := aliasFeature a feature s.feature
      blocks := insertNew s.blocks e.1
        { e.2 with alias? := none, offset := aliasOffset e.2.offset a.startOffset } }

/-- The callback type `BitSetter` — database.h:98-99: state, bus, address, word, index, value. -/
abbrev BitSetter (σ : Type) := σ → ConfigBusType → Nat → Nat → Nat → Bool → Outcome σ

/-- One `bit_setter` call — database.cc:441-449; `uint32_t` arithmetic. -/
def setBit {σ : Type} (setter : BitSetter σ) (bus : ConfigBusType) (block : BitsBlock) (s : σ) (b : SegmentBit) : Outcome σ :=
  let address := (block.baseAddress % 2 ^ 32 + b.wordColumn) % 2 ^ 32
  let pos := ((block.offset % 2 ^ 32).toNat * 32 + b.wordBit) % 2 ^ 32
  setter s bus address (pos / 32) (pos % 32) b.isSet

/-- One iteration over `aliased_bits_map` — database.cc:425-451; the state is `matched` and the caller's. -/
def busStep {σ : Type} (setter : BitSetter σ) (sb : SegBits) (many : Bool) (key : TileFeature) (s : Bool × σ)
    (e : ConfigBusType × BitsBlock) : Outcome (Bool × σ) :=
  match sb.segmentBits.lookup e.1 with
  | none => .ok s
  | some m => match m.lookup key with
    | none => if many then .ok s else .abort
    | some segs => do
      let st ← segs.foldlM (setBit setter e.1 e.2) s.2
      pure (true, st)

/-- `PartDatabase::ConfigBits` — database.cc:360-454; `order` is the iteration order of
`aliased_bits_map`. -/
def PartDatabase.configBits {σ : Type} (order : Bits → Bits) (db : PartDatabase) (tileName feature : Bytes)
    (address : Nat) (setter : BitSetter σ) (s : σ) : Outcome (PartDatabase × σ) :=
  match db.tiles.grid.lookup tileName with
  | none => .abort
  | some tile =>
    let al := tile.bits.foldl (aliasStep feature) ⟨tile.type, feature, []⟩
    (db.addSegbitsToCache al.tileType) >>= fun db =>
    match db.cache.lookup al.tileType with
    | none => .abort
    | some sb =>
      if (sb.pips.lookup (dotted tileName al.feature)).isSome then .ok (db, s)
      else
        let key := (dotted al.tileType al.feature, address)
        if (sb.pips.lookup key.1).isSome then .ok (db, s)
        else do
          let r ← (order al.blocks).foldlM (busStep setter sb (1 < al.blocks.length) key) (false, s)
          if r.1 then pure (db, r.2) else .abort

/-! ## Files -/

/-- A path: its components.  Simplification: a fabric or part name from `mapping` files is one component (a name with a slash
in it, or an absolute one, is not taken apart). -/
abbrev Path := List Bytes

/-- What the program sees of the file system (read-only, unchanged while it runs) and of rapidjson. -/
structure Env where
  /-- `std::filesystem::exists`, when the file system answers; that it throws when it refuses to is modelled in `Model/Exists`. -/
  fileExists : Path → Bool
  /-- `MemoryMapFile`: `none` on failure, else the content and the byte behind it if readable. -/
  read : Path → Option (Bytes × Option UInt8)
  /-- `recursive_directory_iterator`: `none` if it cannot be created, else the entries in order, with
  `is_regular_file`; entries reported as errors are left out. -/
  listing : Path → Option (List (Path × Bool))
  /-- `rapidjson::Document::Parse`: `none` on a parse error. -/
  json : Bytes → Option Json
  /-- What `SimpleAtoi` leaves behind for unparsable text. -/
  junk : Bytes → Nat

/-- `struct TileTypeDatabasePaths` without `mask_db`, which nothing reads — database.cc:134-149. -/
structure DbPaths where
  segbits : Option Path
  blockRam : Option Path
  ppips : Option Path
deriving DecidableEq, Repr

/-- `tile_type_` -/
def tileTypePrefix : Bytes := bytes!"tile_type_"
/-- `.json` -/
def jsonSuffix : Bytes := bytes!".json"
/-- `segbits_` -/
def segbitsPrefix : Bytes := bytes!"segbits_"
/-- `ppips_` -/
def ppipsPrefix : Bytes := bytes!"ppips_"
/-- `.db` -/
def dbSuffix : Bytes := bytes!".db"
/-- `.block_ram.db` -/
def blockRamSuffix : Bytes := bytes!".block_ram.db"

/-- `std::tolower` in the C locale. -/
def toLower (c : UInt8) : UInt8 := if 0x41 ≤ c ∧ c ≤ 0x5a then c + 0x20 else c

/-- The path if it exists. -/
def ifExists (env : Env) (p : Path) : Option Path := if env.fileExists p then some p else none

/-- `GetDatabasePaths` — database.cc:158-202: the entry inserted. -/
def databasePaths (env : Env) (path : Path) : Bytes × DbPaths :=
  let filename := path.getLast?.getD []
  let base := path.dropLast
  let tileType := (filename.drop tileTypePrefix.length).take
    (filename.length - tileTypePrefix.length - jsonSuffix.length)
  let lower := tileType.map toLower
  (tileType,
   { segbits := ifExists env (base ++ [segbitsPrefix ++ lower ++ dbSuffix])
     blockRam := ifExists env (base ++ [segbitsPrefix ++ lower ++ blockRamSuffix])
     ppips := ifExists env (base ++ [ppipsPrefix ++ lower ++ dbSuffix]) })

/-- `IndexTileTypes` — database.cc:204-246. -/
def indexTileTypes (env : Env) (root : Path) : Outcome (List (Bytes × DbPaths)) :=
  match env.listing root with
  | none => .err
  | some entries => .ok <| entries.foldl (fun m e =>
      let filename := e.1.getLast?.getD []
      if e.2 && startsWith tileTypePrefix filename && jsonSuffix.isSuffixOf filename then
        let p := databasePaths env e.1
        insertNew m p.1 p.2
      else m) []

/-- Read and parse an optional file: `MemoryMapFile`, then the parser. -/
def parseFile {α : Type} (env : Env) (parse : Option UInt8 → Bytes → Outcome α) (p : Path) : Outcome α :=
  match env.read p with
  | none => .err
  | some c => parse c.2 c.1

/-- `ParseTileTypeDatabase` — database.cc:248-280. -/
def parseTileType (env : Env) (paths : DbPaths) : Outcome SegBits :=
  (match paths.ppips with
   | none => .ok []
   | some p => parseFile env parsePseudoPIPs p) >>= fun pips =>
  (match paths.segbits with
   | none => .ok []
   | some p => (parseFile env (parseSegmentsBits env.junk) p) >>= fun m =>
      .ok [(ConfigBusType.clbIoClk, m)]) >>= fun clb =>
  (match paths.blockRam with
   | none => .ok []
   | some p => (parseFile env (parseSegmentsBits env.junk) p) >>= fun m =>
      .ok [(ConfigBusType.blockRam, m)]) >>= fun ram =>
  .ok { pips, segmentBits := clb ++ ram }

/-- The `tiles_database` lambda — database.cc:321-334: errors become "no such tile type". -/
def tilesDatabase (env : Env) (paths : List (Bytes × DbPaths)) (tileType : Bytes) : Outcome (Option SegBits) :=
  match paths.lookup tileType with
  | none => .ok none
  | some p => match parseTileType env p with
    | .ok s => .ok (some s)
    | .err => .ok none
    | .abort => .abort
    | .ub => .ub

/-- `mapping` -/
def kMapping : Bytes := bytes!"mapping"
/-- `parts.yaml` -/
def kPartsYaml : Bytes := bytes!"parts.yaml"
/-- `devices.yaml` -/
def kDevicesYaml : Bytes := bytes!"devices.yaml"
/-- `tilegrid.json` -/
def kTilegrid : Bytes := bytes!"tilegrid.json"
/-- `part.json` -/
def kPartJson : Bytes := bytes!"part.json"
/-- `package_pins.csv` -/
def kPackagePins : Bytes :=
  bytes!"package_pins.csv"

/-- `ParsePartInfo` — database.cc:92-118. -/
def parsePartInfo (env : Env) (root : Path) (part : Bytes) : Outcome PartInfo :=
  match env.read (root ++ [kMapping, kPartsYaml]) with
  | none => .err
  | some parts => match env.read (root ++ [kMapping, kDevicesYaml]) with
    | none => .err
    | some devices => (parsePartsInfos parts.1 devices.1) >>= fun infos =>
      match infos.lookup part with
      | none => .err
      | some i => .ok i

/-- Parse a JSON file: `MemoryMapFile`, rapidjson, then the unmarshaller. -/
def parseJsonFile {α : Type} (env : Env) (unmarshal : Json → Outcome α) (p : Path) : Outcome α :=
  match env.read p with
  | none => .err
  | some c => match env.json c.1 with
    | none => .err
    | some j => unmarshal j

/-- Iteration orders of the hash containers of a loaded database: a parser fills a hash map in the order of the file,
the program iterates over it in another.  `sets`: the tile sets of the bank registry; `grid`, `part`: all maps inside
the tile grid and the part description.  Theorems assume only that the content is the same (`Spec.LoadOk`). -/
structure LoadOrder where
  sets : List Bytes → List Bytes
  grid : TileGrid → TileGrid
  part : Part → Part

/-- `PartDatabase::Parse` — database.cc:297-357 (with `ParseTileGrid` — 120-131 — and
`CreateBanksRegistry` — 282-295). -/
def parseDatabase (env : Env) (order : LoadOrder) (root : Path) (partName : Bytes) : Outcome PartDatabase :=
  (parsePartInfo env root partName) >>= fun info =>
  (parseJsonFile env parseTileGrid (root ++ [info.fabric, kTilegrid])) >>= fun grid =>
  (indexTileTypes env root) >>= fun paths =>
  (parseJsonFile env parsePart (root ++ [partName, kPartJson])) >>= fun part =>
  (parseFile env parsePackagePins (root ++ [partName, kPackagePins])) >>= fun pins =>
  .ok { tiles := { grid := order.grid grid, bits := tilesDatabase env paths,
                   banks := Registry.create order.sets (order.part part) pins, part := order.part part }, cache := [] }

end Verif.Db
