import Verif.Model.Database
import Verif.Model.FasmText
/-! # Messages of a database that cannot be read: `/repo/fpga/database-parsers.cc`, `database.cc`, `memory-mapped-file.cc`

The parsers of `Model/DbText.lean`, `DbJson.lean` and `Database.lean` once more, with the message of the `absl::Status` they return.
That they are the same parsers is proved (`C101_same_parsers`, `C103_same_parsers`, `C104_same_database`).

Texts made by libraries are inputs (`LibTexts`).  What a failed `CHECK` prints is left out. -/
namespace Verif.Db
open Verif.Text
open Verif.Fasm (lit printU)

/-- Result of C++ code that returns an `absl::StatusOr`: like `Outcome`, with the message. -/
inductive Said (α : Type) where
  | ok (a : α)
  | err (message : Bytes)
  | abort
  | ub
deriving Repr, DecidableEq

namespace Said
variable {α β γ : Type}

/-- Sequencing: anything but `ok` stops the computation. -/
@[simp] def bind : Said α → (α → Said β) → Said β
  | ok a, f => f a
  | err m, _ => err m
  | abort, _ => abort
  | ub, _ => ub

instance : Monad Said where
  pure := ok
  bind := bind

@[simp] theorem pure_eq (a : α) : (pure a : Said α) = ok a := rfl
@[simp] theorem bind_ok (a : α) (f : α → Said β) : (ok a >>= f) = f a := rfl
@[simp] theorem bind_err (m : Bytes) (f : α → Said β) : ((err m : Said α) >>= f) = err m := rfl
@[simp] theorem bind_abort (f : α → Said β) : ((abort : Said α) >>= f) = abort := rfl
@[simp] theorem bind_ub (f : α → Said β) : ((ub : Said α) >>= f) = ub := rfl

instance : LawfulMonad Said := LawfulMonad.mk'
  (id_map := by intro α x; cases x <;> rfl)
  (pure_bind := by intros; rfl)
  (bind_assoc := by intro α β γ x f g; cases x <;> rfl)

/-- The outcome without its message. -/
def forget : Said α → Outcome α
  | ok a => .ok a
  | err _ => .err
  | abort => .abort
  | ub => .ub

/-- Code that cannot return a status of its own. -/
def ofOutcome (m : Bytes) : Outcome α → Said α
  | .ok a => ok a
  | .err => err m
  | .abort => abort
  | .ub => ub

end Said

/-- Texts made by libraries. -/
structure LibTexts where
  /-- `ValueAsString` — database-parsers.cc:92-97: a JSON value written by `rapidjson::Writer`. -/
  render : Json → Bytes
  /-- `rapidjson::GetParseError_En(code)` and the offset, for a text that is not JSON. -/
  jsonError : Bytes → Bytes × Nat
  /-- `strerror(errno)` for a file that cannot be opened. -/
  strerror : Path → Bytes

/-! ## Files of lines -/

/-- Loop of `LinesGenerator` — database-parsers.cc:422-429. -/
def linesLoopM {σ : Type} (after : Option UInt8) (sink : σ → Nat → Bytes → Said σ) :
    Nat → Bytes → Nat → σ → Said σ
  | 0, _, _, st => .ok st
  | fuel + 1, it, n, st =>
    match it with
    | [] => .ok st
    | _ :: _ => do
      let n' := (n + 1) % 2 ^ 32
      let (line, rest) ← Said.ofOutcome [] (skipToEol after it)
      let st' ← sink st n' line
      linesLoopM after sink fuel rest.tail n' st'

/-- `LinesGenerator` — database-parsers.cc:413-431. -/
def linesGeneratorM {σ : Type} (after : Option UInt8) (content : Bytes)
    (sink : σ → Nat → Bytes → Said σ) (st : σ) : Said σ :=
  linesLoopM after sink content.length content 0 st

/-- `MakeInvalidLineStatus` — database-parsers.cc:435-439. -/
def invalidLineStatus {α : Type} (lineNumber : Nat) (message : Bytes) : Said α :=
  .err (printU lineNumber ++ lit ": " ++ message)

/-- `absl::StrFormat("invalid line \"%s\"", line)` — database-parsers.cc:464, 529, 541, 616. -/
def msgInvalidLine (line : Bytes) : Bytes := lit "invalid line \"" ++ line ++ lit "\""

/-- `ParsePseudoPIPTypeFromString` — database-parsers.cc:441-455. -/
def ppipTypeM (s : Bytes) : Said PseudoPIPType :=
  if s = bytes!"always" then .ok .always
  else if s = bytes!"default" then .ok .default
  else if s = bytes!"hint" then .ok .hint
  else .err (lit "invalid pseudo pip state \"" ++ s ++ lit "\"")

/-- `ParsePseudoPIPDatabaseLine` — database-parsers.cc:457-473. -/
def ppipLineM (out : PseudoPIPs) (lineCount : Nat) (line : Bytes) : Said PseudoPIPs :=
  if line = [] then .ok out
  else match fields line with
    | [name, t] => do
      let type ← ppipTypeM t
      pure (insertNew out name type)
    | _ => invalidLineStatus lineCount (msgInvalidLine line)

/-- `ParsePseudoPIPsDatabase` — database-parsers.cc:476-489. -/
def parsePseudoPIPsM (after : Option UInt8) (content : Bytes) : Said PseudoPIPs :=
  if content = [] then .ok [] else linesGeneratorM after content ppipLineM []

/-- `absl::StrFormat("could not parse coordinate \"%s\"", line)` — database-parsers.cc:547, 551. -/
def msgCoordinate (line : Bytes) : Bytes := lit "could not parse coordinate \"" ++ line ++ lit "\""

/-- One bit of a segbits line — database-parsers.cc:534-552. -/
def segmentBitM (lineCount : Nat) (line bit : Bytes) : Said SegmentBit :=
  let set := bit.head? ≠ some 0x21
  match splitBy (· = 0x5f) (if set then bit else bit.drop 1) with
  | [c0, c1] =>
    match atoiU32 c0 with
    | none => invalidLineStatus lineCount (msgCoordinate line)
    | some wc =>
      match atoiU32 c1 with
      | none => invalidLineStatus lineCount (msgCoordinate line)
      | some wb => .ok { wordColumn := wc, wordBit := wb, isSet := set }
  | _ => invalidLineStatus lineCount (msgInvalidLine line)

/-- `ParseSegmentsBitsDatabaseLine` — database-parsers.cc:521-557. -/
def segbitsLineM (junk : Bytes → Nat) (out : SegmentsBits) (lineCount : Nat) (line : Bytes) :
    Said SegmentsBits :=
  match fields line with
  | [] => .ok out
  | [_] => invalidLineStatus lineCount (msgInvalidLine line)
  | name :: bits => do
    let bs ← bits.mapM (segmentBitM lineCount line)
    pure (insertNew out (featureNameAndAddress junk name) bs)

/-- `ParseSegmentsBitsDatabase` — database-parsers.cc:560-574. -/
def parseSegmentsBitsM (junk : Bytes → Nat) (after : Option UInt8) (content : Bytes) : Said SegmentsBits :=
  if content = [] then .ok [] else linesGeneratorM after content (segbitsLineM junk) []

/-- `ParsePackagePinCSVLine` — database-parsers.cc:600-629. -/
def csvLineM (out : PackagePins) (lineCount : Nat) (line : Bytes) : Said PackagePins :=
  let segments := (skipEmpty (splitBy (· = 0x2c) line)).map strip
  if lineCount = 1 then (if segments = csvHeader then .ok out else invalidLineStatus lineCount (lit "missing header"))
  else match segments with
    | [] => .ok out
    | [s0, s1, s2, s3, s4] =>
      match atoiU32 s1 with
      | none => invalidLineStatus lineCount (lit "could not parse bank (second column) \"" ++ line ++ lit "\"")
      | some bank => .ok (out ++ [{ pin := s0, bank := bank, site := s2, tile := s3, pinFunction := s4 }])
    | _ => invalidLineStatus lineCount (msgInvalidLine line)

/-- `ParsePackagePins` — database-parsers.cc:632-645. -/
def parsePackagePinsM (after : Option UInt8) (content : Bytes) : Said PackagePins :=
  if content = [] then .ok [] else linesGeneratorM after content csvLineM []

/-! ## Mapping YAML -/

/-- Call the sink for the finished entry, if there is one — database-parsers.cc:717-722, 755-760. -/
def yamlFlushM {σ : Type} (sink : σ → Bytes → List (Bytes × Bytes) → Said σ) (st : YamlSt σ) : Said σ :=
  if st.key ≠ [] then sink st.out st.key st.props else .ok st.out

/-- Body of the line loop of `ParseMappingYAML` — database-parsers.cc:702-752. -/
def yamlLineM {σ : Type} (sink : σ → Bytes → List (Bytes × Bytes) → Said σ) (st : YamlSt σ) (line : Bytes) :
    Said (YamlSt σ) :=
  let trimmed := strip line
  if trimmed = [] ∨ trimmed.head? = some 0x23 then .ok st
  else
    let indent := line.length - (stripLeading line).length
    if indent = 0 then do
      let out ← yamlFlushM sink st
      if endsWith 0x3a trimmed then
        pure { key := removeQuotes trimmed.dropLast, props := [], out := out }
      else .err (lit "Top-level key missing trailing colon")
    else match find 0x3a trimmed with
      | none => .err (lit "Nested key-value pair missing colon")
      | some pos =>
        let key := strip (trimmed.take pos)
        let value := removeQuotes (strip (trimmed.drop (pos + 1)))
        .ok { st with props := assign st.props key value }

/-- `ParseMappingYAML` — database-parsers.cc:696-763. -/
def parseMappingYAMLM {σ : Type} (content : Bytes) (sink : σ → Bytes → List (Bytes × Bytes) → Said σ)
    (st : σ) : Said σ := do
  let s ← (splitBy (· = 0x0a) content).foldlM (yamlLineM sink) { out := st }
  yamlFlushM sink s

/-- `ValueOrStatus` — database-parsers.cc:775-784. -/
def valueOrStatusM (m : List (Bytes × Bytes)) (k : Bytes) : Said Bytes :=
  match m.lookup k with
  | none => .err (lit "key \"" ++ k ++ lit "\" not found")
  | some v => .ok v

/-- Sink of the devices mapping — database-parsers.cc:793-803. -/
def fabricSinkM (fabrics : List (Bytes × Bytes)) (part : Bytes) (props : List (Bytes × Bytes)) :
    Said (List (Bytes × Bytes)) :=
  match props.lookup kFabric with
  | none => .err (lit "parts yaml doesn't contain fabric")
  | some fabric => .ok (insertNew fabrics part fabric)

/-- Sink of the parts mapping — database-parsers.cc:809-833. -/
def partSinkM (fabrics : List (Bytes × Bytes)) (infos : List (Bytes × PartInfo)) (part : Bytes)
    (props : List (Bytes × Bytes)) : Said (List (Bytes × PartInfo)) := do
  let device ← valueOrStatusM props kDevice
  let package ← valueOrStatusM props kPackage
  let speedgrade ← valueOrStatusM props kSpeedgrade
  match fabrics.lookup device with
  | none => .err (lit "could not find fabric for device: \"" ++ device ++ lit "\"")
  | some fabric => pure (insertNew infos part { device, fabric, package, speedgrade })

/-- `ParsePartsInfos` — database-parsers.cc:787-836. -/
def parsePartsInfosM (partsYaml devicesYaml : Bytes) : Said (List (Bytes × PartInfo)) := do
  let fabrics ← parseMappingYAMLM devicesYaml fabricSinkM []
  parseMappingYAMLM partsYaml (partSinkM fabrics) []

/-! ## JSON -/

/-- `IsObject` — database-parsers.cc:62-66. -/
def msgNotObject : Bytes := lit "json value not an object"
/-- `IsArray` — database-parsers.cc:68-72. -/
def msgNotArray : Bytes := lit "json value not an array"

/-- `JSONTypeString` — database-parsers.cc:74-85. -/
def jsonTypeString : Json → Bytes
  | .null => lit "null"
  | .bool _ => lit "boolean"
  | .obj _ => lit "object"
  | .arr _ => lit "array"
  | .str _ => lit "string"
  | .int _ => lit "number"
  | .dbl => lit "number"

/-- `UnexpectedTypeError` — database-parsers.cc:99-103. -/
def msgUnexpectedType (x : LibTexts) (j : Json) : Bytes :=
  lit "could not unmarshal " ++ x.render j ++ lit ", unexpected type: " ++ jsonTypeString j

/-- database-parsers.cc:118-120. -/
def msgNoAttribute (x : LibTexts) (name : Bytes) (j : Json) : Bytes :=
  lit "json attribute \"" ++ name ++ lit "\" not found in " ++ x.render j

/-- database-parsers.cc:251-252, 276-277, 317-318. -/
def msgCannotParseKey (x : LibTexts) (key : Bytes) (j : Json) : Bytes :=
  lit "cannot parse \"" ++ key ++ lit "\" for " ++ x.render j

/-- `GetMember` — database-parsers.cc:113-123. -/
def getMemberM {α : Type} (x : LibTexts) (unmarshal : Json → Said α) (j : Json) (name : Bytes) : Said α :=
  match j with
  | .obj ms => match findMember ms name with
    | none => .err (msgNoAttribute x name j)
    | some v => unmarshal v
  | _ => .err msgNotObject

/-- `OptGetMember` — database-parsers.cc:125-134. -/
def optGetMemberM {α : Type} (unmarshal : Json → Said α) (j : Json) (name : Bytes) : Said (Option α) :=
  match j with
  | .obj ms => match findMember ms name with
    | none => .ok none
    | some v => do
      let a ← unmarshal v
      pure (some a)
  | _ => .err msgNotObject

/-- `Unmarshal<uint32_t>` — database-parsers.cc:105-111. -/
def asU32M (x : LibTexts) (j : Json) : Said Nat := Said.ofOutcome (msgUnexpectedType x j) (asU32 j)

/-- `Unmarshal<int32_t>` — database-parsers.cc:105-111. -/
def asI32M (x : LibTexts) (j : Json) : Said Int := Said.ofOutcome (msgUnexpectedType x j) (asI32 j)

/-- `Unmarshal<std::string>` — database-parsers.cc:105-111. -/
def asStringM (x : LibTexts) (j : Json) : Said Bytes := Said.ofOutcome (msgUnexpectedType x j) (asString j)

/-- `value.GetString()` converted to `std::string`. -/
def rawStringM (j : Json) : Said Bytes := Said.ofOutcome [] (rawString j)

/-- `Unmarshal<flat_hash_map<string, string>>` — database-parsers.cc:136-149. -/
def asStringMapM (x : LibTexts) : Json → Said (List (Bytes × Bytes))
  | .obj ms => ms.foldlM (fun m e => do
      let v ← asStringM x e.2
      pure (insertNew m e.1 v)) []
  | _ => .err msgNotObject

/-- `Unmarshal<vector<string>>` — database-parsers.cc:151-163. -/
def asStringsM (x : LibTexts) : Json → Said (List Bytes)
  | .arr items => items.mapM fun i => match i with
    | .str s => .ok (cstr s)
    | _ => .err (msgUnexpectedType x i)
  | _ => .err msgNotArray

/-- `ParseBaseAddress` — database-parsers.cc:165-177. -/
def baseAddressM (s : Bytes) : Said Nat :=
  match strtol0 s with
  | none => .err (lit "could not parse " ++ s ++ lit " to bits address")
  | some i => .ok (i % 2 ^ 64).toNat

/-- `Unmarshal<BitsBlockAlias>` — database-parsers.cc:179-189. -/
def asAliasM (x : LibTexts) (j : Json) : Said BitsBlockAlias := do
  let sites ← getMemberM x (asStringMapM x) j kSites
  let startOffset ← getMemberM x (asU32M x) j kStartOffset
  let type ← getMemberM x (asStringM x) j kType
  pure { sites, startOffset, type }

/-- `Unmarshal<BitsBlock>` — database-parsers.cc:191-203. -/
def asBitsBlockM (x : LibTexts) (j : Json) : Said BitsBlock := do
  let alias? ← optGetMemberM (asAliasM x) j kAlias
  let text ← getMemberM x (asStringM x) j kBaseaddr
  let address ← baseAddressM text
  let frames ← getMemberM x (asU32M x) j kFrames
  let offset ← getMemberM x (asI32M x) j kOffset
  let words ← getMemberM x (asU32M x) j kWords
  pure { alias?, baseAddress := address, frames, offset, words }

/-- `Unmarshal<Bits>` — database-parsers.cc:205-220. -/
def asBitsM (x : LibTexts) : Json → Said Bits
  | .obj ms => ms.foldlM (fun m e =>
      match busType (cstr e.1) with
      | none => .err (lit "unknown frame block type \"" ++ cstr e.1 ++ lit "\"")
      | some t => do
        let b ← asBitsBlockM x e.2
        pure (insertNew m t b)) []
  | _ => .ub

/-- `Unmarshal<Tile>` — database-parsers.cc:222-242. -/
def asTileM (x : LibTexts) (j : Json) : Said Tile := do
  let type ← getMemberM x (asStringM x) j kType
  let gx ← getMemberM x (asU32M x) j kGridX
  let gy ← getMemberM x (asU32M x) j kGridY
  let clockRegion ← optGetMemberM (asStringM x) j kClockRegion
  let bits ← getMemberM x (asBitsM x) j kBits
  let pinFunctions ← getMemberM x (asStringMapM x) j kPinFunctions
  let sites ← getMemberM x (asStringMapM x) j kSites
  let prohibitedSites ← getMemberM x (asStringsM x) j kProhibitedSites
  pure { type, x := gx, y := gy, clockRegion, bits, pinFunctions, sites, prohibitedSites }

/-- database-parsers.cc:391-396: the message of a tile, with the name of the tile in front. -/
def namedTile (name : Bytes) : Said Tile → Said Tile
  | .err m => .err (lit "could not unmarshal tile " ++ name ++ lit ": " ++ m)
  | r => r

/-- `ParseTileGridJSON` from line 384 on — database-parsers.cc:376-399. -/
def parseTileGridM (x : LibTexts) : Json → Said TileGrid
  | .obj ms => ms.foldlM (fun m e => do
      let t ← namedTile (cstr e.1) (asTileM x e.2)
      pure (insertNew m (cstr e.1) t)) []
  | _ => .err msgNotObject

/-- `Unmarshal<flat_hash_map<uint32_t, string>>` — database-parsers.cc:244-258. -/
def asBanksM (x : LibTexts) : Json → Said (List (Nat × Bytes))
  | .obj ms => ms.foldlM (fun m e =>
      match atoiU32 (cstr e.1) with
      | none => .err (msgCannotParseKey x (cstr e.1) (.obj ms))
      | some k => do
        let s ← rawStringM e.2
        pure (insertNew m k s)) []
  | _ => .ub

/-- Key check of the two sequence loops — database-parsers.cc:274-280, 315-321; `j` is the whole sequence. -/
def nextKeyM (x : LibTexts) (j : Json) (prev : Int) (name : Bytes) : Said Int :=
  Said.ofOutcome (msgCannotParseKey x (cstr name) j) (nextKey prev name)

/-- `Unmarshal<ConfigColumnsFramesCountInternal>` — database-parsers.cc:265-286. -/
def asColumnsM (x : LibTexts) : Json → Said ColumnCounts
  | .obj ms => do
    let s ← ms.foldlM (fun (s : Int × ColumnCounts) e => do
      let key ← nextKeyM x (.obj ms) s.1 e.1
      let n ← getMemberM x (asU32M x) e.2 kFrameCount
      pure (key, s.2 ++ [n])) (-1, [])
    pure s.2
  | _ => .err msgNotObject

/-- `Unmarshal<ClockRegionRow>` — database-parsers.cc:288-305. -/
def asRowM (x : LibTexts) : Json → Said ClockRegionRow
  | .obj ms => ms.foldlM (fun m e =>
      match busType (cstr e.1) with
      | none => .err (lit "unknown config bus type \"" ++ cstr e.1 ++ lit "\"")
      | some t => do
        let c ← getMemberM x (asColumnsM x) e.2 kConfigurationColumns
        pure (insertNew m t c)) []
  | _ => .err msgNotObject

/-- `Unmarshal<GlobalClockRegionHalf>` — database-parsers.cc:307-327. -/
def asHalfM (x : LibTexts) : Json → Said ClockRegionHalf
  | .obj ms => do
    let s ← ms.foldlM (fun (s : Int × ClockRegionHalf) e => do
      let key ← nextKeyM x (.obj ms) s.1 e.1
      let row ← getMemberM x (asRowM x) e.2 kConfigurationBuses
      pure (key, s.2 ++ [row])) (-1, [])
    pure s.2
  | _ => .err msgNotObject

/-- `Unmarshal<GlobalClockRegions>` — database-parsers.cc:329-351. -/
def asRegionsM (x : LibTexts) (j : Json) : Said (ClockRegionHalf × ClockRegionHalf) :=
  match pointer2 kBottom kRows j with
  | none => .err (lit "could not find global_clock_region bottom rows")
  | some b => do
    let bottom ← asHalfM x b
    match pointer2 kTop kRows j with
    | none => .err (lit "could not find global_clock_region top rows")
    | some t => do
      let top ← asHalfM x t
      pure (bottom, top)

/-- `Unmarshal<Part>` / `ParsePartJSON` from line 655 on — database-parsers.cc:353-368, 647-656. -/
def parsePartM (x : LibTexts) : Json → Said Part
  | .obj ms => do
    let idcode ← getMemberM x (asU32M x) (.obj ms) kIdcode
    let iobanks ← optGetMemberM (asBanksM x) (.obj ms) kIobanks
    let regions ← getMemberM x (asRegionsM x) (.obj ms) kGlobalClockRegions
    pure { bottomRows := regions.1, topRows := regions.2, idcode := BitVec.ofNat 32 idcode,
           iobanks := iobanks.getD [] }
  | _ => .err msgNotObject

/-! ## The database -/

/-- `std::filesystem::path::operator/`: an absolute right side replaces the left side; otherwise a separator unless the left side is
empty or ends with one. -/
def appendPath (p q : Bytes) : Bytes :=
  if q.head? = some 0x2f then q else if p = [] ∨ p.getLast? = some 0x2f then p ++ q else p ++ 0x2f :: q

/-- A path as text. -/
def showPath (p : Path) : Bytes := p.foldl appendPath []

/-- `MemoryMapFile` — memory-mapped-file.cc:36-40: the message of `absl::ErrnoToStatus` is followed by the text of the error. -/
def mapFileM (x : LibTexts) (env : Env) (p : Path) : Said (Bytes × Option UInt8) :=
  match env.read p with
  | none => .err (lit "could not open file: " ++ showPath p ++ lit ": " ++ x.strerror p)
  | some c => .ok c

/-- `ParsePartInfo` — database.cc:92-118. -/
def parsePartInfoM (x : LibTexts) (env : Env) (root : Path) (part : Bytes) : Said PartInfo := do
  let parts ← mapFileM x env (root ++ [kMapping, kPartsYaml])
  let devices ← mapFileM x env (root ++ [kMapping, kDevicesYaml])
  let infos ← parsePartsInfosM parts.1 devices.1
  match infos.lookup part with
  | none => .err (lit "invalid or unknown part \"" ++ part ++ lit "\"")
  | some i => .ok i

/-- database-parsers.cc:377-383, 648-654. -/
def msgJson (e : Bytes × Nat) : Bytes := lit "json parsing error, " ++ e.1 ++ lit " (" ++ printU e.2 ++ lit ")"

/-- Parse a JSON file: `MemoryMapFile`, rapidjson, then the unmarshaller. -/
def parseJsonFileM {α : Type} (x : LibTexts) (env : Env) (unmarshal : Json → Said α) (p : Path) : Said α := do
  let c ← mapFileM x env p
  match env.json c.1 with
  | none => .err (msgJson (x.jsonError c.1))
  | some j => unmarshal j

/-- `PartDatabase::Parse` — database.cc:297-357 (with `ParseTileGrid` — 120-131, `IndexTileTypes` — 204-246 — and
`CreateBanksRegistry` — 282-295). -/
def parseDatabaseM (x : LibTexts) (env : Env) (order : LoadOrder) (root : Path) (partName : Bytes) : Said PartDatabase := do
  let info ← parsePartInfoM x env root partName
  let grid ← parseJsonFileM x env (parseTileGridM x) (root ++ [info.fabric, kTilegrid])
  let paths ← Said.ofOutcome (lit "could not initialize directory iterator") (indexTileTypes env root)
  let part ← parseJsonFileM x env (parsePartM x) (root ++ [partName, kPartJson])
  let content ← mapFileM x env (root ++ [partName, kPackagePins])
  let pins ← parsePackagePinsM content.2 content.1
  pure { tiles := { grid := order.grid grid, bits := tilesDatabase env paths,
                    banks := Registry.create order.sets (order.part part) pins, part := order.part part }, cache := [] }

end Verif.Db
