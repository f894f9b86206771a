import Verif.Model.Text
import Verif.Model.DbTypes
/-! # JSON database parsers: `/repo/fpga/database-parsers.cc:62-399, 647-656`

The model starts from the JSON value rapidjson produced; the step from text to value is `Model/JsonText.lean` (C82 composes both).
Calls rapidjson guards with `RAPIDJSON_ASSERT` (members of a non-object, string of a non-string) are
the outcome `ub`: they abort in debug builds and are undefined with `NDEBUG`. -/
namespace Verif.Db
open Verif.Text

/-- `rapidjson::Value`.  `int` is a number without fraction or exponent that fits 64 bits, `dbl` any other
number (its value is never looked at). -/
inductive Json where
  | null
  | bool (b : Bool)
  | int (i : Int)
  | dbl
  | str (s : Bytes)
  | arr (items : List Json)
  | obj (members : List (Bytes × Json))

/-- `FindMember(name)`: first member with that name (full-length comparison). -/
def findMember (ms : List (Bytes × Json)) (name : Bytes) : Option Json := ms.lookup name

/-- `GetMember` — database-parsers.cc:113-123. -/
def getMember {α : Type} (unmarshal : Json → Outcome α) (j : Json) (name : Bytes) : Outcome α :=
  match j with
  | .obj ms => match findMember ms name with
    | none => .err
    | some v => unmarshal v
  | _ => .err

/-- `OptGetMember` — database-parsers.cc:125-134. -/
def optGetMember {α : Type} (unmarshal : Json → Outcome α) (j : Json) (name : Bytes) : Outcome (Option α) :=
  match j with
  | .obj ms => match findMember ms name with
    | none => .ok none
    | some v => do
      let a ← unmarshal v
      pure (some a)
  | _ => .err

/-- `Unmarshal<uint32_t>` — database-parsers.cc:105-111. -/
def asU32 : Json → Outcome Nat
  | .int i => if 0 ≤ i ∧ i < 2 ^ 32 then .ok i.toNat else .err
  | _ => .err

/-- `Unmarshal<int32_t>` — database-parsers.cc:105-111. -/
def asI32 : Json → Outcome Int
  | .int i => if -(2 ^ 31) ≤ i ∧ i < 2 ^ 31 then .ok i else .err
  | _ => .err

/-- `Unmarshal<std::string>` — database-parsers.cc:105-111. -/
def asString : Json → Outcome Bytes
  | .str s => .ok s
  | _ => .err

/-- `value.GetString()` converted to `std::string`. -/
def rawString : Json → Outcome Bytes
  | .str s => .ok (cstr s)
  | _ => .ub

/-- `Unmarshal<flat_hash_map<string, string>>` — database-parsers.cc:136-149. -/
def asStringMap : Json → Outcome (List (Bytes × Bytes))
  | .obj ms => ms.foldlM (fun m e => do
      let v ← asString e.2
      pure (insertNew m e.1 v)) []
  | _ => .err

/-- `Unmarshal<vector<string>>` — database-parsers.cc:151-163. -/
def asStrings : Json → Outcome (List Bytes)
  | .arr items => items.mapM fun i => match i with
    | .str s => .ok (cstr s)
    | _ => .err
  | _ => .err

/-- `ParseBaseAddress` — database-parsers.cc:165-177: the `long` is stored in a `uint64_t`. -/
def baseAddress (s : Bytes) : Outcome Nat :=
  match strtol0 s with
  | none => .err
  | some i => .ok (i % 2 ^ 64).toNat

/-- `sites` -/
def kSites : Bytes := bytes!"sites"
/-- `start_offset` -/
def kStartOffset : Bytes := bytes!"start_offset"
/-- `type` -/
def kType : Bytes := bytes!"type"
/-- `alias` -/
def kAlias : Bytes := bytes!"alias"
/-- `baseaddr` -/
def kBaseaddr : Bytes := bytes!"baseaddr"
/-- `frames` -/
def kFrames : Bytes := bytes!"frames"
/-- `offset` -/
def kOffset : Bytes := bytes!"offset"
/-- `words` -/
def kWords : Bytes := bytes!"words"
/-- `grid_x` -/
def kGridX : Bytes := bytes!"grid_x"
/-- `grid_y` -/
def kGridY : Bytes := bytes!"grid_y"
/-- `clock_region` -/
def kClockRegion : Bytes := bytes!"clock_region"
/-- `bits` -/
def kBits : Bytes := bytes!"bits"
/-- `pin_functions` -/
def kPinFunctions : Bytes := bytes!"pin_functions"
/-- `prohibited_sites` -/
def kProhibitedSites : Bytes :=
  bytes!"prohibited_sites"
/-- `frame_count` -/
def kFrameCount : Bytes := bytes!"frame_count"
/-- `configuration_columns` -/
def kConfigurationColumns : Bytes :=
  bytes!"configuration_columns"
/-- `configuration_buses` -/
def kConfigurationBuses : Bytes :=
  bytes!"configuration_buses"
/-- `bottom` -/
def kBottom : Bytes := bytes!"bottom"
/-- `top` -/
def kTop : Bytes := bytes!"top"
/-- `rows` -/
def kRows : Bytes := bytes!"rows"
/-- `idcode` -/
def kIdcode : Bytes := bytes!"idcode"
/-- `iobanks` -/
def kIobanks : Bytes := bytes!"iobanks"
/-- `global_clock_regions` -/
def kGlobalClockRegions : Bytes :=
  bytes!"global_clock_regions"
/-- `BLOCK_RAM` -/
def kBlockRam : Bytes := bytes!"BLOCK_RAM"
/-- `CLB_IO_CLK` -/
def kClbIoClk : Bytes := bytes!"CLB_IO_CLK"
/-- `CFG_CLB` -/
def kCfgClb : Bytes := bytes!"CFG_CLB"

/-- `StringToConfigBusType` — database-parsers.cc:87-90. -/
def busType (s : Bytes) : Option ConfigBusType :=
  if s = kBlockRam then some .blockRam
  else if s = kClbIoClk then some .clbIoClk
  else if s = kCfgClb then some .cfgClb
  else none

/-- `Unmarshal<BitsBlockAlias>` — database-parsers.cc:179-189. -/
def asAlias (j : Json) : Outcome BitsBlockAlias := do
  let sites ← getMember asStringMap j kSites
  let startOffset ← getMember asU32 j kStartOffset
  let type ← getMember asString j kType
  pure { sites, startOffset, type }

/-- `Unmarshal<BitsBlock>` — database-parsers.cc:191-203. -/
def asBitsBlock (j : Json) : Outcome BitsBlock := do
  let alias? ← optGetMember asAlias j kAlias
  let text ← getMember asString j kBaseaddr
  let address ← baseAddress text
  let frames ← getMember asU32 j kFrames
  let offset ← getMember asI32 j kOffset
  let words ← getMember asU32 j kWords
  pure { alias?, baseAddress := address, frames, offset, words }

/-- `Unmarshal<Bits>` — database-parsers.cc:205-220. -/
def asBits : Json → Outcome Bits
  | .obj ms => ms.foldlM (fun m e =>
      match busType (cstr e.1) with
      | none => .err
      | some t => do
        let b ← asBitsBlock e.2
        pure (insertNew m t b)) []
  | _ => .ub

/-- `Unmarshal<Tile>` — database-parsers.cc:222-242. -/
def asTile (j : Json) : Outcome Tile := do
  let type ← getMember asString j kType
  let x ← getMember asU32 j kGridX
  let y ← getMember asU32 j kGridY
  let clockRegion ← optGetMember asString j kClockRegion
  let bits ← getMember asBits j kBits
  let pinFunctions ← getMember asStringMap j kPinFunctions
  let sites ← getMember asStringMap j kSites
  let prohibitedSites ← getMember asStrings j kProhibitedSites
  pure { type, x, y, clockRegion, bits, pinFunctions, sites, prohibitedSites }

/-- `ParseTileGridJSON` from line 384 on — database-parsers.cc:376-399. -/
def parseTileGrid : Json → Outcome TileGrid
  | .obj ms => ms.foldlM (fun m e => do
      let t ← asTile e.2
      pure (insertNew m (cstr e.1) t)) []
  | _ => .err

/-- `Unmarshal<flat_hash_map<uint32_t, string>>` — database-parsers.cc:244-258. -/
def asBanks : Json → Outcome (List (Nat × Bytes))
  | .obj ms => ms.foldlM (fun m e =>
      match atoiU32 (cstr e.1) with
      | none => .err
      | some k => do
        let s ← rawString e.2
        pure (insertNew m k s)) []
  | _ => .ub

/-- Key check of the two sequence loops — database-parsers.cc:274-280, 315-321: the next key, which must be
the previous one plus 1.  `key - 1` overflows for the smallest `int32_t`. -/
def nextKey (prev : Int) (name : Bytes) : Outcome Int :=
  match atoiI32 (cstr name) with
  | none => .err
  | some key => if key = -(2 ^ 31) then .ub else if prev = key - 1 then .ok key else .abort

/-- `Unmarshal<ConfigColumnsFramesCountInternal>` — database-parsers.cc:265-286. -/
def asColumns : Json → Outcome ColumnCounts
  | .obj ms => do
    let s ← ms.foldlM (fun (s : Int × ColumnCounts) e => do
      let key ← nextKey s.1 e.1
      let n ← getMember asU32 e.2 kFrameCount
      pure (key, s.2 ++ [n])) (-1, [])
    pure s.2
  | _ => .err

/-- `Unmarshal<ClockRegionRow>` — database-parsers.cc:288-305. -/
def asRow : Json → Outcome ClockRegionRow
  | .obj ms => ms.foldlM (fun m e =>
      match busType (cstr e.1) with
      | none => .err
      | some t => do
        let c ← getMember asColumns e.2 kConfigurationColumns
        pure (insertNew m t c)) []
  | _ => .err

/-- `Unmarshal<GlobalClockRegionHalf>` — database-parsers.cc:307-327. -/
def asHalf : Json → Outcome ClockRegionHalf
  | .obj ms => do
    let s ← ms.foldlM (fun (s : Int × ClockRegionHalf) e => do
      let key ← nextKey s.1 e.1
      let row ← getMember asRow e.2 kConfigurationBuses
      pure (key, s.2 ++ [row])) (-1, [])
    pure s.2
  | _ => .err

/-- `rapidjson::Pointer("/a/b").Get(json)`. -/
def pointer2 (a b : Bytes) (j : Json) : Option Json :=
  match j with
  | .obj ms => match findMember ms a with
    | some (.obj ms') => findMember ms' b
    | _ => none
  | _ => none

/-- `Unmarshal<GlobalClockRegions>` — database-parsers.cc:329-351. -/
def asRegions (j : Json) : Outcome (ClockRegionHalf × ClockRegionHalf) :=
  match pointer2 kBottom kRows j with
  | none => .err
  | some b => do
    let bottom ← asHalf b
    match pointer2 kTop kRows j with
    | none => .err
    | some t => do
      let top ← asHalf t
      pure (bottom, top)

/-- `Unmarshal<Part>` / `ParsePartJSON` from line 655 on — database-parsers.cc:353-368, 647-656. -/
def parsePart : Json → Outcome Part
  | .obj ms => do
    let idcode ← getMember asU32 (.obj ms) kIdcode
    let iobanks ← optGetMember asBanks (.obj ms) kIobanks
    let regions ← getMember asRegions (.obj ms) kGlobalClockRegions
    pure { bottomRows := regions.1, topRows := regions.2, idcode := BitVec.ofNat 32 idcode,
           iobanks := iobanks.getD [] }
  | _ => .err

end Verif.Db
