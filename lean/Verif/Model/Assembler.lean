import Verif.Model.Database
import Verif.Model.Configuration
import Verif.Model.Fasm
/-! # The assembler: `/repo/fpga/assembler.cc` -/
namespace Verif.Asm
open Verif.Db Verif.Text Verif.Xc7

/-! ## IO sites -/

/-- `PUDC_B` -/
def kPudcB : Bytes := bytes!"PUDC_B"
/-- `IOB_Y` -/
def kIobY : Bytes := bytes!"IOB_Y"
/-- `IOB33` -/
def kIob33 : Bytes := bytes!"IOB33"
/-- `STEPDOWN` -/
def kStepdown : Bytes := bytes!"STEPDOWN"
/-- `HCLK_IOI3` -/
def kHclkIoi3 : Bytes := bytes!"HCLK_IOI3"

/-- `std::to_string(site[site.size() - 1])` read back as a number — assembler.cc:50-51, 71-73: the code of
the last character (`char` is signed), undefined for an empty name. -/
def lastCode (site : Bytes) : Outcome Int :=
  match site.getLast? with
  | none => .ub
  | some c => .ok (if c.toNat < 128 then (c.toNat : Int) else (c.toNat : Int) - 256)

/-- `absl::StrFormat("IOB_Y%d", y)` for `y` in `{-1, 0, 1}`. -/
def iobY (y : Int) : Bytes := kIobY ++ (if y = 0 then bytes!"0" else if y = 1 then bytes!"1" else bytes!"-1")

/-- `FindPUDCBTileSite` — assembler.cc:38-62. -/
def findPUDCB : TileGrid → Outcome (Option (Bytes × Bytes))
  | [] => .ok none
  | (tile, info) :: rest =>
    match info.pinFunctions.find? fun e => contains kPudcB e.2 with
    | some e => (lastCode e.1) >>= fun y => .ok (some (tile, iobY (y.tmod 2)))
    | none => findPUDCB rest

/-- The name of one site — assembler.cc:69-75; `SimpleAtoi` into `uint32_t` rejects negative codes. -/
def iobSite (site : Bytes) : Outcome Bytes :=
  (lastCode site) >>= fun y => if y < 0 then .abort else .ok (iobY (y % 2))

/-- `GetIOBSites` — assembler.cc:64-77. -/
def getIOBSites (grid : TileGrid) (tile : Bytes) : Outcome (List Bytes) :=
  match grid.lookup tile with
  | none => .abort
  | some t => t.sites.mapM fun e => iobSite e.1

/-! ## Features to frames -/

/-- `struct FasmFeature` — assembler.cc:79-85. -/
structure FasmFeature where
  line : Int
  name : Bytes
  /-- `int` -/
  start : Int
  /-- `int` -/
  width : Int
  /-- `uint64_t` -/
  bits : Nat
deriving DecidableEq, Repr

/-- `fpga::Frames` — database.h:59-60. -/
abbrev Frames := BMap (FrameWords frameWordsBase)

/-- Iteration orders of the hash containers of this file; theorems assume only that they permute.  `bits i a`
is the order in the query for bit `a` of feature `i`, `buses i` that of `used_config_buses`, `banks` and
`tags bank` those of `stepdown_banks_tags`. -/
structure HashOrder where
  bits : Nat → Nat → Bits → Bits
  buses : Nat → List ConfigBusType → List ConfigBusType
  banks : List (Nat × List Bytes) → List (Nat × List Bytes)
  tags : Nat → List Bytes → List Bytes

/-- `frame[word] |= 1 << index` — assembler.cc:131-133. -/
def orBit (f : FrameWords frameWordsBase) (word index : Nat) : FrameWords frameWordsBase :=
  f.setIfInBounds word ((f[word]?.getD 0#32) ||| (1#32 <<< index))

/-- Changing the entry of a key. -/
def update {β : Type} (m : BMap β) (k : Nat) (g : β → β) : BMap β := m.map fun e => if e.1 = k then (e.1, g e.2) else e

/-- The bit setter — assembler.cc:114-135; a word outside the array is undefined behaviour. -/
def frameSetter : BitSetter (List ConfigBusType × Frames) := fun s bus address word index value =>
  let used := setInsert s.1 bus
  let frames := BMap.emplace s.2 address (zeroFrame frameWordsBase)
  if value then
    if word < frameWordsBase then .ok (used, update frames address fun f => orBit f word index) else .ub
  else .ok (used, frames)

/-- One iteration of the bit loop — assembler.cc:108-137. -/
def bitStep (order : Nat → Bits → Bits) (f : FasmFeature) (tile feature : Bytes)
    (s : PartDatabase × (List ConfigBusType × Frames)) (addr : Nat) :
    Outcome (PartDatabase × (List ConfigBusType × Frames)) :=
  if 2 ^ 31 ≤ (addr : Int) + f.start then .ub
  else if 64 ≤ addr then .ub
  else if f.bits.testBit addr then
    s.1.configBits (order addr) tile feature (((addr : Int) + f.start) % 2 ^ 32).toNat frameSetter s.2
  else .ok s

/-- Mark the frames of one used bus — assembler.cc:144-149. -/
def busFrames (t : Tile) (frames : Frames) (bus : ConfigBusType) : Outcome Frames :=
  match t.bits.lookup bus with
  | none => .abort
  | some info => .ok <| (List.range info.frames).foldl
      (fun m i => m.emplace ((info.baseAddress + i) % 2 ^ 64) (zeroFrame frameWordsBase)) frames

/-- One feature — assembler.cc:95-150. -/
def processFeature (ord : HashOrder) (s : PartDatabase × Frames) (e : FasmFeature × Nat) : Outcome (PartDatabase × Frames) :=
  match splitMax 0x2e 1 e.1.name with
  | [tile, feature] =>
    ((List.range e.1.width.toNat).foldlM (bitStep (ord.bits e.2) e.1 tile feature) (s.1, ([], s.2))) >>= fun r =>
    if r.2.1.isEmpty then .ok (r.1, r.2.2)
    else match s.1.tiles.grid.lookup tile with
      | none => .abort
      | some t => ((ord.buses e.2 r.2.1).foldlM (busFrames t) r.2.2) >>= fun fr => .ok (r.1, fr)
  | _ => .err

/-- `ProcessFasmFeatures` — assembler.cc:92-151. -/
def processFeatures (ord : HashOrder) (features : List FasmFeature) (db : PartDatabase) (frames : Frames) :
    Outcome (PartDatabase × Frames) :=
  features.zipIdx.foldlM (processFeature ord) (db, frames)

/-! ## Added features -/

/-- A feature the assembler adds itself — assembler.cc:166-172, 231-237, 245-251. -/
def added (name : Bytes) : FasmFeature := { line := -1, name, start := 0, width := 1, bits := 1 }

/-- `LVCMOS12_LVCMOS15_LVCMOS18_LVCMOS25_LVCMOS33_LVDS_25_LVTTL_SSTL135_SSTL15_TMDS_33.IN_ONLY` -/
def kInOnly : Bytes :=
  bytes!"LVCMOS12_LVCMOS15_LVCMOS18_LVCMOS25_LVCMOS33_LVDS_25_LVTTL_SSTL135_SSTL15_TMDS_33.IN_ONLY"
/-- `LVCMOS25_LVCMOS33_LVTTL.IN` -/
def kIn : Bytes :=
  bytes!"LVCMOS25_LVCMOS33_LVTTL.IN"
/-- `PULLTYPE.PULLUP` -/
def kPullup : Bytes := bytes!"PULLTYPE.PULLUP"

/-- `AddPUDCBFeatures` — assembler.cc:160-184 (templates 153-158): the features pushed. -/
def pudcbFeatures (grid : TileGrid) : Outcome (List FasmFeature) :=
  (findPUDCB grid) >>= fun r => match r with
  | none => .ok []
  | some (tile, site) => .ok <| [kInOnly, kIn, kPullup].map fun t => added (dotted tile (dotted site t))

/-- The first loop of `AddStepDownFeatures` — assembler.cc:193-221: `used_iob_sites` and
`stepdown_banks_tags`. -/
def stepdownScan (banks : Registry) (s : List Bytes × List (Nat × List Bytes)) (f : FasmFeature) :
    Outcome (List Bytes × List (Nat × List Bytes)) :=
  if f.bits = 0 then .ok s
  else match splitMax 0x2e 3 f.name with
  | tile :: site :: tag :: _ =>
    let used := if contains kIob33 tile then setInsert s.1 (dotted tile site) else s.1
    if contains kStepdown tag then
      match banks.tileBanks tile with
      | [] => .abort
      | bank :: _ => .ok (used, addToSet s.2 bank tag)
    else .ok (used, s.2)
  | _ => .ok s

/-- The features of one tile of a bank — assembler.cc:228-255. -/
def stepdownTile (grid : TileGrid) (used : List Bytes) (tags : List Bytes) (tile : Bytes) : Outcome (List FasmFeature) :=
  (if contains kIob33 tile then
    (getIOBSites grid tile) >>= fun sites => .ok <| sites.flatMap fun site =>
      if used.contains (dotted tile site) then [] else tags.map fun tag => added (dotted (dotted tile site) tag)
   else .ok []) >>= fun fs =>
  .ok (fs ++ if contains kHclkIoi3 tile then [added (dotted tile kStepdown)] else [])

/-- The features of one bank — assembler.cc:223-256. -/
def stepdownBank (ord : HashOrder) (banks : Registry) (grid : TileGrid) (used : List Bytes) (e : Nat × List Bytes) :
    Outcome (List FasmFeature) :=
  match banks.tiles e.1 with
  | none => .abort
  | some tiles => (tiles.mapM (stepdownTile grid used (ord.tags e.1 e.2))) >>= fun l => .ok l.flatten

/-- `AddStepDownFeatures` — assembler.cc:186-258: the features pushed. -/
def stepdownFeatures (ord : HashOrder) (banks : Registry) (grid : TileGrid) (features : List FasmFeature) :
    Outcome (List FasmFeature) :=
  (features.foldlM (stepdownScan banks) ([], [])) >>= fun s =>
  ((ord.banks s.2).mapM (stepdownBank ord banks grid s.1)) >>= fun l =>
  .ok l.flatten

/-! ## Assembly -/

/-- The successive results of `getline` — assembler.cc:274: lines with their newline. -/
def getlines : Bytes → List Bytes
  | [] => []
  | c :: r => if c = 0x0a then [c] :: getlines r else match getlines r with
    | [] => [[c]]
    | l :: ls => (c :: l) :: ls

/-- The feature a callback pushes — assembler.cc:278-282. -/
def toFeature : Fasm.Event → Option FasmFeature
  | .feature line name start width bits => some { line, name, start, width, bits }
  | .annotation .. => none

/-- One line — assembler.cc:275-290; `after` is what follows it in the buffer; reads beyond that and undefined shifts
of the parser are `ub`. -/
def assembleLine (after line : Bytes) : Outcome (List FasmFeature) :=
  match Fasm.parseIn true (fun _ => true) line after with
  | .ok st => if st.result = .userAbort ∨ st.result = .error then .err else .ok (st.trace.filterMap toFeature)
  | .oob => .ub
  | .shift => .ub

/-- What `getline` leaves in the buffer — assembler.cc:274: the line, a NUL, and what earlier calls wrote after that.
Only bytes written so far are listed: `malloc` and `realloc` leave the others indeterminate (assembler.cc:269-270). -/
def getlineBuffer (buf line : Bytes) : Bytes := line ++ 0 :: buf.drop (line.length + 1)

/-- The loop — assembler.cc:274-290. -/
def assembleLines (buf : Bytes) : List Bytes → Outcome (List (List FasmFeature))
  | [] => .ok []
  | line :: rest =>
    (assembleLine ((getlineBuffer buf line).drop line.length) line) >>= fun fs =>
    (assembleLines (getlineBuffer buf line) rest) >>= fun r => .ok (fs :: r)

/-- `AssembleFrames` — assembler.cc:260-294; `text` is what the stream yields. -/
def assembleFrames (ord : HashOrder) (text : Bytes) (db : PartDatabase) (frames : Frames) : Outcome (PartDatabase × Frames) :=
  (pudcbFeatures db.tiles.grid) >>= fun pudcb =>
  (assembleLines [] (getlines text)) >>= fun parsed =>
  (stepdownFeatures ord db.tiles.banks db.tiles.grid (pudcb ++ parsed.flatten)) >>= fun stepdown =>
  processFeatures ord (pudcb ++ parsed.flatten ++ stepdown) db frames

/-! ## The program -/

/-- `GetOptFlagOrFromEnv` — assembler.cc:317-331. -/
def getOptFlagOrFromEnv (flag env : Option Bytes) : Outcome Bytes :=
  match flag with
  | some v => .ok v
  | none => match env with
    | none => .err
    | some v => .ok v

/-- What `main` sees after `absl::ParseCommandLine` (not modelled): positional arguments including the
program name, flags, environment, files, standard input, clock. -/
structure Invocation where
  args : List Bytes
  dbFlag : Option Bytes
  dbEnv : Option Bytes
  part : Bytes
  /-- `fopen(…, "r")` and what reading yields. -/
  openFile : Bytes → Option Bytes
  stdin : Bytes
  date : Bytes
  time : Bytes

/-- The input stream — assembler.cc:414-431: `none` if the file cannot be opened. -/
def inputText (inv : Invocation) : Option Bytes :=
  match inv.args with
  | [_, file] => if file = bytes!"-" then some inv.stdin else inv.openFile file
  | _ => some inv.stdin

/-- `"fasm"` -/
def kFasm : Bytes := bytes!"fasm"
/-- `"fpga-source"` -/
def kSource : Bytes := bytes!"fpga-source"

/-- `main` after the database is loaded — assembler.cc:413-453: exit status and standard output. -/
def mainLoaded (ord : HashOrder) (inv : Invocation) (db : PartDatabase) (out : OStream) (fuel : Nat) :
    Option (Outcome (Nat × OStream)) :=
  match inputText inv with
  | none => some (.ok (1, out))
  | some text => match assembleFrames ord text db [] with
    | .err => some (.ok (1, out))
    | .abort => some .abort
    | .ub => some .ub
    | .ok r => (encode r.1.tiles.part kFasm kSource inv.date inv.time r.2 out fuel).map fun o => match o with
      | .err => .ok (1, out)
      | .abort => .abort
      | .ub => .ub
      | .ok out => .ok (0, out)

/-- `main` — assembler.cc:375-453: exit status and standard output; `none` = some loop of the encoder ran out
of fuel.  Diagnostics on standard error: `Model/Stderr.lean`. -/
def main (env : Env) (load : LoadOrder) (ord : HashOrder) (inv : Invocation) (out : OStream) (fuel : Nat) :
    Option (Outcome (Nat × OStream)) :=
  if inv.args.length > 2 then some (.ok (1, out))
  else match getOptFlagOrFromEnv inv.dbFlag inv.dbEnv with
    | .ok path =>
      if path = [] ∨ env.fileExists [path] = false then some (.ok (1, out))
      else if inv.part = [] then some (.ok (1, out))
      else match parseDatabase env load [path] inv.part with
        | .err => some (.ok (1, out))
        | .abort => some .abort
        | .ub => some .ub
        | .ok db => mainLoaded ord inv db out fuel
    | _ => some (.ok (1, out))

end Verif.Asm
