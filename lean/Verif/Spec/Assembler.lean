import Verif.Model.Assembler
import Verif.Spec.Database
/-! # Specification of the assembler

What a design asks for, and what frames it stands for. -/
namespace Verif.Spec
open Verif.Db Verif.Asm Verif.Xc7

/-- `sub` occurs in `s`. -/
def Occurs (sub s : Bytes) : Prop := ∃ a b, s = a ++ sub ++ b

/-! ## Frames -/

/-- The frame is in the map. -/
def FramePresent (fr : Frames) (k : Nat) : Prop := ∃ f, (k, f) ∈ fr

/-- Bit `b` of word `w` of frame `k` is 1. -/
def BitSet (fr : Frames) (k w b : Nat) : Prop := ∃ f x, (k, f) ∈ fr ∧ f[w]? = some x ∧ x.getLsbD b = true

/-- The statement asks for bit `addr` of `feature` in `tile`: its name is `tile.feature` (split at the first
dot) and the bit is written as 1. -/
def Asks (F : FasmFeature) (tile feature : Bytes) (addr : Nat) : Prop :=
  F.name = tile ++ 0x2e :: feature ∧ 0x2e ∉ tile ∧
  ∃ i : Nat, (i : Int) < F.width ∧ F.bits.testBit i = true ∧ addr = (((i : Int) + F.start) % 2 ^ 32).toNat

/-- The database lists bit `c` of the tile for a statement of the design. -/
def Lists (tiles : Tiles) (design : FasmFeature → Prop) (tile : Bytes) (c : BitCall) : Prop :=
  ∃ F feature addr bits, design F ∧ Asks F tile feature addr ∧ FeatureBits tiles tile feature addr bits ∧ c ∈ bits

/-- The frames are those of the design: a bit is 1 exactly when the database lists it (not negated) for a
statement, and a frame is there exactly when a listed bit lies in it, or in the same block of the same tile. -/
def FramesOf (tiles : Tiles) (design : FasmFeature → Prop) (fr : Frames) : Prop :=
  fr.Sorted ∧
  (∀ k w b, BitSet fr k w b ↔ ∃ tile c, Lists tiles design tile c ∧ c.value = true ∧ c.frame = k ∧ c.word = w ∧ c.index = b) ∧
  ∀ k, FramePresent fr k ↔ ∃ tile c, Lists tiles design tile c ∧ (c.frame = k ∨
    ∃ t block i, tiles.grid.lookup tile = some t ∧ (c.bus, block) ∈ t.bits ∧ i < block.frames ∧
      k = (block.baseAddress + i) % 2 ^ 64)

/-- A statement that can be assembled: its bits are in the 64-bit range, its name has a dot, every bit it asks
for is listed, and every bit to be set lies inside a frame. -/
def FeatureOk (tiles : Tiles) (F : FasmFeature) : Prop :=
  (∀ i : Nat, (i : Int) < F.width → i < 64 ∧ (i : Int) + F.start < 2 ^ 31) ∧ 0x2e ∈ F.name ∧
  ∀ tile feature addr, Asks F tile feature addr → ∃ bits, FeatureBits tiles tile feature addr bits ∧
    ∀ c ∈ bits, c.value = true → c.word < 101

/-- The tiles of the grid have aliases that agree. -/
def AliasesOk (tiles : Tiles) : Prop := ∀ name t, tiles.grid.lookup name = some t → AliasesAgree t

/-- Orders of hash containers: permutations. -/
structure Permutes (ord : HashOrder) : Prop where
  bits : ∀ i a l, (ord.bits i a l).Perm l
  buses : ∀ i l, (ord.buses i l).Perm l
  banks : ∀ l, (ord.banks l).Perm l
  tags : ∀ b l, (ord.tags b l).Perm l

/-! ## Design -/

/-- One line of a text, with its newline if it has one. -/
def IsLine (text line : Bytes) : Prop :=
  ∃ pre post, text = pre ++ line ++ post ∧ (pre = [] ∨ ∃ p, pre = p ++ [0x0a]) ∧
    ((∃ body, line = body ++ [0x0a] ∧ 0x0a ∉ body) ∨ (post = [] ∧ line ≠ [] ∧ 0x0a ∉ line))

/-- A statement the parser reports for a line of the text. -/
def Written (text : Bytes) (F : FasmFeature) : Prop :=
  ∃ line st n, IsLine text line ∧ Fasm.parse true (fun _ => true) line = .ok st ∧
    Fasm.Event.feature n F.name F.start F.width F.bits ∈ st.trace ∧ F.line = n

/-- A statement made by the assembler: one bit, set. -/
def Made (F : FasmFeature) : Prop := F.line = -1 ∧ F.start = 0 ∧ F.width = 1 ∧ F.bits = 1

/-- `IOB_Y0` or `IOB_Y1`, by the parity of the code of the last character of the site. -/
def IobName (site name : Bytes) : Prop :=
  ∃ pre c, site = pre ++ [c] ∧ c.toNat < 128 ∧
    name = bytes!"IOB_Y" ++ (if c.toNat % 2 = 0 then bytes!"0" else bytes!"1")

/-- The first pin function of the grid that mentions `PUDC_B`. -/
def FirstPudcB (grid : TileGrid) (tile site : Bytes) : Prop :=
  ∃ g1 info g2 p1 fn p2, grid = g1 ++ (tile, info) :: g2 ∧ info.pinFunctions = p1 ++ (site, fn) :: p2 ∧
    Occurs bytes!"PUDC_B" fn ∧
    (∀ e ∈ p1, ¬ Occurs bytes!"PUDC_B" e.2) ∧
    ∀ e ∈ g1, ∀ p ∈ e.2.pinFunctions, ¬ Occurs bytes!"PUDC_B" p.2

/-- `tile.site.LVCMOS12_LVCMOS15_LVCMOS18_LVCMOS25_LVCMOS33_LVDS_25_LVTTL_SSTL135_SSTL15_TMDS_33.IN_ONLY`, `tile.site.LVCMOS25_LVCMOS33_LVTTL.IN`, `tile.site.PULLTYPE.PULLUP`. -/
def pudcNames (tile site : Bytes) : List Bytes :=
  [tile ++ 0x2e :: (site ++ 0x2e ::
    bytes!"LVCMOS12_LVCMOS15_LVCMOS18_LVCMOS25_LVCMOS33_LVDS_25_LVTTL_SSTL135_SSTL15_TMDS_33.IN_ONLY"),
   tile ++ 0x2e :: (site ++ 0x2e ::
    bytes!"LVCMOS25_LVCMOS33_LVTTL.IN"),
   tile ++ 0x2e :: (site ++ 0x2e ::
    bytes!"PULLTYPE.PULLUP")]

/-- The site name made for the PUDC_B pin: `IOB_Y0` or `IOB_Y1`, or, when the pin name ends in an odd byte of 128 or more, `IOB_Y-1`. -/
def PudcSite (pin name : Bytes) : Prop :=
  ∃ pre c, pin = pre ++ [c] ∧
    name = bytes!"IOB_Y" ++ (if c.toNat % 2 = 0 then bytes!"0" else if c.toNat < 128 then bytes!"1" else bytes!"-1")

/-- The statements for the PUDC_B pin. -/
def PudcFeature (grid : TileGrid) (F : FasmFeature) : Prop :=
  ∃ tile pin site, FirstPudcB grid tile pin ∧ PudcSite pin site ∧ Made F ∧ F.name ∈ pudcNames tile site

/-- The statement has a non-zero value and a name `tile.site.tag` or `tile.site.tag.rest`. -/
def HasTag (F : FasmFeature) (tile site tag : Bytes) : Prop :=
  F.bits ≠ 0 ∧ 0x2e ∉ tile ∧ 0x2e ∉ site ∧ 0x2e ∉ tag ∧
  (F.name = tile ++ 0x2e :: (site ++ 0x2e :: tag) ∨ ∃ rest, F.name = tile ++ 0x2e :: (site ++ 0x2e :: (tag ++ 0x2e :: rest)))

/-- The design uses `tag`, which mentions `STEPDOWN`, in bank `bank`. -/
def StepTag (banks : Registry) (design : FasmFeature → Prop) (bank : Nat) (tag : Bytes) : Prop :=
  ∃ F tile site, design F ∧ HasTag F tile site tag ∧ Occurs bytes!"STEPDOWN" tag ∧
    (banks.tileBanks tile).head? = some bank

/-- The design configures the IOB33 site. -/
def UsedSite (design : FasmFeature → Prop) (tile site : Bytes) : Prop :=
  ∃ F t s tag, design F ∧ HasTag F t s tag ∧ Occurs bytes!"IOB33" t ∧
    t ++ 0x2e :: s = tile ++ 0x2e :: site

/-- The statements added for STEPDOWN: for every bank with such a tag, every unused site of its IOB33 tiles gets
every tag, and its HCLK_IOI3 tiles get `STEPDOWN`. -/
def StepdownFeature (tiles : Tiles) (design : FasmFeature → Prop) (F : FasmFeature) : Prop :=
  Made F ∧
  ((∃ bank tag ts tile t pin site, StepTag tiles.banks design bank tag ∧ tiles.banks.tiles bank = some ts ∧ tile ∈ ts ∧
      Occurs bytes!"IOB33" tile ∧ tiles.grid.lookup tile = some t ∧ pin ∈ t.sites.map (·.1) ∧
      IobName pin site ∧ ¬ UsedSite design tile site ∧ F.name = tile ++ 0x2e :: site ++ 0x2e :: tag) ∨
   (∃ bank tag ts tile, StepTag tiles.banks design bank tag ∧ tiles.banks.tiles bank = some ts ∧ tile ∈ ts ∧
      Occurs bytes!"HCLK_IOI3" tile ∧
      F.name = tile ++ 0x2e :: bytes!"STEPDOWN"))

/-- The statements of the text and of the PUDC_B pin. -/
def Basic (tiles : Tiles) (text : Bytes) (F : FasmFeature) : Prop := PudcFeature tiles.grid F ∨ Written text F

/-- All statements of a design. -/
def Design (tiles : Tiles) (text : Bytes) (F : FasmFeature) : Prop :=
  Basic tiles text F ∨ StepdownFeature tiles (Basic tiles text) F

/-! ## When a design can be assembled -/

/-- Every line is accepted by the parser. -/
def LinesOk (text : Bytes) : Prop :=
  ∀ line, IsLine text line → ∃ st, Fasm.parse true (fun _ => true) line = .ok st ∧ st.result ≠ .userAbort ∧ st.result ≠ .error

/-- The PUDC_B pin, if there is one, has a name. -/
def PudcOk (grid : TileGrid) : Prop := ∀ tile pin, FirstPudcB grid tile pin → pin ≠ []

/-- The STEPDOWN tags of the design belong to known banks, whose IOB33 tiles are in the grid. -/
def StepdownOk (tiles : Tiles) (design : FasmFeature → Prop) : Prop :=
  (∀ F tile site tag, design F → HasTag F tile site tag → Occurs bytes!"STEPDOWN" tag →
    tiles.banks.tileBanks tile ≠ []) ∧
  ∀ bank tag, StepTag tiles.banks design bank tag → ∃ ts, tiles.banks.tiles bank = some ts ∧
    ∀ tile ∈ ts, Occurs bytes!"IOB33" tile → ∃ t, tiles.grid.lookup tile = some t ∧
      ∀ pin ∈ t.sites.map (·.1), ∃ site, IobName pin site

/-- Everything needed to assemble a text. -/
def Assembles (tiles : Tiles) (text : Bytes) : Prop :=
  LinesOk text ∧ StepdownOk tiles (Basic tiles text) ∧ (∀ F, Design tiles text F → FeatureOk tiles F) ∧ PudcOk tiles.grid

/-! ## The program -/

/-- The design touches frame `k`: a listed bit lies in it, or in the same block of the same tile. -/
def TouchesFrame (tiles : Tiles) (design : FasmFeature → Prop) (k : Nat) : Prop :=
  ∃ tile c, Lists tiles design tile c ∧ (c.frame = k ∨
    ∃ t block i, tiles.grid.lookup tile = some t ∧ (c.bus, block) ∈ t.bits ∧ i < block.frames ∧
      k = (block.baseAddress + i) % 2 ^ 64)

/-- A pin of the grid that mentions `PUDC_B`. -/
def PudcPin (grid : TileGrid) (tile pin : Bytes) : Prop :=
  ∃ info fn, (tile, info) ∈ grid ∧ (pin, fn) ∈ info.pinFunctions ∧ Occurs bytes!"PUDC_B" fn

/-- No row has both a CLB_IO_CLK and a CFG_CLB bus with columns. -/
def NoBusClash (p : Db.Part) : Prop :=
  ∀ row, row ∈ p.topRows ∨ row ∈ p.bottomRows → ∀ c c', (ConfigBusType.clbIoClk, c) ∈ row → (ConfigBusType.cfgClb, c') ∈ row → c = [] ∨ c' = []

/-- Nothing in the database is decided by the iteration order of a hash map: the aliased blocks of a tile agree, one
pin at most mentions `PUDC_B`, no two banks share a location, and no row has
two buses that go to the same block type. -/
structure Settled (tiles : Tiles) : Prop where
  aliases : AliasesOk tiles
  onePudc : ∀ t p t' p', PudcPin tiles.grid t p → PudcPin tiles.grid t' p' → t = t' ∧ p = p'
  banks : (tiles.part.iobanks.map (·.2)).Nodup
  buses : NoBusClash tiles.part

/-- The setting: the option if given, otherwise the environment variable. -/
def Setting (flag env : Option Bytes) (v : Bytes) : Prop := flag = some v ∨ (flag = none ∧ env = some v)

/-- The design is read from the file argument, or from standard input if there is none or it is `-`. -/
def Input (inv : Invocation) (text : Bytes) : Prop :=
  (∃ prog file, inv.args = [prog, file] ∧ file ≠ bytes!"-" ∧ inv.openFile file = some text) ∨
  ((∀ prog file, inv.args = [prog, file] → file = bytes!"-") ∧ text = inv.stdin)

/-- The program gets as far as assembling: at most one argument, a database path that exists, a part name, a
database that loads, a design that can be read. -/
def Starts (env : Env) (load : LoadOrder) (inv : Invocation) (db : PartDatabase) (text : Bytes) : Prop :=
  inv.args.length ≤ 2 ∧ inv.part ≠ [] ∧ Input inv text ∧
  ∃ path, Setting inv.dbFlag inv.dbEnv path ∧ path ≠ [] ∧ env.fileExists [path] = true ∧
    parseDatabase env load [path] inv.part = .ok db

end Verif.Spec
