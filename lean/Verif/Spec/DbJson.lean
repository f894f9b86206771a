import Verif.Model.DbJson
import Verif.Spec.DbText
/-! # Specification of the JSON files of the database

`Json` (the AST) and the record types are shared with the model. -/
namespace Verif.Spec
open Verif.Db

/-- `j` is an object whose first member called `name` is `v`. -/
def Member (j : Json) (name : Bytes) (v : Json) : Prop := ∃ ms, j = .obj ms ∧ ms.lookup name = some v

/-- `j` is an object without member `name`. -/
def NoMember (j : Json) (name : Bytes) : Prop := ∃ ms, j = .obj ms ∧ ms.lookup name = none

/-- The entries whose key did not occur before. -/
def firsts {κ ν : Type} [BEq κ] : List (κ × ν) → List (κ × ν)
  | [] => []
  | e :: es => e :: (firsts es).filter fun x => !(x.1 == e.1)

/-- A C string stops at NUL. -/
def untilNul (s : Bytes) : Bytes := s.takeWhile (· ≠ 0)

/-- Bus names used in the files. -/
def busName : ConfigBusType → Bytes
  | .clbIoClk => bytes!"CLB_IO_CLK" -- CLB_IO_CLK
  | .blockRam => bytes!"BLOCK_RAM" -- BLOCK_RAM
  | .cfgClb => bytes!"CFG_CLB" -- CFG_CLB

/-- A map from strings to strings. -/
def StringMapJson (j : Json) (m : List (Bytes × Bytes)) : Prop :=
  ∃ es : List (Bytes × Bytes), j = .obj (es.map fun e => (e.1, .str e.2)) ∧ m = firsts es

/-- A list of strings. -/
def StringsJson (j : Json) (l : List Bytes) : Prop :=
  ∃ ss : List Bytes, j = .arr (ss.map .str) ∧ l = ss.map untilNul

/-- An unsigned 32-bit number. -/
def U32Json (j : Json) (n : Nat) : Prop := j = .int n ∧ n < 2 ^ 32

/-- A signed 32-bit number. -/
def I32Json (j : Json) (i : Int) : Prop := j = .int i ∧ -(2 ^ 31) ≤ i ∧ i < 2 ^ 31

/-- Objects with keys 0, 1, 2, … in this order. -/
def SequenceJson {α : Type} (item : Json → α → Prop) (j : Json) (l : List α) : Prop :=
  ∃ es : List ((Bytes × Json) × α), j = .obj (es.map (·.1)) ∧ l = es.map (·.2) ∧
    ∀ (i : Nat) e, es[i]? = some e → IntText (untilNul e.1.1) i ∧ item e.1.2 e.2

/-- Objects keyed by bus name; the first entry of a bus counts. -/
def BusMapJson {α : Type} (item : Json → α → Prop) (j : Json) (m : List (ConfigBusType × α)) : Prop :=
  ∃ es : List ((Bytes × Json) × (ConfigBusType × α)), j = .obj (es.map (·.1)) ∧ m = firsts (es.map (·.2)) ∧
    ∀ e ∈ es, untilNul e.1.1 = busName e.2.1 ∧ item e.1.2 e.2.2

/-! ## Parts -/

/-- `{"frame_count": n}` -/
def ColumnJson (j : Json) (n : Nat) : Prop :=
  ∃ v, Member j bytes!"frame_count" v ∧ U32Json v n

/-- `{"configuration_columns": {"0": …, "1": …}}` -/
def BusJson (j : Json) (counts : List Nat) : Prop :=
  ∃ v, Member j bytes!"configuration_columns" v ∧ SequenceJson ColumnJson v counts

/-- `{"configuration_buses": {"CLB_IO_CLK": …}}` -/
def RowJson (j : Json) (row : ClockRegionRow) : Prop :=
  ∃ v, Member j bytes!"configuration_buses" v ∧ BusMapJson BusJson v row

/-- `{"rows": {"0": …, "1": …}}` -/
def HalfJson (j : Json) (half : ClockRegionHalf) : Prop :=
  ∃ v, Member j bytes!"rows" v ∧ SequenceJson RowJson v half

/-- `{"bottom": …, "top": …}` -/
def RegionsJson (j : Json) (bottom top : ClockRegionHalf) : Prop :=
  (∃ v, Member j bytes!"bottom" v ∧ HalfJson v bottom) ∧
  (∃ v, Member j bytes!"top" v ∧ HalfJson v top)

/-- `{"14": "location", …}`; keys are numbers, the first entry of a bank counts. -/
def BanksJson (j : Json) (m : List (Nat × Bytes)) : Prop :=
  ∃ es : List ((Bytes × Bytes) × Nat), j = .obj (es.map fun e => (e.1.1, .str e.1.2)) ∧
    (∀ e ∈ es, UIntText (untilNul e.1.1) e.2) ∧ m = firsts (es.map fun e => (e.2, untilNul e.1.2))

/-- A `part.json` value describes the part. -/
def PartJson (j : Json) (p : Db.Part) : Prop :=
  -- idcode
  (∃ v, Member j bytes!"idcode" v ∧ U32Json v p.idcode.toNat) ∧
  -- iobanks
  ((NoMember j bytes!"iobanks" ∧ p.iobanks = []) ∨
    ∃ v, Member j bytes!"iobanks" v ∧ BanksJson v p.iobanks) ∧
  -- global_clock_regions
  (∃ v, Member j bytes!"global_clock_regions" v ∧ RegionsJson v p.bottomRows p.topRows)

/-! ## Tile grids

`A text address` says how base addresses are written. -/

/-- `0x` followed by hexadecimal digits. -/
def HexNumber (s : Bytes) (n : Nat) : Prop :=
  ∃ (d : Bytes) (ds : List Nat), s = 0x30 :: 0x78 :: d ∧ d ≠ [] ∧ d.map digitValue = ds.map some ∧
    ds.foldl (fun v x => v * 16 + x) 0 = n

/-- `0x` followed by hexadecimal digits, below 2^63. -/
def HexText (s : Bytes) (n : Nat) : Prop := HexNumber s n ∧ n < 2 ^ 63

/-- `{"sites": …, "start_offset": …, "type": …}` -/
def AliasJson (j : Json) (a : BitsBlockAlias) : Prop :=
  (∃ v, Member j bytes!"sites" v ∧ StringMapJson v a.sites) ∧
  (∃ v, Member j bytes!"start_offset" v ∧ U32Json v a.startOffset) ∧
  Member j bytes!"type" (.str a.type)

/-- `{"alias": …, "baseaddr": …, "frames": …, "offset": …, "words": …}` -/
def BlockJson (A : Bytes → Nat → Prop) (j : Json) (b : BitsBlock) : Prop :=
  ((NoMember j bytes!"alias" ∧ b.alias? = none) ∨
    ∃ v a, Member j bytes!"alias" v ∧ b.alias? = some a ∧ AliasJson v a) ∧
  (∃ s, Member j bytes!"baseaddr" (.str s) ∧ A s b.baseAddress) ∧
  (∃ v, Member j bytes!"frames" v ∧ U32Json v b.frames) ∧
  (∃ v, Member j bytes!"offset" v ∧ I32Json v b.offset) ∧
  (∃ v, Member j bytes!"words" v ∧ U32Json v b.words)

/-- A tile. -/
def TileJson (A : Bytes → Nat → Prop) (j : Json) (t : Db.Tile) : Prop :=
  -- type, grid_x, grid_y
  Member j bytes!"type" (.str t.type) ∧
  (∃ v, Member j bytes!"grid_x" v ∧ U32Json v t.x) ∧
  (∃ v, Member j bytes!"grid_y" v ∧ U32Json v t.y) ∧
  -- clock_region
  ((NoMember j bytes!"clock_region" ∧ t.clockRegion = none) ∨
    ∃ s, Member j bytes!"clock_region" (.str s) ∧
      t.clockRegion = some s) ∧
  -- bits
  (∃ v, Member j bytes!"bits" v ∧ BusMapJson (BlockJson A) v t.bits) ∧
  -- pin_functions
  (∃ v, Member j bytes!"pin_functions" v ∧
    StringMapJson v t.pinFunctions) ∧
  -- sites
  (∃ v, Member j bytes!"sites" v ∧ StringMapJson v t.sites) ∧
  -- prohibited_sites
  (∃ v, Member j bytes!"prohibited_sites" v ∧
    StringsJson v t.prohibitedSites)

/-- A tile grid; the first tile of a name counts. -/
def GridJson (A : Bytes → Nat → Prop) (j : Json) (g : TileGrid) : Prop :=
  ∃ es : List ((Bytes × Json) × Db.Tile), j = .obj (es.map (·.1)) ∧ (∀ e ∈ es, TileJson A e.1.2 e.2) ∧
    g = firsts (es.map fun e => (untilNul e.1.1, e.2))

end Verif.Spec
