import Verif.Model.Frame
import Verif.Model.DbTypes
/-! # Device geometry: `/repo/fpga/xilinx/arch-xc7-part.h`, `arch-xc7-part.cc`

Map keys (`unsigned int`) are `Nat`; the conversions to the narrower constructor parameters of
`FrameAddress` are explicit `BitVec.ofNat`. -/
namespace Verif.Xc7
open FrameAddress

/-- `ConfigurationColumn` — arch-xc7-part.h:29-52. -/
structure Column where
  frameCount : Nat
deriving DecidableEq, Repr

/-- `ConfigurationBus` — arch-xc7-part.h:73-102. -/
abbrev Bus := BMap Column
/-- `Row` — arch-xc7-part.h:129-160; keyed by the numeric block type. -/
abbrev Row := BMap Bus
/-- `GlobalClockRegion` — arch-xc7-part.h:191-226. -/
abbrev Region := BMap Row

/-- `Part` — arch-xc7-part.h:250-282. -/
structure Part where
  idcode : Word
  top : Region
  bottom : Region
deriving DecidableEq, Repr

/-! ## `IsValidFrameAddress` -/

/-- arch-xc7-part.cc:71-73. -/
def Column.isValid (c : Column) (a : FrameAddress) : Bool := decide ((minor a).toNat < c.frameCount)

/-- arch-xc7-part.cc:89-96. -/
def busIsValid (b : Bus) (a : FrameAddress) : Bool :=
  match b.find (column a).toNat with
  | [] => false
  | (_, c) :: _ => c.isValid a

/-- arch-xc7-part.cc:131-137. -/
def rowIsValid (r : Row) (a : FrameAddress) : Bool :=
  match r.find (blockType a).toNat with
  | [] => false
  | (_, b) :: _ => busIsValid b a

/-- arch-xc7-part.cc:162-168. -/
def regionIsValid (g : Region) (a : FrameAddress) : Bool :=
  match g.find (row a).toNat with
  | [] => false
  | (_, r) :: _ => rowIsValid r a

/-- arch-xc7-part.cc:202-207. -/
def Part.isValid (p : Part) (a : FrameAddress) : Bool :=
  if isBottom a then regionIsValid p.bottom a else regionIsValid p.top a

/-! ## `GetNextFrameAddress` -/

/-- arch-xc7-part.cc:75-87. -/
def Column.next (c : Column) (a : FrameAddress) : Option FrameAddress :=
  if ¬ c.isValid a then none
  else if (minor a).toNat + 1 < c.frameCount then some (a + 1#32)
  else none

/-- arch-xc7-part.cc:98-129. -/
def busNext (b : Bus) (a : FrameAddress) : Option FrameAddress :=
  match b.find (column a).toNat with
  | [] => none
  | (_, c) :: rest =>
    match c.next a with
    | some n => some n
    | none =>
      match rest with
      | [] => none
      | (k, c') :: _ =>
        let n := make (blockType a) (isBottom a) (row a) (BitVec.ofNat 16 k) 0#8
        if c'.isValid n then some n else none

/-- arch-xc7-part.cc:139-160. -/
def rowNext (r : Row) (a : FrameAddress) : Option FrameAddress :=
  match r.find (blockType a).toNat with
  | [] => none
  | (_, b) :: _ => busNext b a

/-- arch-xc7-part.cc:170-200. -/
def regionNext (g : Region) (a : FrameAddress) : Option FrameAddress :=
  match g.find (row a).toNat with
  | [] => none
  | (_, r) :: rest =>
    match rowNext r a with
    | some n => some n
    | none =>
      match rest with
      | [] => none
      | (k, r') :: _ =>
        let n := make (blockType a) (isBottom a) (BitVec.ofNat 8 k) 0#16 0#8
        if rowIsValid r' n then some n else none

/-- The two block-type steps — arch-xc7-part.cc:228-242. -/
def Part.nextBlock (p : Part) (a : FrameAddress) : Option FrameAddress :=
  let ram := make kBlockRam false 0#8 0#16 0#8
  let cfg := make kCFGCLB false 0#8 0#16 0#8
  if blockType a < kBlockRam ∧ p.isValid ram then some ram
  else if blockType a < kCFGCLB ∧ p.isValid cfg then some cfg
  else none

/-- arch-xc7-part.cc:209-243. -/
def Part.next (p : Part) (a : FrameAddress) : Option FrameAddress :=
  match (if isBottom a then regionNext p.bottom a else regionNext p.top a) with
  | some n => some n
  | none =>
    let bot := make (blockType a) true 0#8 0#16 0#8
    if isBottom a = false ∧ regionIsValid p.bottom bot then some bot
    else p.nextBlock a

/-! ## Construction from a parsed part description -/

/-- `BlockTypeFrom` — arch-xc7-part.cc:17-25.  Note that `kCFGCLB` maps to `kCLBIOCLK`. -/
def blockTypeFrom : Db.ConfigBusType → BlockType
  | .clbIoClk => kCLBIOCLK
  | .blockRam => kBlockRam
  | .cfgClb => kCLBIOCLK

/-- Inner loop of `RowFrom` — arch-xc7-part.cc:35-38; `i` is converted to `unsigned int`. -/
def busFrom (i : Nat) (acc : Bus) : Db.ColumnCounts → Bus
  | [] => acc
  | n :: ns => busFrom (i + 1) (acc.emplace (i % 2 ^ 32) ⟨n⟩) ns

/-- `RowFrom` — arch-xc7-part.cc:27-42 (iterating the hash map in its list order). -/
def rowFrom (acc : Row) : Db.ClockRegionRow → Row
  | [] => acc
  | (t, cols) :: rest =>
    if cols.isEmpty then rowFrom acc rest
    else rowFrom (acc.emplace (blockTypeFrom t).toNat (busFrom 0 [] cols)) rest

/-- `GlobalClockRegionFrom` — arch-xc7-part.cc:44-55 (never fails). -/
def regionFrom (i : Nat) (acc : Region) : Db.ClockRegionHalf → Region
  | [] => acc
  | r :: rs => regionFrom (i + 1) (acc.emplace (i % 2 ^ 32) (rowFrom [] r)) rs

/-- `Part::FromPart` — arch-xc7-part.cc:57-69. -/
def Part.fromPart (p : Db.Part) : Outcome Part :=
  .ok { idcode := p.idcode, top := regionFrom 0 [] p.topRows, bottom := regionFrom 0 [] p.bottomRows }

/-! ## `Frames::AddMissingFrames` -/

/-- The `do … while` loop of `AddMissingFrames` — frames.h:55-61; `zero` is the value-initialised
frame `{}`; `none` = the fuel ran out. -/
def addMissingLoop {β : Type} (p : Part) (zero : β) :
    Nat → FrameAddress → BMap β → Option (BMap β)
  | 0, _, _ => none
  | fuel + 1, cur, data =>
    let data := if (data.find cur.toNat).isEmpty then data.emplace cur.toNat zero else data
    match p.next cur with
    | none => some data
    | some n => addMissingLoop p zero fuel n data

/-- `AddMissingFrames` — frames.h:52-62, started at `FrameAddress(0)` (line 54). -/
def addMissingFrames {β : Type} (p : Part) (zero : β) (fuel : Nat) (data : BMap β) :
    Option (BMap β) :=
  addMissingLoop p zero fuel 0#32 data

end Verif.Xc7
