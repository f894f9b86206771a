import Verif.Model.Part
import Verif.Model.Writer
/-! # Frame payload, programming sequence and decoding

`/repo/fpga/xilinx/configuration.h`, `configuration.cc`, `bitstream.h`. -/
namespace Verif.Xc7
open FrameAddress Packet Verif.BitOps

/-- `FrameWords<Arch>` — arch-xc7-frame.h:58-60: `std::array<uint32_t, n>`. -/
abbrev FrameWords (n : Nat) := Vector Word n

/-- The value-initialised frame `{}`. -/
def zeroFrame (n : Nat) : FrameWords n := Vector.replicate n 0#32

/-- The row-boundary test — configuration.h:74-78 and 210-214. -/
def crossesRow (a n : FrameAddress) : Bool :=
  blockType n != blockType a || isBottom n != isBottom a || row n != row a

/-- One iteration of the loop of `CreateType2ConfigurationPacketData` — configuration.h:69-81. -/
def framePayload {n : Nat} (p : Part) (addr : FrameAddress) (f : FrameWords n) : List Word :=
  f.toList ++
    (match p.next addr with
     | some nx => if crossesRow addr nx then List.replicate (n * 2) 0#32 else []
     | none => [])

/-- `CreateType2ConfigurationPacketData(frames, part)` — configuration.h:61-84; a present `part`
(both callers pass one). -/
def type2Payload {n : Nat} (p : Part) : BMap (FrameWords n) → List Word
  | [] => List.replicate (n * 2) 0#32
  | (k, f) :: rest => framePayload p (BitVec.ofNat 32 k) f ++ type2Payload p rest

/-- The `ConfigurationOptions0Value` chain — configuration.cc:58-69 with the setters of
arch-xc7-configuration-packet.h:136-189 (the object is value-initialised, so it starts from 0). -/
def cor0Value : Word :=
  let v := bitFieldSet 0#32 25 25 1#32
  let v := bitFieldSet v 14 12 0x3#32
  let v := bitFieldSet v 11 9 0x7#32
  let v := bitFieldSet v 8 6 0x7#32
  let v := bitFieldSet v 5 3 0x4#32
  bitFieldSet v 2 0 0x5#32

/-- `write(reg, w)`: `ConfigurationPacketWithPayload<1>(kWrite, reg, {w})`. -/
def wr (reg : BitVec 32) (w : Word) : Packet := payload1 opWrite reg w

/-- Packets before the frame data — configuration.cc:27-121 (`Command` values from
arch-xc7-configuration-packet.h:26-46). -/
def packagePrefix (idcode : Word) : List Packet :=
  [nop, wr regTIMER 0x0#32, wr regWBSTAR 0x0#32, wr regCMD 0x0#32, nop, wr regCMD 0x7#32, nop, nop,
   wr regUNKNOWN 0x0#32, wr regCOR0 cor0Value, wr regCOR1 0x0#32, wr regIDCODE idcode,
   wr regCMD 0x9#32, nop, wr regMASK 0x401#32, wr regCTL0 0x501#32, wr regMASK 0x0#32,
   wr regCTL1 0x0#32, nop, nop, nop, nop, nop, nop, nop, nop, wr regFAR 0x0#32, wr regCMD 0x1#32,
   nop, ⟨kTYPE1, opWrite, regFDRI, []⟩]

/-- Packets after the frame data — configuration.cc:127-175. -/
def packageSuffix : List Packet :=
  [wr regCMD 0x7#32, nop, nop, wr regCMD 0xA#32, nop, wr regCMD 0x3#32] ++ List.replicate 100 nop ++
  [wr regCMD 0x5#32, nop, wr regFAR 0x3be0000#32, wr regMASK 0x501#32, wr regCTL0 0x501#32,
   wr regCMD 0x7#32, nop, nop, wr regCMD 0xD#32] ++ List.replicate 400 nop

/-- `CreateConfigurationPackage(out, packet_data, part)` — configuration.cc:23-176, starting from an
empty package and a present part. -/
def configurationPackage (data : List Word) (idcode : Word) : List Packet :=
  packagePrefix idcode ++ [⟨kTYPE2, opWrite, regFDRI, data⟩] ++ packageSuffix

/-! ## Decoding -/

/-- `frames[k] = v` on a btree map. -/
def _root_.Verif.BMap.assign {β : Type} (m : BMap β) (k : Nat) (v : β) : BMap β :=
  match m with
  | [] => [(k, v)]
  | (k', v') :: rest =>
    if k' < k then (k', v') :: BMap.assign rest k v
    else if k' = k then (k, v) :: rest
    else (k, v) :: (k', v') :: rest

/-- The FDRI loop of `InitWithPackets` — configuration.h:199-218: `data` is the rest of the packet
from index `ii`.  Returns the frame map and `current_frame_address`.  A step consumes at least
`n > 0` words, so the data length is enough fuel. -/
def fdriLoop (n : Nat) (p : Part) : Nat → List Word → FrameAddress → BMap (List Word) →
    BMap (List Word) × FrameAddress
  | 0, _, cur, frames => (frames, cur)
  | fuel + 1, data, cur, frames =>
    if data.isEmpty then (frames, cur)
    else
      let frames := frames.assign cur.toNat (data.take n)
      match p.next cur with
      | none => (frames, cur)
      | some nx =>
        let skip := if crossesRow cur nx then n + 2 * n else n
        fdriLoop n p fuel (data.drop skip) nx frames

/-- Local variables of `InitWithPackets` — configuration.h:110-120. -/
structure DecState where
  cmd : Word := 0#32
  far : Word := 0#32
  mask : Word := 0#32
  ctl1 : Word := 0#32
  start : Bool := false
  cur : FrameAddress := 0#32
  frames : BMap (List Word) := []
deriving Repr, DecidableEq

/-- One packet — configuration.h:121-223; `none` = the IDCODE mismatch `return {}`. -/
def decodePacket (n : Nat) (p : Part) (s : DecState) (pkt : Packet) : Option DecState :=
  if pkt.opcode ≠ opWrite then some s
  else if pkt.address = regMASK then
    match pkt.data with
    | [] => some s
    | d :: _ => some { s with mask := d }
  else if pkt.address = regCTL1 then
    match pkt.data with
    | [] => some s
    | d :: _ => some { s with ctl1 := d &&& s.mask }
  else if pkt.address = regCMD then
    match pkt.data with
    | [] => some s
    | d :: _ => some { s with cmd := d, start := s.start || d == 0x1#32 }
  else if pkt.address = regIDCODE then
    match pkt.data with
    | [] => some s
    | d :: _ => if d ≠ p.idcode then none else some s
  else if pkt.address = regFAR then
    match pkt.data with
    | [] => some s
    | d :: _ =>
      some { s with far := d,
                    start := s.start || (bitFieldGet s.ctl1 21 21 == 0#32 && s.cmd == 0x1#32) }
  else if pkt.address = regFDRI then
    let cur := if s.start then s.far else s.cur
    let r := fdriLoop n p pkt.data.length pkt.data cur s.frames
    some { s with start := false, frames := r.1, cur := r.2 }
  else some s

/-- The packet loop of `InitWithPackets` — configuration.h:121-224. -/
def decodePackets (n : Nat) (p : Part) : DecState → List Packet → Option DecState
  | s, [] => some s
  | s, pkt :: rest =>
    match decodePacket n p s pkt with
    | none => none
    | some s => decodePackets n p s rest

/-- `Configuration` — configuration.h:101-104. -/
structure Configuration where
  part : Part
  frames : BMap (List Word)
deriving Repr, DecidableEq

/-- `InitWithPackets(part, packets)` — configuration.h:106-225. -/
def initWithPackets (n : Nat) (p : Part) (packets : List Packet) : Option Configuration :=
  (decodePackets n p {} packets).map fun s => ⟨p, s.frames⟩

/-! ## `BitStream::Encode` -/

/-- The narrowing copy of the caller's frames — bitstream.h:38-42: `uint64_t`-like keys become
32-bit addresses; `emplace` keeps the first. -/
def convertFrames {n : Nat} (acc : BMap (FrameWords n)) : BMap (FrameWords n) → BMap (FrameWords n)
  | [] => acc
  | (k, f) :: rest => convertFrames (acc.emplace (k % 2 ^ 32) f) rest

/-- `"fpga-assembler"` — bitstream.h:43. -/
def generatorName : Bytes :=
  bytes!"fpga-assembler"

/-- `BitStream<kXC7>::Encode` — bitstream.h:33-70.  `none` = some loop ran out of fuel. -/
def encode (part : Db.Part) (partName source date time : Bytes)
    (frames : BMap (FrameWords frameWordsBase)) (out : OStream) (fuel : Nat) :
    Option (Outcome OStream) :=
  match Part.fromPart part with
  | .ok p =>
    match addMissingFrames p (zeroFrame frameWordsBase) fuel (convertFrames [] frames) with
    | none => none
    | some m =>
      writeBitstream .xc7 (configurationPackage (type2Payload p m) p.idcode) partName source
        generatorName date time out fuel
  | .err => some .err
  | .abort => some .abort
  | .ub => some .ub

/-- Reading a file back: `InitWithBytes`, then `InitWithPackets` over the reader (as in
bitstream-writer_test.cc / configuration-xc7_test.cc).  Outer `none` = out of fuel, inner `none` =
no sync word or IDCODE mismatch. -/
def decodeFile (part : Part) (bytes : Bytes) (fuel : Nat) : Option (Outcome (Option Configuration)) :=
  match initWithBytes bytes with
  | .ok none => some (.ok none)
  | .ok (some ws) => (readPackets fuel ws).map fun o => o.bind fun ps =>
      .ok (initWithPackets frameWordsBase part ps)
  | .err => some .err
  | .abort => some .abort
  | .ub => some .ub

end Verif.Xc7
