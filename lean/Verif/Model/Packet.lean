import Verif.Model.Frame
/-! # Configuration packets

`/repo/fpga/xilinx/configuration-packet.h`, `arch-xc7-configuration-packet.h`,
`arch-xc7-configuration-packet.cc`, and `PacketHeader` of `bitstream-writer.cc`. -/
namespace Verif.Xc7
open Verif.BitOps

/-- `ConfigurationPacketBase` — configuration-packet.h:26-61.  `header_type_` is an `unsigned`,
`Opcode` and `ConfigurationRegister` are kept as their 32-bit values (the decoder casts arbitrary
field values to them); `data_` is a span, here the list of words it shows. -/
structure Packet where
  headerType : BitVec 32
  opcode : BitVec 32
  address : BitVec 32
  data : List Word
deriving DecidableEq, Repr

namespace Packet

/-- configuration-packet.h:24. -/
abbrev kNONE : BitVec 32 := 0#32
/-- configuration-packet.h:24. -/
abbrev kTYPE1 : BitVec 32 := 1#32
/-- configuration-packet.h:24. -/
abbrev kTYPE2 : BitVec 32 := 2#32

/-- configuration-packet.h:33. -/
abbrev opNOP : BitVec 32 := 0#32
/-- configuration-packet.h:34. -/
abbrev opRead : BitVec 32 := 1#32
/-- configuration-packet.h:35. -/
abbrev opWrite : BitVec 32 := 2#32

/-! Registers — arch-xc7-configuration-packet.h:50-72. -/
/-- :51 -/ abbrev regCRC : BitVec 32 := 0x00#32
/-- :52 -/ abbrev regFAR : BitVec 32 := 0x01#32
/-- :53 -/ abbrev regFDRI : BitVec 32 := 0x02#32
/-- :55 -/ abbrev regCMD : BitVec 32 := 0x04#32
/-- :56 -/ abbrev regCTL0 : BitVec 32 := 0x05#32
/-- :57 -/ abbrev regMASK : BitVec 32 := 0x06#32
/-- :60 -/ abbrev regCOR0 : BitVec 32 := 0x09#32
/-- :63 -/ abbrev regIDCODE : BitVec 32 := 0x0c#32
/-- :65 -/ abbrev regCOR1 : BitVec 32 := 0x0e#32
/-- :66 -/ abbrev regWBSTAR : BitVec 32 := 0x10#32
/-- :67 -/ abbrev regTIMER : BitVec 32 := 0x11#32
/-- :68 -/ abbrev regUNKNOWN : BitVec 32 := 0x13#32
/-- :70 -/ abbrev regCTL1 : BitVec 32 := 0x18#32

/-- `NopPacket` — configuration-packet.h:131-139. -/
def nop : Packet := ⟨kTYPE1, opNOP, regCRC, []⟩

/-- `ConfigurationPacketWithPayload<1, …>(op, reg, {w})` — configuration-packet.h:112-128. -/
def payload1 (op reg : BitVec 32) (w : Word) : Packet := ⟨kTYPE1, op, reg, [w]⟩

/-- `PacketHeader(packet)` — bitstream-writer.cc:33-58.  `data().length()` is a `size_t` cast to
`uint32_t` inside `bit_field_set`. -/
def header (p : Packet) : Word :=
  let ret := bitFieldSet 0#32 31 29 p.headerType
  if p.headerType = kTYPE1 then
    let ret := bitFieldSet ret 28 27 p.opcode
    let ret := bitFieldSet ret 26 13 p.address
    bitFieldSet ret 10 0 (BitVec.ofNat 32 p.data.length)
  else if p.headerType = kTYPE2 then
    let ret := bitFieldSet ret 28 27 p.opcode
    bitFieldSet ret 26 0 (BitVec.ofNat 32 p.data.length)
  else ret

/-- `ConfigurationPacket::InitWithWordsImpl(words, previous_packet)` —
arch-xc7-configuration-packet.cc:42-101: remaining words and the packet, if any. -/
def initWithWords (words : List Word) (prev : Option Packet) : List Word × Option Packet :=
  match words with
  | [] => ([], none)                                                -- 46-48
  | w :: ws =>
    let type := bitFieldGet w 31 29
    if type = kNONE then (ws, some ⟨type, opNOP, regCRC, []⟩)       -- 52-63
    else if type = kTYPE1 then                                      -- 64-80
      let op := bitFieldGet w 28 27
      let address := bitFieldGet w 26 13
      let count := (bitFieldGet w 10 0).toNat
      if count > ws.length then (w :: ws, none)
      else (ws.drop count, some ⟨type, op, address, ws.take count⟩)
    else if type = kTYPE2 then                                      -- 81-100
      let op := bitFieldGet w 28 27
      let count := (bitFieldGet w 26 0).toNat
      if count > ws.length then (w :: ws, none)
      else (ws.drop count, prev.map fun p => ⟨type, op, p.address, ws.take count⟩)
    else ([], none)                                                 -- 101

end Packet
end Verif.Xc7
