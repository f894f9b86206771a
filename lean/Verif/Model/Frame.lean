import Verif.Model.BitOps
/-! # Frame addresses, ECC and CRC: `/repo/fpga/xilinx/arch-xc7-frame.h`, `arch-xc7-frame.cc` -/
namespace Verif.Xc7
open Verif.BitOps

/-- `frame_words_count_v` — arch-xc7-frame.h:30-46 (kBase 101, kUltraScale 123,
kUltraScalePlus 93). -/
def frameWordsBase : Nat := 101
/-- arch-xc7-frame.h:36-39. -/
def frameWordsUltraScale : Nat := 123
/-- arch-xc7-frame.h:41-44. -/
def frameWordsUltraScalePlus : Nat := 93

/-- `enum class BlockType : unsigned int` — arch-xc7-frame.h:49-55.  The enum is kept as its
underlying 32-bit value because `block_type()` casts arbitrary 3-bit values to it. -/
abbrev BlockType := BitVec 32
/-- arch-xc7-frame.h:50. -/
def kCLBIOCLK : BlockType := 0x0#32
/-- arch-xc7-frame.h:51. -/
def kBlockRam : BlockType := 0x1#32
/-- arch-xc7-frame.h:52. -/
def kCFGCLB : BlockType := 0x2#32
/-- arch-xc7-frame.h:53. -/
def kReserved : BlockType := 0x3#32
/-- arch-xc7-frame.h:54. -/
def kInvalid : BlockType := 0xFFFFFFFF#32

/-- `class FrameAddress` — arch-xc7-frame.h:62-86, its single member `value_`.
`operator<=>` (73) is the unsigned order of the value. -/
abbrev FrameAddress := BitVec 32

namespace FrameAddress

/-- The five-argument constructor — arch-xc7-frame.h:64-71.  The first call deduces `UInt = int`
from the literal `0`. -/
def make (block : BlockType) (bottom : Bool) (row : BitVec 8) (column : BitVec 16)
    (minor : BitVec 8) : FrameAddress :=
  let v := bitFieldSetInt 0#32 25 23 block
  let v := bitFieldSet v 22 22 (BitVec.ofNat 32 bottom.toNat)
  let v := bitFieldSet v 21 17 (row.setWidth 32)
  let v := bitFieldSet v 16 7 (column.setWidth 32)
  bitFieldSet v 6 0 (minor.setWidth 32)

/-- `block_type()` — arch-xc7-frame.h:75-77. -/
def blockType (a : FrameAddress) : BlockType := bitFieldGet a 25 23
/-- `is_bottom_half_rows()` — arch-xc7-frame.h:78. -/
def isBottom (a : FrameAddress) : Bool := bitFieldGet a 22 22 != 0#32
/-- `row()` — arch-xc7-frame.h:79 (returns `uint8_t`). -/
def row (a : FrameAddress) : BitVec 8 := (bitFieldGet a 21 17).setWidth 8
/-- `column()` — arch-xc7-frame.h:80 (returns `uint16_t`). -/
def column (a : FrameAddress) : BitVec 16 := (bitFieldGet a 16 7).setWidth 16
/-- `minor()` — arch-xc7-frame.h:81 (returns `uint8_t`). -/
def minor (a : FrameAddress) : BitVec 8 := (bitFieldGet a 6 0).setWidth 8

end FrameAddress

/-! ## ECC -/

/-- First bit code of a frame word — arch-xc7-frame.cc:34-41. -/
def eccVal (idx : Word) : Word :=
  idx * 32#32 + (if idx > 0x25#32 then 0x1360#32 else if idx > 0x6#32 then 0x1340#32 else 0x1320#32)

/-- The bit loop `for i in 0..32` — arch-xc7-frame.cc:47-53; `n` is the number of iterations left
and `i = 32 - n`. -/
def eccBits (val : Word) : Nat → Word → Word → Word
  | 0, _, ecc => ecc
  | n + 1, word, ecc =>
    let ecc := if word &&& 1#32 ≠ 0#32 then ecc ^^^ (val + BitVec.ofNat 32 (32 - (n + 1))) else ecc
    eccBits val n (word >>> 1) ecc

/-- Final parity step — arch-xc7-frame.cc:54-61. -/
def eccParity (ecc : Word) : Word :=
  let v := ecc &&& 0xFFF#32
  let v := v ^^^ (v >>> 8)
  let v := v ^^^ (v >>> 4)
  let v := v ^^^ (v >>> 2)
  let v := v ^^^ (v >>> 1)
  ecc ^^^ ((v &&& 1#32) <<< 12)

/-- `ICAPECC(idx, word, ecc)` — arch-xc7-frame.cc:33-63. -/
def icapECC (idx word ecc : Word) : Word :=
  let word := if idx = 0x32#32 then word &&& 0xFFFFE000#32 else word
  let ecc := eccBits (eccVal idx) 32 word ecc
  if idx = 0x64#32 then eccParity ecc else ecc

/-- The loop of `CalculateECC` starting at word index `i` — arch-xc7-frame.h:126-131. -/
def calculateECCFrom (i : Nat) (ecc : Word) : List Word → Word
  | [] => ecc
  | w :: ws => calculateECCFrom (i + 1) (icapECC (BitVec.ofNat 32 i) w ecc) ws

/-- `CalculateECC(data)` — arch-xc7-frame.h:125-132; a frame is the list of its words. -/
def calculateECC (data : List Word) : Word := calculateECCFrom 0 0#32 data

/-- `kECCFrameNumber` — arch-xc7-frame.h:98. -/
abbrev kECCFrameNumber : Nat := 0x32

/-- `UpdateECC(words)` — arch-xc7-frame.h:135-142, for a frame of any length: the `CHECK` of line
137 lets length 50 through, where index 50 is out of range. -/
def updateECC (words : List Word) : Outcome (List Word) :=
  if words.length < kECCFrameNumber then .abort
  else match words[kECCFrameNumber]? with
    | none => .ub
    | some w =>
      let words := words.set kECCFrameNumber (w &&& 0xFFFFE000#32)
      .ok (words.set kECCFrameNumber
        ((w &&& 0xFFFFE000#32) ||| (calculateECC words &&& 0x1FFF#32)))

/-! ## CRC -/

/-- `kCrc32CastagnoliPolynomial << 1` — arch-xc7-frame.h:99, 110. -/
def crcPoly : BitVec 64 := 0x82F63B78#64 <<< 1

/-- The bit loop of `ICAPCRC` — arch-xc7-frame.h:114-121, on the pair `(val, crc)`. -/
def crcLoop : Nat → BitVec 64 × BitVec 64 → BitVec 64 × BitVec 64
  | 0, s => s
  | n + 1, (val, crc) =>
    let crc := if val &&& 1#64 ≠ crc &&& 1#64 then crc ^^^ crcPoly else crc
    crcLoop n (val >>> 1, crc >>> 1)

/-- `ICAPCRC(addr, data, prev)` — arch-xc7-frame.h:106-123. -/
def icapCRC (addr data prev : Word) : Word :=
  let val := (addr.setWidth 64 <<< 32) ||| data.setWidth 64
  (crcLoop 37 (val, prev.setWidth 64)).2.setWidth 32

end Verif.Xc7
