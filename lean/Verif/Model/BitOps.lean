import Verif.Model.Basic
/-! # `/repo/fpga/xilinx/bit-ops.h` -/
namespace Verif.BitOps

/-- `bit_mask<UInt>(bit)` — bit-ops.h:14-17. `UInt` is the `w`-bit unsigned type. -/
def bitMask (w bit : Nat) : BitVec w := 1#w <<< bit

/-- `bit_all_ones<UInt>()` — bit-ops.h:24-27. -/
def bitAllOnes (w : Nat) : BitVec w := ~~~ 0#w

/-- `bit_mask_range<UInt>(top, bottom)` — bit-ops.h:29-34, for unsigned `UInt`
(`>>` is a logical shift).  `bit_sizeof` (19-22) is `w`. -/
def bitMaskRange (w top bottom : Nat) : BitVec w :=
  (bitAllOnes w >>> (w - 1 - top)) &&& (bitAllOnes w - bitMask w bottom + 1#w)

/-- `bit_field_get(value, top, bottom)` — bit-ops.h:36-40. -/
def bitFieldGet {w : Nat} (value : BitVec w) (top bottom : Nat) : BitVec w :=
  (value &&& bitMaskRange w top bottom) >>> bottom

/-- `bit_field_set(reg, top, bottom, field)` — bit-ops.h:42-49; `field` is already converted to
`UInt` by the `static_cast` of line 47. -/
def bitFieldSet {w : Nat} (reg : BitVec w) (top bottom : Nat) (field : BitVec w) : BitVec w :=
  (reg &&& ~~~ bitMaskRange w top bottom) ||| ((field <<< bottom) &&& bitMaskRange w top bottom)

/-- `bit_mask_range<int>` — bit-ops.h:29-34 instantiated at the *signed* type `int`: `>>` is an
arithmetic shift of `-1`, so the upper bound of the range is lost. -/
def bitMaskRangeInt (top bottom : Nat) : BitVec 32 :=
  ((bitAllOnes 32).sshiftRight (32 - 1 - top)) &&& (bitAllOnes 32 - bitMask 32 bottom + 1#32)

/-- `bit_field_set<int, ValueType>` — bit-ops.h:42-49 instantiated at `int`
(used by the first call in the `FrameAddress` constructor). -/
def bitFieldSetInt (reg : BitVec 32) (top bottom : Nat) (field : BitVec 32) : BitVec 32 :=
  (reg &&& ~~~ bitMaskRangeInt top bottom) ||| ((field <<< bottom) &&& bitMaskRangeInt top bottom)

end Verif.BitOps
