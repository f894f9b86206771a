import Verif.Model.Frame
import Verif.Model.Packet
/-! # Pretty printers: `/repo/fpga/xilinx/arch-xc7-frame.cc`, `arch-xc7-configuration-packet.cc`

The part of `std::ostream` they use (libstdc++): the base, `showbase`, `uppercase`, the adjustment,
the fill character and the width, which every formatted insertion resets to 0.  Not modelled: error
states of the stream, locales with digit grouping. -/
namespace Verif.Print
open Verif.Xc7

/-- The `basefield` flags set by `std::dec`, `std::oct`, `std::hex` — arch-xc7-frame.cc:23-29. -/
inductive Base where
  | dec | oct | hex
deriving DecidableEq, Repr

/-- The number of digits of a base. -/
def Base.radix : Base → Nat
  | .dec => 10
  | .oct => 8
  | .hex => 16

/-- The `adjustfield` flags.  `right` stands also for the initial state without a flag. -/
inductive Adjust where
  | left | right | internal
deriving DecidableEq, Repr

/-- An output stream: what has been written and the format state. -/
structure Stream where
  out : List Char := []
  base : Base := .dec
  showbase : Bool := false
  uppercase : Bool := false
  adjust : Adjust := .right
  fill : Char := ' '
  width : Nat := 0
deriving DecidableEq, Repr

/-- The digit characters `_S_atoms_out` of libstdc++. -/
def digitChar (uppercase : Bool) (d : Nat) : Char :=
  if d < 10 then Char.ofNat (48 + d)
  else if uppercase then Char.ofNat (65 + (d - 10)) else Char.ofNat (97 + (d - 10))

/-- `__int_to_char`: the digits are written from the last to the first into a buffer, until the
rest is 0.  The first argument bounds the number of turns; `v + 1` never runs out. -/
def intToChar (b : Base) (uppercase : Bool) : Nat → Nat → List Char → List Char
  | 0, _, buffer => buffer
  | n + 1, v, buffer =>
    let buffer := digitChar uppercase (v % b.radix) :: buffer
    if v / b.radix = 0 then buffer else intToChar b uppercase n (v / b.radix) buffer

/-- The prefix added under `showbase`, never for 0. -/
def basePrefix (s : Stream) (v : Nat) : List Char :=
  if s.showbase ∧ v ≠ 0 then
    match s.base with
    | .dec => []
    | .oct => ['0']
    | .hex => if s.uppercase then ['0', 'X'] else ['0', 'x']
  else []

/-- `o << text` for a character string: padded on the right under `left`, otherwise on the left. -/
def Stream.str (s : Stream) (text : List Char) : Stream :=
  let pad := List.replicate (s.width - text.length) s.fill
  { s with out := s.out ++ (if s.adjust = .left then text ++ pad else pad ++ text), width := 0 }

/-- `o << value` for an unsigned integer.  Under `internal` only the prefix of a hexadecimal number
stays in front of the fill. -/
def Stream.uint (s : Stream) (v : Nat) : Stream :=
  let pre := basePrefix s v
  let text := intToChar s.base s.uppercase (v + 1) v []
  let pad := List.replicate (s.width - (pre.length + text.length)) s.fill
  { s with
    out := s.out ++ (match s.adjust with
      | .left => pre ++ text ++ pad
      | .right => pad ++ pre ++ text
      | .internal => if pre.length = 2 then pre ++ pad ++ text else pad ++ pre ++ text),
    width := 0 }

/-- `o << std::setw(n)`. -/
def Stream.setw (s : Stream) (n : Nat) : Stream := { s with width := n }
/-- `o << std::hex`. -/
def Stream.hex (s : Stream) : Stream := { s with base := .hex }
/-- `o << std::dec`. -/
def Stream.dec (s : Stream) : Stream := { s with base := .dec }
/-- `o << std::showbase`. -/
def Stream.showBase (s : Stream) : Stream := { s with showbase := true }

/-- `operator<<(std::ostream &, BlockType)` — arch-xc7-frame.cc:11-20.  A value that is no
enumerator (`block_type()` can yield 4 to 7) falls through the `switch`: nothing is inserted. -/
def blockType (s : Stream) (value : BlockType) : Stream :=
  if value = kCLBIOCLK then s.str "CLB/IO/CLK".toList
  else if value = kBlockRam then s.str "Block RAM".toList
  else if value = kCFGCLB then s.str "Config CLB".toList
  else if value = kReserved then s.str "Reserved".toList
  else if value = kInvalid then s.str "Invalid".toList
  else s

/-- `operator<<(std::ostream &, const FrameAddress &)` — arch-xc7-frame.cc:22-32.  `row()` and
`minor()` are cast to `unsigned int`, `column()` is a `uint16_t`: all print as numbers. -/
def frameAddress (s : Stream) (addr : FrameAddress) : Stream :=
  let s := (((s.str "[".toList).hex.showBase.setw 10).uint addr.toNat).str "] ".toList
  let s := s.str (if addr.isBottom then "BOTTOM".toList else "TOP".toList)
  let s := ((s.str " Row=".toList).setw 2).dec.uint addr.row.toNat
  let s := ((s.str " Column=".toList).setw 2).dec.uint addr.column.toNat
  let s := ((s.str " Minor=".toList).setw 2).dec.uint addr.minor.toNat
  blockType (s.str " Type=".toList) addr.blockType

/-- `operator<<(std::ostream &, const ConfigurationRegister &)` —
arch-xc7-configuration-packet.cc:15-41, over the values of the enum (arch-xc7-configuration-packet.h:50-72). -/
def register (s : Stream) (value : BitVec 32) : Stream :=
  if value = 0x00#32 then s.str "CRC".toList
  else if value = 0x01#32 then s.str "Frame Address".toList
  else if value = 0x02#32 then s.str "Frame Data Input".toList
  else if value = 0x03#32 then s.str "Frame Data Output".toList
  else if value = 0x04#32 then s.str "Command".toList
  else if value = 0x05#32 then s.str "Control 0".toList
  else if value = 0x06#32 then s.str "Mask for CTL0 and CTL1".toList
  else if value = 0x07#32 then s.str "Status".toList
  else if value = 0x08#32 then s.str "Legacy Output".toList
  else if value = 0x09#32 then s.str "Configuration Option 0".toList
  else if value = 0x0a#32 then s.str "Multiple Frame Write".toList
  else if value = 0x0b#32 then s.str "Initial CBC Value".toList
  else if value = 0x0c#32 then s.str "Device ID".toList
  else if value = 0x0d#32 then s.str "User Access".toList
  else if value = 0x0e#32 then s.str "Configuration Option 1".toList
  else if value = 0x10#32 then s.str "Warm Boot Start Address".toList
  else if value = 0x11#32 then s.str "Watchdog Timer".toList
  else if value = 0x16#32 then s.str "Boot History Status".toList
  else if value = 0x18#32 then s.str "Control 1".toList
  else if value = 0x1f#32 then s.str "BPI/SPI Configuration Options".toList
  else s.str "Unknown".toList

end Verif.Print
