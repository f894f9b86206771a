import Verif.Spec.Address
/-! # Specification: printed frame addresses and register names

Independent of the model: what the text of an address is, and how a person reads it back. -/
namespace Verif.Spec

/-- `text` right-aligned in at least `n` columns. -/
def padTo (n : Nat) (text : List Char) : List Char := List.replicate (n - text.length) ' ' ++ text

/-- A number in C hexadecimal notation as `printf("%#x")` writes it: 0 has no prefix. -/
def cHex (v : Nat) : List Char := if v = 0 then ['0'] else ['0', 'x'] ++ Nat.toDigits 16 v

/-- The name of a block type. -/
def blockName : Nat → String
  | 0 => "CLB/IO/CLK"
  | 1 => "Block RAM"
  | 2 => "Config CLB"
  | 3 => "Reserved"
  | _ => ""

/-- What is printed for the address word `v` of the coordinate `c`, after the opening bracket. -/
def addressText (v : Nat) (c : Coord) : List Char :=
  padTo 10 (cHex v) ++ "] ".toList ++ (if c.bottom then "BOTTOM" else "TOP").toList ++
  " Row=".toList ++ padTo 2 (Nat.toDigits 10 c.row) ++
  " Column=".toList ++ padTo 2 (Nat.toDigits 10 c.column) ++
  " Minor=".toList ++ padTo 2 (Nat.toDigits 10 c.minor) ++
  " Type=".toList ++ (blockName c.block).toList

/-- The value of a digit. -/
def charDigit (c : Char) : Nat := if c.toNat < 58 then c.toNat - 48 else c.toNat - 87

/-- The number a reader sees in a printed address: skip blanks, skip `0x`, read hexadecimal digits
up to the closing bracket. -/
def readAddress (text : List Char) : Nat :=
  let num := (text.dropWhile (· == ' ')).takeWhile (· != ']')
  let digits := match num with
    | '0' :: 'x' :: rest => rest
    | other => other
  digits.foldl (fun n c => n * 16 + charDigit c) 0

/-- The configuration registers of UG470 table 5-23 the code knows, by address, and what they are
called. -/
def registerNames : List (Nat × String) :=
  [(0x00, "CRC"), (0x01, "Frame Address"), (0x02, "Frame Data Input"), (0x03, "Frame Data Output"),
   (0x04, "Command"), (0x05, "Control 0"), (0x06, "Mask for CTL0 and CTL1"), (0x07, "Status"),
   (0x08, "Legacy Output"), (0x09, "Configuration Option 0"), (0x0a, "Multiple Frame Write"),
   (0x0b, "Initial CBC Value"), (0x0c, "Device ID"), (0x0d, "User Access"),
   (0x0e, "Configuration Option 1"), (0x10, "Warm Boot Start Address"), (0x11, "Watchdog Timer"),
   (0x16, "Boot History Status"), (0x18, "Control 1"), (0x1f, "BPI/SPI Configuration Options")]

end Verif.Spec
