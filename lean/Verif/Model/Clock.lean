import Verif.Model.Assembler
/-! # The build time stamp: `/repo/fpga/xilinx/bitstream-writer.h:212-217`

`absl::Now()` is the number of nanoseconds since 1970-01-01 00:00:00 UTC as an `int64_t`.
`absl::FormatTime` in UTC is library code, modelled by what it computes. -/
namespace Verif.Clock
open Verif.Xc7

/-- A civil date. -/
structure Civil where
  year : Int
  month : Nat
  day : Nat
deriving DecidableEq, Repr

/-- The date (proleptic Gregorian calendar) of a day counted from 1970-01-01: what
`absl::UTCTimeZone().At(t)` yields — bitstream-writer.h:215.  Years are counted from
March: 400-year cycles, then centuries, four-year groups and years. -/
def civilOfDay (n : Int) : Civil :=
  let z := n + 719468
  let era := z / 146097
  let doe := (z % 146097).toNat
  let c := min (doe / 36524) 3
  let q := (doe - c * 36524) / 1461
  let r := doe - c * 36524 - q * 1461
  let a := min (r / 365) 3
  let yoe := 100 * c + 4 * q + a
  let doy := r - a * 365
  let mp := (5 * doy + 2) / 153
  let day := doy - (153 * mp + 2) / 5 + 1
  let month := if mp < 10 then mp + 3 else mp - 9
  ⟨yoe + era * 400 + (if month ≤ 2 then 1 else 0), month, day⟩

/-- `Format64(width, v)` for `v ≥ 0`: decimal digits, zero-padded on the left.  `width` digits are
produced from the last to the first, then further ones while a rest is left. -/
def digits : Nat → Nat → Bytes
  | 0, v => if v = 0 then [] else (Nat.toDigits 10 v).map fun c => UInt8.ofNat c.toNat
  | width + 1, v => digits width (v / 10) ++ [UInt8.ofNat (48 + v % 10)]

/-- `%E4Y`: at least four characters including a sign. -/
def formatYear (y : Int) : Bytes :=
  if y < 0 then 0x2d :: digits 3 (-y).toNat else digits 4 y.toNat

/-- `FormatTime("%E4Y/%m/%d", t, UTC)` — bitstream-writer.h:214-215. -/
def formatDate (ns : Int) : Bytes :=
  let c := civilOfDay (ns / 1000000000 / 86400)
  formatYear c.year ++ bytes!"/" ++ digits 2 c.month ++ bytes!"/" ++ digits 2 c.day

/-- `FormatTime("%H:%M:%S", t, UTC)` — bitstream-writer.h:216-217. -/
def formatTime (ns : Int) : Bytes :=
  let s := (ns / 1000000000 % 86400).toNat
  digits 2 (s / 3600) ++ bytes!":" ++ digits 2 (s / 60 % 60) ++ bytes!":" ++ digits 2 (s % 60)

/-- The program started when the clock shows `ns` — bitstream-writer.h:213. -/
def atTime (inv : Asm.Invocation) (ns : Int) : Asm.Invocation :=
  { inv with date := formatDate ns, time := formatTime ns }

end Verif.Clock
