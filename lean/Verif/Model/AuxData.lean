import Verif.Model.Reader
import Verif.Model.Print
/-! # Auxiliary data of a bitstream: `PrintHeader` and `PrintFpgaConfigurationLogicData` of
`/repo/fpga/xilinx/bitstream-reader.h`

The `FILE *` is the text written to it; errors of `fprintf` are ignored by the code and not
modelled. -/
namespace Verif.Xc7
open Verif.Print

/-- `std::search(l, pattern)` as a position; the length of `l` stands for its end —
bitstream-reader.h:104-105, 127-128. -/
def searchPos {α : Type} [BEq α] (pattern : List α) : List α → Nat
  | [] => 0
  | x :: xs => if pattern.isPrefixOf (x :: xs) then 0 else searchPos pattern xs + 1

/-- `std::find_end(l, pattern)` as a position — bitstream-reader.h:113-114.  libstdc++ searches the
reversed pattern in the reversed range and converts the result back (`bits/stl_algo.h`,
`__find_end` for bidirectional iterators); the length of `l` stands for its end. -/
def findEndPos {α : Type} [BEq α] (pattern l : List α) : Nat :=
  let r := searchPos pattern.reverse l.reverse
  if r = l.length then l.length else l.length - r - pattern.length

/-- `fprintf(aux_fp, " %02X", …)`, `fprintf(aux_fp, " %08X", …)` — bitstream-reader.h:108, 117, 138:
at least `width` upper-case hexadecimal digits, filled with zeros. -/
def printfX (width v : Nat) : List Char :=
  let text := intToChar .hex true (v + 1) v []
  ' ' :: (List.replicate (width - text.length) '0' ++ text)

/-- `kWcfgCmd` — bitstream-reader.h:181-185. -/
def wcfgCmd : List Word := [0x30008001#32, 0x1#32]

/-- `kNullCmd` — bitstream-reader.h:187-191. -/
def nullCmd : List Word := [0x30008001#32, 0x0#32]

/-- `PrintHeader(bitstream, aux_fp)` — bitstream-reader.h:122-141, for containers of `uint8_t`: the
text written.  `subspan(0, sync_pos - begin)` after `sync_pos += 4`. -/
def printHeader (bitstream : Bytes) : List Char :=
  let syncPos := searchPos syncWord bitstream
  if syncPos = bitstream.length then []
  else
    let syncPos := syncPos + syncWord.length
    "Header bytes:".toList ++ ((bitstream.take syncPos).flatMap fun b => printfX 2 b.toNat) ++ ['\n']

/-- `PrintFpgaConfigurationLogicData(aux_fp)` — bitstream-reader.h:99-120: the text written. -/
def printLogicData (words : List Word) : List Char :=
  let confEnd := searchPos wcfgCmd words
  let lastNull := findEndPos nullCmd words
  "FPGA configuration logic prefix:".toList ++
    ((words.take confEnd).flatMap fun w => printfX 8 w.toNat) ++ ['\n'] ++
  ("FPGA configuration logic suffix:".toList ++
    ((words.drop lastNull).flatMap fun w => printfX 8 w.toNat) ++ ['\n'])

end Verif.Xc7
