import Verif.Model.Basic
/-! # `scripts/run-clang-tidy-cached.cc`: the content addressed store and its directory

Names are byte strings.  The only directory modelled is the `contents` directory of the cache. -/
namespace Verif.Tidy

/-- `filepath_contenthash_t` — run-clang-tidy-cached.cc:156: a source file and its hash (`hash_t` is 64 bits wide, :155). -/
structure Item where
  path : Bytes
  hash : BitVec 64
deriving DecidableEq, Repr

/-- `fs::path::filename()`: what is behind the last slash. -/
def filename (path : Bytes) : Bytes := (path.reverse.takeWhile (· ≠ 0x2f)).reverse

/-- A digit of `%x`. -/
def hexDigit (n : Nat) : UInt8 := if n < 10 then UInt8.ofNat (0x30 + n) else UInt8.ofNat (0x57 + n)

/-- The lowest `k` hexadecimal digits of a number. -/
def hexDigits : Nat → Nat → Bytes
  | 0, _ => []
  | k + 1, v => hexDigits k (v / 16) ++ [hexDigit (v % 16)]

/-- `ToHex` — run-clang-tidy-cached.cc:196-200: `%016x`, of which the last `show_lower_nibbles` are kept. -/
def toHex (value : BitVec 64) (showLowerNibbles : Nat := 16) : Bytes := (hexDigits 16 value.toNat).drop (16 - showLowerNibbles)

/-- The digit loop of `std::to_string` of a number. -/
def decimalAux : Nat → Nat → Bytes → Bytes
  | 0, _, acc => acc
  | fuel + 1, n, acc =>
    let acc := UInt8.ofNat (0x30 + n % 10) :: acc
    if n / 10 = 0 then acc else decimalAux fuel (n / 10) acc

/-- `std::to_string` of a number that is not negative. -/
def decimal (n : Nat) : Bytes := decimalAux (n + 1) n []

/-- `ContentAddressedStore::PathFor` — run-clang-tidy-cached.cc:211-216 (the name in `content_dir`): file name, dash, hash. -/
def pathFor (c : Item) : Bytes := filename c.path ++ bytes!"-" ++ toHex c.hash

/-- `final_out.string() + uniquifier + ".tmp"` — run-clang-tidy-cached.cc:273, 290. -/
def tmpFor (pid : Nat) (c : Item) : Bytes := pathFor c ++ (bytes!"." ++ decimal pid) ++ bytes!".tmp"

/-- A directory of a POSIX file system: names refer to files (numbered), files have contents.
An open file can be written after its name is gone or refers to another file. -/
structure Dir where
  names : Bytes → Option Nat
  data : Nat → Bytes
  /-- files from here on do not exist yet -/
  next : Nat

namespace Dir

/-- The contents under a name. -/
def read (d : Dir) (p : Bytes) : Option Bytes := (d.names p).map d.data

/-- `open` with `O_CREAT | O_TRUNC`: what `>` of the shell and `std::fstream(…, std::ios::out)` do; gives the open file. -/
def openTrunc (d : Dir) (p : Bytes) : Dir × Nat :=
  match d.names p with
  | some i => ({ d with data := fun j => if j = i then [] else d.data j }, i)
  | none => ({ names := fun q => if q = p then some d.next else d.names q
               data := fun j => if j = d.next then [] else d.data j
               next := d.next + 1 }, d.next)

/-- Contents after writing at a position (a gap is filled with zeros). -/
def writeAt (old : Bytes) (pos : Nat) (b : Bytes) : Bytes :=
  old.take pos ++ List.replicate (pos - old.length) 0 ++ b ++ old.drop (pos + b.length)

/-- `write` to an open file at the position of the writer. -/
def write (d : Dir) (i pos : Nat) (b : Bytes) : Dir :=
  { d with data := fun j => if j = i then writeAt (d.data i) pos b else d.data j }

/-- `unlink` -/
def remove (d : Dir) (p : Bytes) : Dir := { d with names := fun q => if q = p then none else d.names q }

/-- `rename` (atomic); fails if there is no file with the old name. -/
def rename (d : Dir) (old new : Bytes) : Option Dir :=
  match d.names old with
  | none => none
  | some i => some { d with names := fun q => if q = new then some i else if q = old then none else d.names q }

end Dir
end Verif.Tidy
