import Verif.Model.Basic
/-! # Contracts of the string library functions the database loader calls

absl and libc are not part of `/repo`; these definitions state what `/repo/fpga/database-parsers.cc`
and `/repo/fpga/assembler.cc` get from them.  They are part of the trusted base (DESIGN.md). -/
namespace Verif.Text

/-- `absl::ascii_isspace` and the separators of `absl::ByAsciiWhitespace`
(used at database-parsers.cc:462, 525, 594, 704): tab, newline, vertical tab, form feed, carriage
return, space. -/
def isSpace (c : UInt8) : Bool := c = 0x20 || (0x09 ≤ c && c ≤ 0x0d)

/-- `absl::StripLeadingAsciiWhitespace` (database-parsers.cc:713). -/
def stripLeading (s : Bytes) : Bytes := s.dropWhile isSpace

/-- `absl::StripTrailingAsciiWhitespace`. -/
def stripTrailing (s : Bytes) : Bytes := (s.reverse.dropWhile isSpace).reverse

/-- `absl::StripAsciiWhitespace` (database-parsers.cc:597, 704, 738, 740). -/
def strip (s : Bytes) : Bytes := stripTrailing (stripLeading s)

/-- `absl::StrSplit` by a one-character delimiter class: `n` delimiters give `n + 1` pieces. -/
def splitBy (p : UInt8 → Bool) : Bytes → List Bytes
  | [] => [[]]
  | c :: r =>
    if p c then [] :: splitBy p r
    else match splitBy p r with
      | [] => [[c]]
      | h :: t => (c :: h) :: t

/-- `absl::SkipEmpty`. -/
def skipEmpty (l : List Bytes) : List Bytes := l.filter fun s => !s.isEmpty

/-- `absl::StrSplit(line, absl::ByAsciiWhitespace(), absl::SkipEmpty())`. -/
def fields (s : Bytes) : List Bytes := skipEmpty (splitBy isSpace s)

/-- `absl::StrSplit(s, absl::MaxSplits(c, n))`: at most `n` splits. -/
def splitMax (c : UInt8) : Nat → Bytes → List Bytes
  | 0, s => [s]
  | _ + 1, [] => [[]]
  | n + 1, x :: r =>
    if x = c then [] :: splitMax c n r
    else match splitMax c (n + 1) r with
      | [] => [[x]]
      | h :: t => (x :: h) :: t

/-- `std::string::find(c)`: index of the first occurrence. -/
def find (c : UInt8) (s : Bytes) : Option Nat := s.findIdx? (· = c)

/-- `std::string::rfind(c)`: index of the last occurrence. -/
def rfind (c : UInt8) (s : Bytes) : Option Nat :=
  (s.reverse.findIdx? (· = c)).map fun i => s.length - 1 - i

/-- `absl::EndsWith(s, c)` for a one-character suffix. -/
def endsWith (c : UInt8) (s : Bytes) : Bool := s.getLast? = some c

/-- `absl::StartsWith`. -/
def startsWith (p s : Bytes) : Bool := p.isPrefixOf s

/-- `absl::StrContains` / `std::string::find(sub) != npos`. -/
def contains (sub : Bytes) : Bytes → Bool
  | [] => sub.isEmpty
  | c :: r => sub.isPrefixOf (c :: r) || contains sub r

/-- Digit loop of `absl::SimpleAtoi` (base 10): rejects non-digits and values above `max`. -/
def digitsUpTo (max : Nat) : Nat → Bytes → Option Nat
  | v, [] => some v
  | v, c :: r =>
    if 0x30 ≤ c ∧ c ≤ 0x39 then
      let v' := v * 10 + (c.toNat - 0x30)
      if max < v' then none else digitsUpTo max v' r
    else none

/-- Optional sign in front of the digits, after stripping white space: `(negative, digits)`. -/
def signSplit (s : Bytes) : Bool × Bytes :=
  match s with
  | 0x2d :: r => (true, r)
  | 0x2b :: r => (false, r)
  | r => (false, r)

/-- `absl::SimpleAtoi(s, uint32_t *)`: `none` is the result `false`. -/
def atoiU32 (s : Bytes) : Option Nat :=
  let (neg, d) := signSplit (strip s)
  if d.isEmpty || neg then none else digitsUpTo (2 ^ 32 - 1) 0 d

/-- `absl::SimpleAtoi(s, int32_t *)`. -/
def atoiI32 (s : Bytes) : Option Int :=
  let (neg, d) := signSplit (strip s)
  if d.isEmpty then none
  else if neg then (digitsUpTo (2 ^ 31) 0 d).map fun n : Nat => -(n : Int)
  else (digitsUpTo (2 ^ 31 - 1) 0 d).map fun n : Nat => (n : Int)

/-- Conversion of a `const char *` to `std::string`: stops at the first NUL. -/
def cstr (s : Bytes) : Bytes := s.takeWhile (· ≠ 0)

/-- Value of a hexadecimal digit, `none` for other characters. -/
def hexDigit (c : UInt8) : Option Nat :=
  if 0x30 ≤ c ∧ c ≤ 0x39 then some (c.toNat - 0x30)
  else if 0x61 ≤ c ∧ c ≤ 0x66 then some (c.toNat - 0x61 + 10)
  else if 0x41 ≤ c ∧ c ≤ 0x46 then some (c.toNat - 0x41 + 10)
  else none

/-- Value of the longest prefix of digits of the base; 0 when there is none. -/
def digitPrefix (base : Nat) : Nat → Bytes → Nat
  | v, [] => v
  | v, c :: r =>
    match hexDigit c with
    | some d => if d < base then digitPrefix base (v * base + d) r else v
    | none => v

/-- Magnitude read by `strtol(…, 0)` after the sign: `0x` followed by a hexadecimal digit selects
base 16, another leading `0` base 8, otherwise base 10. -/
def magnitude (s : Bytes) : Nat :=
  match s with
  | 0x30 :: x :: c :: r =>
    if (x = 0x78 ∨ x = 0x58) ∧ (hexDigit c).isSome then digitPrefix 16 0 (c :: r)
    else digitPrefix 8 0 s
  | 0x30 :: _ => digitPrefix 8 0 s
  | _ => digitPrefix 10 0 s

/-- `std::strtol(s.c_str(), &end, 0)` (database-parsers.cc:170): `none` when `errno` becomes
`ERANGE`; trailing garbage is ignored and text without a number gives 0. -/
def strtol0 (s : Bytes) : Option Int :=
  let (neg, d) := signSplit (stripLeading (cstr s))
  let m := magnitude d
  if neg then (if 2 ^ 63 < m then none else some (-(m : Int)))
  else (if 2 ^ 63 ≤ m then none else some (m : Int))

/-- `absl::flat_hash_map::insert({k, v})` and `try_emplace`: an existing entry is kept.  The list is
the map in some iteration order. -/
def insertNew {κ ν : Type} [BEq κ] (m : List (κ × ν)) (k : κ) (v : ν) : List (κ × ν) :=
  if (m.lookup k).isSome then m else m ++ [(k, v)]

/-- `map[k] = v`. -/
def assign {κ ν : Type} [BEq κ] (m : List (κ × ν)) (k : κ) (v : ν) : List (κ × ν) :=
  if (m.lookup k).isSome then m.map fun e => if e.1 == k then (e.1, v) else e else m ++ [(k, v)]

end Verif.Text
