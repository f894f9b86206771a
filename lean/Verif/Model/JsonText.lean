import Verif.Model.DbJson
/-! # JSON text: what `rapidjson::Document::Parse(data, size)` does

`/repo/fpga/database-parsers.cc:377-384, 648-655` call it with default flags.  rapidjson is not part of `/repo`
(`MODULE.bazel:10`: version 1.1.0.bcr.20250205); this is a model of its contract, function by function of
`rapidjson/reader.h` (`GenericReader`), `encodedstream.h` and `memorystream.h`.  Left out: stack use (the parser
recurses with the nesting), allocation.  The value of a number that is not a 64-bit integer is never looked at by
`/repo`; whether such a number is beyond the largest `double` (a parse error) is the parameter `big`. -/
namespace Verif.Db.JsonText
open Verif.Db

/-- `if (is.Peek() == b) is.Take()` -/
def dropByte (b : UInt8) : Bytes → Bytes
  | c :: r => if c = b then r else c :: r
  | [] => []

/-- `EncodedInputStream<UTF8<>, MemoryStream>`: a byte order mark is skipped (each of its bytes, if it is there). -/
def skipBom (s : Bytes) : Bytes := dropByte 0xbf (dropByte 0xbb (dropByte 0xef s))

/-- `SkipWhitespace` -/
def isWs (c : UInt8) : Bool := c = 0x20 || c = 0x0a || c = 0x0d || c = 0x09

/-- `SkipWhitespaceAndComments` without the comment flag. -/
def skipWs (s : Bytes) : Bytes := s.dropWhile isWs

/-- `Consume`: the next byte, if it is this one. -/
def consume (b : UInt8) : Bytes → Option Bytes
  | c :: r => if c = b then some r else none
  | [] => none

/-- `ParseNull`, `ParseTrue`, `ParseFalse`: the rest of the word. -/
def word (w : Bytes) (v : Json) : Bytes → Option (Json × Bytes) := fun s =>
  (w.foldlM (fun s b => consume b s) s).map fun r => (v, r)

/-- The table `escape` of `ParseStringToStream`. -/
def escape (c : UInt8) : Option UInt8 :=
  if c = 0x22 then some 0x22 else if c = 0x5c then some 0x5c else if c = 0x2f then some 0x2f else
  if c = 0x62 then some 0x08 else if c = 0x66 then some 0x0c else if c = 0x6e then some 0x0a else
  if c = 0x72 then some 0x0d else if c = 0x74 then some 0x09 else none

/-- One digit of `ParseHex4`. -/
def hexDigit (c : UInt8) : Option Nat :=
  if 0x30 ≤ c.toNat ∧ c.toNat ≤ 0x39 then some (c.toNat - 0x30) else
  if 0x41 ≤ c.toNat ∧ c.toNat ≤ 0x46 then some (c.toNat - 0x41 + 10) else
  if 0x61 ≤ c.toNat ∧ c.toNat ≤ 0x66 then some (c.toNat - 0x61 + 10) else none

/-- `ParseHex4` -/
def hex4 : Bytes → Option (Nat × Bytes)
  | a :: b :: c :: d :: r => do
    let a ← hexDigit a
    let b ← hexDigit b
    let c ← hexDigit c
    let d ← hexDigit d
    pure (((a * 16 + b) * 16 + c) * 16 + d, r)
  | _ => none

/-- `UTF8<>::Encode` -/
def utf8 (cp : Nat) : Bytes :=
  if cp ≤ 0x7f then [cp.toUInt8]
  else if cp ≤ 0x7ff then [(0xc0 + cp / 64).toUInt8, (0x80 + cp % 64).toUInt8]
  else if cp ≤ 0xffff then [(0xe0 + cp / 4096).toUInt8, (0x80 + cp / 64 % 64).toUInt8, (0x80 + cp % 64).toUInt8]
  else [(0xf0 + cp / 262144).toUInt8, (0x80 + cp / 4096 % 64).toUInt8, (0x80 + cp / 64 % 64).toUInt8, (0x80 + cp % 64).toUInt8]

/-- What follows `\u` in `ParseStringToStream`: a code point, with its second half if it is a high surrogate. -/
def codePoint (s : Bytes) : Option (Nat × Bytes) :=
  match hex4 s with
  | none => none
  | some (cp, r) =>
    if 0xd800 ≤ cp ∧ cp ≤ 0xdfff then
      if cp ≤ 0xdbff then
        match consume 0x5c r >>= consume 0x75 >>= hex4 with
        | none => none
        | some (cp2, r) =>
          if cp2 < 0xdc00 ∨ cp2 > 0xdfff then none
          else some ((cp - 0xd800) * 1024 + (cp2 - 0xdc00) + 0x10000, r)
      else none
    else some (cp, r)

/-- `ParseStringToStream` behind the opening quote.  At the end of the text `Peek` gives NUL, an error like every other
byte below 0x20. -/
def stringBody : Nat → Bytes → Option (Bytes × Bytes)
  | 0, _ => none
  | _, [] => none
  | fuel + 1, c :: r =>
    if c = 0x5c then
      match r with
      | [] => none
      | e :: r' => match escape e with
        | some b => (stringBody fuel r').map fun p => (b :: p.1, p.2)
        | none =>
          if e = 0x75 then
            match codePoint r' with
            | none => none
            | some (cp, r'') => (stringBody fuel r'').map fun p => (utf8 cp ++ p.1, p.2)
          else none
    else if c = 0x22 then some ([], r)
    else if c.toNat < 0x20 then none
    else (stringBody fuel r).map fun p => (c :: p.1, p.2)

/-- `ParseString` -/
def string (s : Bytes) : Option (Bytes × Bytes) :=
  match consume 0x22 s with
  | none => none
  | some r => stringBody (r.length + 1) r

def isDigit (c : UInt8) : Bool := 0x30 ≤ c.toNat && c.toNat ≤ 0x39

def digitsValue (ds : Bytes) : Nat := ds.foldl (fun n d => n * 10 + (d.toNat - 0x30)) 0

/-- At least one digit. -/
def digits1 (s : Bytes) : Option (Bytes × Bytes) :=
  match s.takeWhile isDigit with
  | [] => none
  | d :: ds => some (d :: ds, s.dropWhile isDigit)

/-- `ParseNumber`: the integer part. -/
def intPart : Bytes → Option (Bytes × Bytes)
  | [] => none
  | c :: r => if c = 0x30 then some ([c], r) else digits1 (c :: r)

/-- `ParseNumber`: a fraction, if there is a dot. -/
def fracPart : Bytes → Option (Bytes × Bytes)
  | [] => some ([], [])
  | c :: r => if c = 0x2e then (digits1 r).map fun p => (c :: p.1, p.2) else some ([], c :: r)

/-- `ParseNumber`: the sign of the exponent. -/
def expSign : Bytes → Bytes × Bytes
  | [] => ([], [])
  | c :: r => if c = 0x2b ∨ c = 0x2d then ([c], r) else ([], c :: r)

/-- `ParseNumber`: an exponent, if there is an `e`. -/
def expPart : Bytes → Option (Bytes × Bytes)
  | [] => some ([], [])
  | c :: r =>
    if c = 0x65 ∨ c = 0x45 then (digits1 (expSign r).2).map fun p => (c :: ((expSign r).1 ++ p.1), p.2)
    else some ([], c :: r)

/-- `ParseNumber`: an optional minus sign. -/
def minusSign : Bytes → Bytes × Bytes
  | [] => ([], [])
  | c :: r => if c = 0x2d then ([c], r) else ([], c :: r)

/-- The value of a number: an integer of 64 bits, or a `double`. -/
def numberValue (big : Bytes → Bool) (sign int frac exp : Bytes) : Option Json :=
  let i : Int := if sign = [] then digitsValue int else - digitsValue int
  if frac = [] ∧ exp = [] ∧ -(2 ^ 63) ≤ i ∧ i < 2 ^ 64 then some (.int i)
  else if big (sign ++ int ++ frac ++ exp) then none else some .dbl

/-- `ParseNumber` -/
def number (big : Bytes → Bool) (s : Bytes) : Option (Json × Bytes) :=
  match intPart (minusSign s).2 with
  | none => none
  | some (int, s1) => match fracPart s1 with
    | none => none
    | some (frac, s2) => match expPart s2 with
      | none => none
      | some (exp, s3) => (numberValue big (minusSign s).1 int frac exp).map fun v => (v, s3)

mutual
/-- `ParseValue` -/
def value (big : Bytes → Bool) : Nat → Bytes → Option (Json × Bytes)
  | 0, _ => none
  | _, [] => none
  | fuel + 1, c :: r =>
    if c = 0x6e then word bytes!"ull" .null r
    else if c = 0x74 then word bytes!"rue" (.bool true) r
    else if c = 0x66 then word bytes!"alse" (.bool false) r
    else if c = 0x22 then (string (c :: r)).map fun p => (.str p.1, p.2)
    else if c = 0x7b then
      match consume 0x7d (skipWs r) with
      | some r' => some (.obj [], r')
      | none => (members big fuel (skipWs r)).map fun p => (.obj p.1, p.2)
    else if c = 0x5b then
      match consume 0x5d (skipWs r) with
      | some r' => some (.arr [], r')
      | none => (elements big fuel (skipWs r)).map fun p => (.arr p.1, p.2)
    else number big (c :: r)
/-- The loop of `ParseObject`. -/
def members (big : Bytes → Bool) : Nat → Bytes → Option (List (Bytes × Json) × Bytes)
  | 0, _ => none
  | fuel + 1, s =>
    match string s with
    | none => none
    | some (name, s1) => match consume 0x3a (skipWs s1) with
      | none => none
      | some s2 => match value big fuel (skipWs s2) with
        | none => none
        | some (v, s3) => match skipWs s3 with
          | [] => none
          | c :: s4 =>
            if c = 0x2c then (members big fuel (skipWs s4)).map fun p => ((name, v) :: p.1, p.2)
            else if c = 0x7d then some ([(name, v)], s4)
            else none
/-- The loop of `ParseArray`. -/
def elements (big : Bytes → Bool) : Nat → Bytes → Option (List Json × Bytes)
  | 0, _ => none
  | fuel + 1, s =>
    match value big fuel s with
    | none => none
    | some (v, s1) => match skipWs s1 with
      | [] => none
      | c :: s2 =>
        if c = 0x2c then (elements big fuel (skipWs s2)).map fun p => (v :: p.1, p.2)
        else if c = 0x5d then some ([v], s2)
        else none
end

/-- `GenericReader::Parse`: a value between white space; the text ends at its end or at a NUL byte. -/
def parseJson (big : Bytes → Bool) (text : Bytes) : Option Json :=
  match value big (text.length + 1) (skipWs (skipBom text)) with
  | none => none
  | some (v, r) => match skipWs r with
    | [] => some v
    | c :: _ => if c = 0 then some v else none

/-- `ParseTileGridJSON` — database-parsers.cc:376-399. -/
def parseTileGridJSON (big : Bytes → Bool) (content : Bytes) : Outcome TileGrid :=
  match parseJson big content with
  | none => .err
  | some j => parseTileGrid j

/-- `ParsePartJSON` — database-parsers.cc:647-656. -/
def parsePartJSON (big : Bytes → Bool) (content : Bytes) : Outcome Part :=
  match parseJson big content with
  | none => .err
  | some j => parsePart j

end Verif.Db.JsonText
