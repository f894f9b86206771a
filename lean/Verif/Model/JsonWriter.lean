import Verif.Model.DbMessages
import Verif.Model.FasmText
/-! # How a JSON value is written into a message: `/repo/fpga/database-parsers.cc:92-97`

`ValueAsString` hands the value to `rapidjson::Writer<StringBuffer>` with default flags.  rapidjson is not part of `/repo`
(`MODULE.bazel:10`: version 1.1.0.bcr.20250205); this is a model of the contract of `rapidjson/writer.h`.  The value of a number that is
not a 64-bit integer is not kept by `Json`; its text is the parameter `dbl`. -/
namespace Verif.Db.JsonWriter
open Verif.Db

/-- The table `hexDigits` of `Writer::WriteString`. -/
def hexDigit (n : Nat) : UInt8 := if n < 10 then UInt8.ofNat (0x30 + n) else UInt8.ofNat (0x41 + (n - 10))

/-- One byte of `Writer::WriteString`: the table `escape` (quote, backslash, and everything below 0x20); other bytes are
copied as they are, without a check of the encoding. -/
def writeByte (c : UInt8) : Bytes :=
  if c = 0x22 then [0x5c, 0x22]
  else if c = 0x5c then [0x5c, 0x5c]
  else if c = 0x08 then [0x5c, 0x62]
  else if c = 0x0c then [0x5c, 0x66]
  else if c = 0x0a then [0x5c, 0x6e]
  else if c = 0x0d then [0x5c, 0x72]
  else if c = 0x09 then [0x5c, 0x74]
  else if c.toNat < 0x20 then [0x5c, 0x75, 0x30, 0x30, hexDigit (c.toNat / 16), hexDigit (c.toNat % 16)]
  else [c]

/-- `Writer::WriteString` -/
def writeString (s : Bytes) : Bytes := 0x22 :: (s.flatMap writeByte ++ [0x22])

/-- `Writer::WriteInt64`, `WriteUint64` and the 32-bit ones. -/
def writeInt (i : Int) : Bytes := if i < 0 then 0x2d :: Fasm.printU i.natAbs else Fasm.printU i.natAbs

mutual
/-- `GenericValue::Accept(writer)` -/
def writeValue (dbl : Bytes) : Json → Bytes
  | .null => bytes!"null"
  | .bool true => bytes!"true"
  | .bool false => bytes!"false"
  | .int i => writeInt i
  | .dbl => dbl
  | .str s => writeString s
  | .arr vs => 0x5b :: (writeElements dbl vs ++ [0x5d])
  | .obj ms => 0x7b :: (writeMembers dbl ms ++ [0x7d])
/-- The elements of an array: `Writer::Prefix` puts a comma before all but the first. -/
def writeElements (dbl : Bytes) : List Json → Bytes
  | [] => []
  | [v] => writeValue dbl v
  | v :: vs => writeValue dbl v ++ 0x2c :: writeElements dbl vs
/-- The members of an object: `Writer::Prefix` puts a colon behind a name and a comma before all names but the first. -/
def writeMembers (dbl : Bytes) : List (Bytes × Json) → Bytes
  | [] => []
  | [m] => writeMember dbl m
  | m :: ms => writeMember dbl m ++ 0x2c :: writeMembers dbl ms
/-- One member. -/
def writeMember (dbl : Bytes) : Bytes × Json → Bytes
  | (name, v) => writeString name ++ 0x3a :: writeValue dbl v
end

/-- `ValueAsString` — database-parsers.cc:92-97: `GetString` makes a C string of the buffer. -/
def valueAsString (dbl : Bytes) (j : Json) : Bytes := Text.cstr (writeValue dbl j)

end Verif.Db.JsonWriter
