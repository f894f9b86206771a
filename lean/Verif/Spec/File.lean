import Verif.Model.Basic
/-! # Specification: the `.bit` file layout -/
namespace Verif.Spec

/-- One tag / 16-bit big-endian length / value field: tag, value, rest. -/
def readField : Bytes → Option (UInt8 × Bytes × Bytes)
  | t :: hi :: lo :: rest =>
    let n := hi.toNat * 256 + lo.toNat
    if n ≤ rest.length then some (t, rest.take n, rest.drop n) else none
  | _ => none

/-- The final field: tag and a 32-bit big-endian byte count, then the configuration bytes. -/
def readLength : Bytes → Option (UInt8 × Nat × Bytes)
  | t :: a :: b :: c :: d :: rest =>
    some (t, a.toNat * 2^24 + b.toNat * 2^16 + c.toNat * 2^8 + d.toNat, rest)
  | _ => none

/-- Contents of a `.bit` file. -/
structure BitFile where
  design : Bytes
  part : Bytes
  date : Bytes
  time : Bytes
  length : Nat
  config : Bytes
deriving Repr, DecidableEq

/-- Reader of the documented layout (fpga-faq 0026): a 13-byte preamble, then fields `a`–`d`
(zero-terminated strings) and the length field `e`. -/
def readBitFile (bytes : Bytes) : Option BitFile :=
  if bytes.take 13 ≠ [0, 9, 0x0f, 0xf0, 0x0f, 0xf0, 0x0f, 0xf0, 0x0f, 0xf0, 0, 0, 1] then none else
  (readField (bytes.drop 13)).bind fun (ta, a, r) =>
  (readField r).bind fun (tb, b, r) =>
  (readField r).bind fun (tc, c, r) =>
  (readField r).bind fun (td, d, r) =>
  (readLength r).bind fun (te, n, cfg) =>
  if ta = 0x61 ∧ tb = 0x62 ∧ tc = 0x63 ∧ td = 0x64 ∧ te = 0x65 then some ⟨a, b, c, d, n, cfg⟩ else none

end Verif.Spec

namespace Verif.Spec

/-- Big-endian bytes of a word. -/
def beBytes (w : Word) : Bytes :=
  [UInt8.ofNat (w.toNat / 2 ^ 24 % 256), UInt8.ofNat (w.toNat / 2 ^ 16 % 256),
   UInt8.ofNat (w.toNat / 2 ^ 8 % 256), UInt8.ofNat (w.toNat % 256)]

/-- Words as file bytes. -/
def fileBytes (ws : List Word) : Bytes := ws.flatMap beBytes

/-- `;Generator=` -/
def generatorMark : Bytes := bytes!";Generator="

/-- The bytes of one field: tag, 16-bit big-endian length, the text and its terminating zero. -/
def fieldBytes (tag : UInt8) (s : Bytes) : Bytes :=
  [tag, UInt8.ofNat ((s.length + 1) / 256), UInt8.ofNat ((s.length + 1) % 256)] ++ s ++ [0]

/-- The bytes of a `.bit` file up to and including the tag of the length field. -/
def headerBytes (design part date time : Bytes) : Bytes :=
  [0, 9, 0x0f, 0xf0, 0x0f, 0xf0, 0x0f, 0xf0, 0x0f, 0xf0, 0, 0, 1] ++ fieldBytes 0x61 design ++ fieldBytes 0x62 part ++
    fieldBytes 0x63 date ++ fieldBytes 0x64 time ++ [0x65]

/-- The sync word AA 99 55 66 does not occur in the bytes. -/
def SyncFree (bytes : Bytes) : Prop := ∀ i, ¬ ∃ u, bytes.drop i = [0xAA, 0x99, 0x55, 0x66] ++ u

/-- ASCII text of moderate length. -/
def ShortAscii (s : Bytes) : Prop := s.length ≤ 120 ∧ ∀ b ∈ s, b < 0x80

end Verif.Spec
