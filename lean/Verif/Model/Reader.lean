import Verif.Model.Packet
/-! # Reading bitstreams: `/repo/fpga/xilinx/big-endian-span.h`, `bitstream-reader.h` -/
namespace Verif.Xc7

/-! ## `BigEndianSpan` with 32-bit words -/

/-- `value_type::operator WordType` — big-endian-span.h:31-38, on the four bytes it reads. -/
def wordOfBytes (b0 b1 b2 b3 : UInt8) : Word :=
  (((0#32 ||| (BitVec.ofNat 32 b0.toNat <<< ((4 - 1 - 0) * 8)))
    ||| (BitVec.ofNat 32 b1.toNat <<< ((4 - 1 - 1) * 8)))
    ||| (BitVec.ofNat 32 b2.toNat <<< ((4 - 1 - 2) * 8)))
    ||| (BitVec.ofNat 32 b3.toNat <<< ((4 - 1 - 3) * 8))

/-- `value_type::operator=` — big-endian-span.h:40-45: the bytes stored for a word; the same bytes
the writer emits (bitstream-writer.h:176-178). -/
def bytesOfWord (w : Word) : Bytes :=
  [UInt8.ofNat ((w >>> ((4 - 1 - 0) * 8)) &&& 0xFF#32).toNat,
   UInt8.ofNat ((w >>> ((4 - 1 - 1) * 8)) &&& 0xFF#32).toNat,
   UInt8.ofNat ((w >>> ((4 - 1 - 2) * 8)) &&& 0xFF#32).toNat,
   UInt8.ofNat ((w >>> ((4 - 1 - 3) * 8)) &&& 0xFF#32).toNat]

/-- Range iteration `{begin(), end()}` with conversion of every element — big-endian-span.h:56-85,
107-108, as used by bitstream-reader.h:170.  The loop runs until the byte span compares equal to the
empty span; reading a word from fewer than four bytes indexes the span out of range (31-38). -/
def beWords : Bytes → Outcome (List Word)
  | [] => .ok []
  | b0 :: b1 :: b2 :: b3 :: rest => do
    let ws ← beWords rest
    pure (wordOfBytes b0 b1 b2 b3 :: ws)
  | _ => .ub

/-- `size()` — big-endian-span.h:92-94. -/
def beSize (bytes : Bytes) : Nat := bytes.length / 4

/-- `operator[](pos)` followed by the word conversion — big-endian-span.h:100-103, 31-38.  The
`assert` is active in debug builds; `subspan` past the end throws. -/
def beGet (bytes : Bytes) (pos : Nat) : Outcome Word :=
  if pos < beSize bytes then
    match bytes.drop (pos * 4) with
    | b0 :: b1 :: b2 :: b3 :: _ => .ok (wordOfBytes b0 b1 b2 b3)
    | _ => .ub
  else .abort

/-! ## `BitstreamReader` -/

/-- `kSyncWord` — bitstream-reader.h:177-179. -/
def syncWord : Bytes := [0xAA, 0x99, 0x55, 0x66]

/-- `std::search(bytes, kSyncWord)` followed by dropping the prefix and the sync word —
bitstream-reader.h:153-163; `none` = not found. -/
def afterSync : Bytes → Option Bytes
  | [] => none
  | b :: rest => if syncWord.isPrefixOf (b :: rest) then some ((b :: rest).drop 4) else afterSync rest

/-- `InitWithBytes(bitstream)` — bitstream-reader.h:144-174: the reader's words. -/
def initWithBytes (bytes : Bytes) : Outcome (Option (List Word)) :=
  match afterSync bytes with
  | none => .ok none
  | some tail => do
    let ws ← beWords tail
    pure (some ws)

/-- State of `BitstreamReader::iterator` — bitstream-reader.h:60-61. -/
structure ReaderIter where
  rest : List Word
  packet : Option Packet
  words : List Word
deriving DecidableEq, Repr

/-- The `do … while` loop of `operator++` — bitstream-reader.h:213-226.  Span `==` compares
contents (220).  `none` = out of fuel. -/
def readerLoop : Nat → ReaderIter → Option ReaderIter
  | 0, _ => none
  | fuel + 1, it =>
    let new := Packet.initWithWords it.rest it.packet
    if new.1 = it.rest then some { it with words := [] }
    else
      let it : ReaderIter := ⟨new.1, new.2, it.rest⟩
      if !it.rest.isEmpty && it.packet.isNone then readerLoop fuel it else some it

/-- `operator++` — bitstream-reader.h:210-232. -/
def ReaderIter.next (fuel : Nat) (it : ReaderIter) : Option ReaderIter :=
  (readerLoop fuel it).map fun it => if it.packet.isNone then { it with words := [] } else it

/-- The iterator constructor — bitstream-reader.h:203-208; also `begin()`/`end()` (193-201). -/
def ReaderIter.init (fuel : Nat) (words : List Word) : Option ReaderIter :=
  ReaderIter.next fuel ⟨words, none, []⟩

/-- `operator==` with `end()` — bitstream-reader.h:234-237: `end()`'s words are empty. -/
def ReaderIter.atEnd (it : ReaderIter) : Bool := it.words.isEmpty

/-- The range-`for` over a reader: collect `*it` until `it == end()`.  Dereferencing yields
`*parse_result_.second` (bitstream-reader.h:244-252); `fuel` bounds both loops. -/
def readerCollect : Nat → Nat → ReaderIter → Option (Outcome (List Packet))
  | 0, _, _ => none
  | n + 1, fuel, it =>
    if it.atEnd then some (.ok [])
    else match it.packet with
      | none => some .ub
      | some p =>
        match it.next fuel with
        | none => none
        | some it' => (readerCollect n fuel it').map fun o => o.bind fun ps => .ok (p :: ps)

/-- All packets a reader over `words` yields. -/
def readPackets (fuel : Nat) (words : List Word) : Option (Outcome (List Packet)) :=
  match ReaderIter.init fuel words with
  | none => none
  | some it => readerCollect fuel fuel it

end Verif.Xc7
