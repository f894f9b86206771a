import Verif.Model.Reader
/-! # Writing bitstreams: `/repo/fpga/xilinx/bitstream-writer.h`, `bitstream-writer.cc` -/
namespace Verif.Xc7

/-- `Architecture` — arch-types.h:22-26. -/
inductive Arch where
  | xc7 | ultraScale | ultraScalePlus
deriving DecidableEq, Repr

/-- Words per frame — arch-xc7-frame.h:30-46. -/
def Arch.frameWords : Arch → Nat
  | .xc7 => frameWordsBase
  | .ultraScale => frameWordsUltraScale
  | .ultraScalePlus => frameWordsUltraScalePlus

/-- `header_` — bitstream-writer.cc:12-31. -/
def syncHeader : Arch → List Word
  | .xc7 =>
    [0xFFFFFFFF#32, 0xFFFFFFFF#32, 0xFFFFFFFF#32, 0xFFFFFFFF#32, 0xFFFFFFFF#32,
     0xFFFFFFFF#32, 0xFFFFFFFF#32, 0xFFFFFFFF#32, 0x000000BB#32, 0x11220044#32,
     0xFFFFFFFF#32, 0xFFFFFFFF#32, 0xAA995566#32]
  | .ultraScale =>
    [0xFFFFFFFF#32, 0x000000BB#32, 0x11220044#32, 0xFFFFFFFF#32, 0xFFFFFFFF#32, 0xAA995566#32]
  | .ultraScalePlus =>
    [0xFFFFFFFF#32, 0xFFFFFFFF#32, 0xFFFFFFFF#32, 0xFFFFFFFF#32, 0xFFFFFFFF#32, 0xFFFFFFFF#32,
     0xFFFFFFFF#32, 0xFFFFFFFF#32, 0xFFFFFFFF#32, 0xFFFFFFFF#32, 0xFFFFFFFF#32, 0xFFFFFFFF#32,
     0xFFFFFFFF#32, 0xFFFFFFFF#32, 0xFFFFFFFF#32, 0xFFFFFFFF#32, 0x000000BB#32, 0x11220044#32,
     0xFFFFFFFF#32, 0xFFFFFFFF#32, 0xAA995566#32]

/-! ## The word iterator -/

/-- `packet_iterator::state_t` — bitstream-writer.h:76-80. -/
inductive PState where
  | header | data | fin
deriving DecidableEq, Repr

/-- `packet_iterator` — bitstream-writer.h:60-97; `itr_data_` as an index into the packet's data. -/
structure PacketIter where
  state : PState
  pos : Nat
  packet : Packet
deriving DecidableEq, Repr

/-- `packet_begin()` / the constructor in `begin()` — bitstream-writer.h:238-247, 325-328. -/
def PacketIter.begin (p : Packet) : PacketIter := ⟨.header, 0, p⟩
/-- `packet_end()` — bitstream-writer.h:249-258. -/
def PacketIter.endOf (p : Packet) : PacketIter := ⟨.fin, p.data.length, p⟩

/-- `packet_iterator::operator++` — bitstream-writer.h:265-284. -/
def PacketIter.next (it : PacketIter) : PacketIter :=
  match it.state with
  | .header =>
    if 0 = it.packet.data.length then { it with pos := 0, state := .fin }
    else { it with pos := 0, state := .data }
  | .data =>
    if it.pos + 1 = it.packet.data.length then { it with pos := it.pos + 1, state := .fin }
    else { it with pos := it.pos + 1 }
  | .fin => it

/-- `packet_iterator::operator==` — bitstream-writer.h:286-290. -/
def PacketIter.eq (a b : PacketIter) : Bool := a.state = b.state && a.pos = b.pos

/-- `packet_iterator::operator*` — bitstream-writer.h:298-308. -/
def PacketIter.deref (it : PacketIter) : Outcome Word :=
  match it.state with
  | .header => .ok it.packet.header
  | .data => match it.packet.data[it.pos]? with
    | some w => .ok w
    | none => .ub
  | .fin => .abort

/-- `BitstreamWriter::iterator` — bitstream-writer.h:99-131: positions in the sync header and in the
packet vector, and the optional packet iterator. -/
structure WriterIter where
  hpos : Nat
  ppos : Nat
  cur : Option PacketIter
deriving DecidableEq, Repr

/-- `begin()` — bitstream-writer.h:316-331. -/
def writerBegin (packets : List Packet) : WriterIter :=
  ⟨0, 0, packets[0]?.map PacketIter.begin⟩

/-- `end()` — bitstream-writer.h:333-337. -/
def writerEnd (hdr : List Word) (packets : List Packet) : WriterIter :=
  ⟨hdr.length, packets.length, none⟩

/-- `iterator::operator==` — bitstream-writer.h:386-391 (`optional` equality). -/
def WriterIter.eq (a b : WriterIter) : Bool :=
  a.hpos = b.hpos && a.ppos = b.ppos &&
    (match a.cur, b.cur with
      | none, none => true
      | some x, some y => x.eq y
      | _, _ => false)

/-- `iterator::operator*` — bitstream-writer.h:398-406. -/
def WriterIter.deref (hdr : List Word) (it : WriterIter) : Outcome Word :=
  if it.hpos ≠ hdr.length then
    match hdr[it.hpos]? with
    | some w => .ok w
    | none => .ub
  else match it.cur with
    | some c => c.deref
    | none => .ub

/-- `iterator::operator++` — bitstream-writer.h:350-384. -/
def WriterIter.next (hdr : List Word) (packets : List Packet) (it : WriterIter) :
    Outcome WriterIter :=
  if it.hpos ≠ hdr.length then
    if it.hpos + 1 = hdr.length then
      match packets[0]? with
      | some p => .ok ⟨it.hpos + 1, 0, some (PacketIter.begin p)⟩
      | none => .ok ⟨it.hpos + 1, 0, it.cur⟩
    else .ok { it with hpos := it.hpos + 1 }
  else match it.cur with
    | none => .ub
    | some c =>
      let c := c.next
      match packets[it.ppos]? with
      | none => .ub
      | some p =>
        if c.eq (PacketIter.endOf p) then
          if it.ppos + 1 = packets.length then .ok { it with ppos := it.ppos + 1, cur := none }
          else match packets[it.ppos + 1]? with
            | some q => .ok { it with ppos := it.ppos + 1, cur := some (PacketIter.begin q) }
            | none => .ub
        else .ok { it with cur := some c }

/-- The range-`for` of `writeBitstream` — bitstream-writer.h:175: all words, in order; `none` = out
of fuel. -/
def writerCollect (hdr : List Word) (packets : List Packet) :
    Nat → WriterIter → Option (Outcome (List Word))
  | 0, _ => none
  | fuel + 1, it =>
    if it.eq (writerEnd hdr packets) then some (.ok [])
    else match it.deref hdr with
      | .ok w =>
        match it.next hdr packets with
        | .ok it' => (writerCollect hdr packets fuel it').map fun o => o.bind fun ws => .ok (w :: ws)
        | .err => some .err
        | .abort => some .abort
        | .ub => some .ub
      | .err => some .err
      | .abort => some .abort
      | .ub => some .ub

/-- Words produced by iterating a writer over `packets`. -/
def writerWords (arch : Arch) (packets : List Packet) (fuel : Nat) : Option (Outcome (List Word)) :=
  writerCollect (syncHeader arch) packets fuel (writerBegin packets)

/-! ## The file -/

/-- One `push_back` group of `create_header`: tag, 16-bit big-endian length of the string plus its
terminator (each byte truncated by `static_cast<uint8_t>`), string, 0 — bitstream-writer.h:200-203,
206-210, 219-225, 227-233. -/
def tlv (tag : UInt8) (s : Bytes) : Bytes :=
  [tag, UInt8.ofNat ((s.length + 1) >>> 8), UInt8.ofNat (s.length + 1)] ++ s ++ [0]

/-- The first 13 bytes of `bit_header` — bitstream-writer.h:197-198 (the 14th is the tag `'a'`). -/
def fileMagic : Bytes :=
  [0x00, 0x09, 0x0f, 0xf0, 0x0f, 0xf0, 0x0f, 0xf0, 0x0f, 0xf0, 0x00, 0x00, 0x01]

/-- `";Generator="` — bitstream-writer.h:199. -/
def generatorInfix : Bytes := bytes!";Generator="

/-- `create_header` — bitstream-writer.h:190-236; the formatted date and time are inputs. -/
def createHeader (partName source generator date time : Bytes) : Bytes :=
  fileMagic ++ tlv 0x61 (source ++ (generatorInfix ++ generator)) ++ tlv 0x62 partName ++ tlv 0x63 date
    ++ tlv 0x64 time ++ [0x65, 0, 0, 0, 0]

/-- An output stream (library contract, not code of this repository): its contents, the write
position, whether it can seek (a regular file or string stream, as opposed to a pipe or terminal),
and its fail bit. -/
structure OStream where
  bytes : Bytes
  pos : Nat
  seekable : Bool
  failed : Bool
deriving Repr, DecidableEq

/-- Overwrite or append at a position (the contract of `std::ostream::write`/`put` on a good stream). -/
def overwriteAt (bytes : Bytes) (pos : Nat) (s : Bytes) : Bytes :=
  bytes.take pos ++ s ++ bytes.drop (pos + s.length)

/-- `out.write`/`out.put`. -/
def OStream.write (o : OStream) (s : Bytes) : OStream :=
  if o.failed then o
  else { o with bytes := overwriteAt o.bytes o.pos s, pos := o.pos + s.length }

/-- `out.tellp()`: −1 when the stream has failed or cannot seek. -/
def OStream.tellp (o : OStream) : Int := if o.failed || !o.seekable then -1 else o.pos

/-- `out.seekp(p)`: sets the fail bit when the stream cannot seek there. -/
def OStream.seekp (o : OStream) (p : Int) : OStream :=
  if o.failed then o
  else if o.seekable && decide (0 ≤ p) then { o with pos := p.toNat }
  else { o with failed := true }

/-- `writeBitstream` after the words are known — bitstream-writer.h:164-187. -/
def writeFile (header : Bytes) (words : List Word) (out : OStream) : OStream :=
  let out := out.write header                                     -- 166-167
  let endOfHeader := out.tellp                                    -- 169
  let lengthPos := endOfHeader - 4                                -- 170-171
  let out := words.foldl (fun o w => (bytesOfWord w).foldl (fun o b => o.write [b]) o) out  -- 175-179
  let len : Word := BitVec.ofInt 32 (out.tellp - endOfHeader)     -- 181
  let out := out.seekp lengthPos                                  -- 183
  (bytesOfWord len).foldl (fun o b => o.write [b]) out            -- 184-186

/-- `BitstreamWriter::writeBitstream` — bitstream-writer.h:158-188 (always returns 0). -/
def writeBitstream (arch : Arch) (packets : List Packet)
    (partName source generator date time : Bytes) (out : OStream) (fuel : Nat) :
    Option (Outcome OStream) :=
  (writerWords arch packets fuel).map fun o => o.bind fun ws =>
    .ok (writeFile (createHeader partName source generator date time) ws out)

end Verif.Xc7
