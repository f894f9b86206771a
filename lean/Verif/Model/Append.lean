import Verif.Model.Configuration
/-! # Output opened for appending: `/repo/fpga/xilinx/bitstream-writer.h:158-188` on `O_APPEND` files

`fpga-as … >> file`: the stream tells and sets its position as on any regular file, but the system puts every written
byte at the end of the file.  The writer's code is the same, so it is written here once more over what a stream can do;
`Verif.Props.writeFile_on` and `encode_on` say that on the streams of `Model/Writer.lean` it is the same function. -/
namespace Verif.Xc7

/-- What the writer asks of an output stream: `write`/`put`, `tellp`, `seekp`. -/
structure StreamKind (σ : Type) where
  write : σ → Bytes → σ
  tellp : σ → Int
  seekp : σ → Int → σ

/-- The streams of `Model/Writer.lean`. -/
def plainKind : StreamKind OStream := ⟨OStream.write, OStream.tellp, OStream.seekp⟩

/-- A regular file opened for appending (library and system contract, not code of this repository): its contents and the
position the stream believes to be at. -/
structure AppendFile where
  bytes : Bytes
  pos : Nat
deriving Repr, DecidableEq

/-- Writes go to the end of the file whatever the position is (`O_APPEND`); the stream counts them from its position. A
`seekp` before the beginning cannot happen here (the header has more than four bytes). -/
def appendKind : StreamKind AppendFile where
  write o s := { bytes := o.bytes ++ s, pos := o.pos + s.length }
  tellp o := o.pos
  seekp o p := { o with pos := p.toNat }

/-- `writeBitstream` after the words are known — bitstream-writer.h:164-187. -/
def writeFileOn {σ : Type} (k : StreamKind σ) (header : Bytes) (words : List Word) (out : σ) : σ :=
  let out := k.write out header                                   -- 166-167
  let endOfHeader := k.tellp out                                  -- 169
  let lengthPos := endOfHeader - 4                                -- 170-171
  let out := words.foldl (fun o w => (bytesOfWord w).foldl (fun o b => k.write o [b]) o) out  -- 175-179
  let len : Word := BitVec.ofInt 32 (k.tellp out - endOfHeader)   -- 181
  let out := k.seekp out lengthPos                                -- 183
  (bytesOfWord len).foldl (fun o b => k.write o [b]) out          -- 184-186

/-- `BitstreamWriter::writeBitstream` — bitstream-writer.h:158-188. -/
def writeBitstreamOn {σ : Type} (k : StreamKind σ) (arch : Arch) (packets : List Packet)
    (partName source generator date time : Bytes) (out : σ) (fuel : Nat) : Option (Outcome σ) :=
  (writerWords arch packets fuel).map fun o => o.bind fun ws =>
    .ok (writeFileOn k (createHeader partName source generator date time) ws out)

/-- `BitStream<kXC7>::Encode` — bitstream.h:33-70. -/
def encodeOn {σ : Type} (k : StreamKind σ) (part : Db.Part) (partName source date time : Bytes)
    (frames : BMap (FrameWords frameWordsBase)) (out : σ) (fuel : Nat) : Option (Outcome σ) :=
  match Part.fromPart part with
  | .ok p =>
    match addMissingFrames p (zeroFrame frameWordsBase) fuel (convertFrames [] frames) with
    | none => none
    | some m =>
      writeBitstreamOn k .xc7 (configurationPackage (type2Payload p m) p.idcode) partName source
        generatorName date time out fuel
  | .err => some .err
  | .abort => some .abort
  | .ub => some .ub

end Verif.Xc7
