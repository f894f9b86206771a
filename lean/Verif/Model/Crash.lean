import Verif.Model.Configuration
/-! # Interrupted output: the stream operations of `/repo/fpga/xilinx/bitstream-writer.h:158-188`

`writeFile` gives the stream after all operations; here the operations themselves, in order, so that a write can
be cut short after any of them (the process is killed, the disk is full). -/
namespace Verif.Xc7

/-- An operation on the output stream: one byte put, or a seek. -/
inductive StreamOp where
  | put (b : UInt8)
  | seek (p : Int)
deriving DecidableEq, Repr

/-- Effect of an operation (library contract, see `OStream`). -/
def OStream.step (o : OStream) : StreamOp → OStream
  | .put b => o.write [b]
  | .seek p => o.seekp p

/-- Effect of several operations in order. -/
def OStream.steps (o : OStream) (ops : List StreamOp) : OStream := ops.foldl OStream.step o

/-- The operations of `writeBitstream`, in order — bitstream-writer.h:164-187.  The one `out.write` of the
header (166-167) is taken byte by byte, since it can be cut inside. -/
def writeOps (header : Bytes) (words : List Word) (out : OStream) : List StreamOp :=
  let head := header.map .put                                                    -- 166-167
  let endOfHeader := (out.steps head).tellp                                      -- 169
  let body := (words.flatMap bytesOfWord).map .put                               -- 175-179
  let len : Word := BitVec.ofInt 32 (((out.steps head).steps body).tellp - endOfHeader)  -- 181
  head ++ body ++ [.seek (endOfHeader - 4)] ++ (bytesOfWord len).map .put        -- 170-171, 183-186

/-- `writeBitstream` up to its stream operations — bitstream-writer.h:158-188. -/
def writeBitstreamOps (arch : Arch) (packets : List Packet)
    (partName source generator date time : Bytes) (out : OStream) (fuel : Nat) :
    Option (Outcome (List StreamOp)) :=
  (writerWords arch packets fuel).map fun o => o.bind fun ws =>
    .ok (writeOps (createHeader partName source generator date time) ws out)

/-- `BitStream<kXC7>::Encode` up to its stream operations — bitstream.h:33-70. -/
def encodeOps (part : Db.Part) (partName source date time : Bytes)
    (frames : BMap (FrameWords frameWordsBase)) (out : OStream) (fuel : Nat) :
    Option (Outcome (List StreamOp)) :=
  match Part.fromPart part with
  | .ok p =>
    match addMissingFrames p (zeroFrame frameWordsBase) fuel (convertFrames [] frames) with
    | none => none
    | some m =>
      writeBitstreamOps .xc7 (configurationPackage (type2Payload p m) p.idcode) partName source
        generatorName date time out fuel
  | .err => some .err
  | .abort => some .abort
  | .ub => some .ub

end Verif.Xc7
