# Writes /verif/lean/Verif/Conformance.lean from the unit tests of /repo.
import json,re
def bs(s):
    if isinstance(s,str): s=s.encode('latin1')
    return '['+', '.join('0x%02x'%c for c in s)+']'
def cm(s): return json.dumps(s).replace('-/','- /')
out=[]
w=out.append
w('''import Verif.Model.Fasm
import Verif.Model.PartList
import Verif.Model.Configuration
import Verif.Model.Reader
import Verif.Model.Database
import Verif.Model.JsonText
/-! # The repository's own unit tests, replayed on the model

These `example`s are *tests of the fidelity of the model*, not proofs of properties: each one is an expectation
of a `*_test.cc` file of `/repo`, evaluated on the model by the kernel.  No claim of `MANIFEST.json` rests on
them.  Strings are byte lists; the text is in the comment above.  The file is generated. -/
namespace Verif.Conformance
''')
# --- FASM
w('''/-! ## `/repo/fpga/fasm-parser_test.cc` -/
section FasmTests
open Fasm

/-- Result and calls of `fasm::Parse` with an always-true callback. -/
def run (ann : Bool) (s : Bytes) : Option (Sev × List Event) :=
  match parse ann (fun _ => true) s with
  | .ok st => some (st.result, st.trace)
  | _ => none
''')
E='error';S='success'
V=[("DOTS.IN.FEATURE",S,"DOTS.IN.FEATURE",0,1,1),("D_1_G1TS",S,"D_1_G1TS",0,1,1),("   \tINDENTED # foo",S,"INDENTED",0,1,1),
("0valid",S,"0valid",0,1,1),("[8:0]",E,"",0,0,0),("",S,"",0,0,0),(" # hello ",S,"",0,0,0),
("COMMENT # more stuff",S,"COMMENT",0,1,1),("COMMENT[3:0] = 12 # ok",S,"COMMENT",0,4,12),
("IMPLICIT_ONE",S,"IMPLICIT_ONE",0,1,1),("EXPLICIT_ZERO = 0",S,"EXPLICIT_ZERO",0,1,0),
("IMPLICIT_ZERO[8:0] =  # no value assigned",S,"IMPLICIT_ZERO",0,9,0),
("UNDERSCORE_BITPOS[ _8_ ]",S,"UNDERSCORE_BITPOS",8,1,1),("UNDERSCORE_DECIMAL[15:0] = 1_234",S,"UNDERSCORE_DECIMAL",0,16,1234),
("UNDERSCORE_HEXVALUE[15:0] = 'hAB_CD",S,"UNDERSCORE_HEXVALUE",0,16,0xabcd),
("ASSIGN_DECIMAL[3:0] = 5",S,"ASSIGN_DECIMAL",0,4,5),("ASSIGN_DECIMAL[3:0] = 4'd5",S,"ASSIGN_DECIMAL",0,4,5),
("ASSIGN_BROKEN_DEC[7:0] = 4'd5a",E,"ASSIGN_BROKEN_DEC",0,8,5),("ASSIGN_HEX1[15:0] = 16'hCa_Fe",S,"ASSIGN_HEX1",0,16,0xcafe),
("ASSIGN_HEX2[31:0] = 32'h_dead_beef",S,"ASSIGN_HEX2",0,32,0xdeadbeef),("ASSIGN_HEX3[31:0] = 32 ' h _dead_beef ",S,"ASSIGN_HEX3",0,32,0xdeadbeef),
("BINARY[63:48] = 16'b1111_0000_1111_0000",S,"BINARY",48,16,0xF0F0),("ASSIGN_OCT[8:0] = 9'o644",S,"ASSIGN_OCT",0,9,0o644),
("UNKNOWN_BASE[7:0] = 8'y123",E,"UNKNOWN_BASE",0,8,1),("ASSIGN_INVALID[8:0] = beef # hex not expected",E,"ASSIGN_INVALID",0,9,0),
("ASSIGN_INVALID[8:0] = 5beef # starts valid dec",E,"ASSIGN_INVALID",0,9,5),("INVERTED_RANGE[0:8]",'skipped',"",0,0,0),
("BRACKET_MISSING[4:0xyz",E,"",0,0,0),("FOO[255:192] = 42",S,"FOO",192,64,42),("BAR[255:0] = 42",E,"BAR",0,64,42),
("ASSIGN_HEX[15:0] = 32'hcafebabe",'nonCritical',"ASSIGN_HEX",0,16,0xbabe),("ASSIGN_DECIMAL[3:0] = 255",S,"ASSIGN_DECIMAL",0,4,0xf),
('{.global = "annotation"}',S,"",0,0,0),('HELLO {.foo = "bar"}',S,"HELLO",0,1,1),('HELLO[5:0] = 42{.foo = "bar"}',S,"HELLO",0,6,42),
('EXPLICIT_ZERO = 0 {.foo = "bar"}',S,"EXPLICIT_ZERO",0,1,0)]
for (i,r,n,mb,wd,b) in V:
    for le in ("\n","\r\n"):
        w(f'/- {cm(i+le)} -/')
        ev = f'[.feature 1 {bs(n)} {mb} {wd} {b}]' if wd else '[]'
        w(f'example : run false {bs(i+le)} = some (.{r}, {ev}) := by decide +kernel')
L="ASSIGN_LONG[191:0] = 192'h0123456789ABCDEFDEADBEEFDEADBEEFAABBCCDDEEFF0011"
for le in ("\n","\r\n"):
    n=bs("ASSIGN_LONG")
    w(f'/- {cm(L+le)} -/')
    w(f'example : run false {bs(L+le)} = some (.success, [.feature 1 {n} 0 64 0xAABBCCDDEEFF0011, .feature 1 {n} 64 64 0xDEADBEEFDEADBEEF, .feature 1 {n} 128 64 0x0123456789ABCDEF]) := by decide +kernel')
w('''
/-- The annotations among the calls. -/
def anns (s : Bytes) : Option (Sev × List (Bytes × Bytes)) :=
  (run true s).map fun r => (r.1, r.2.filterMap fun e => match e with
    | .annotation _ _ n v => some (n, v)
    | _ => none)
''')
A=[('{ foo = "bar", baz = "quux" }\n',S,[("foo","bar"),("baz","quux")]),
('SOME_FEATURE = 42 { foo = "bar", baz = "quux" }\n',S,[("foo","bar"),("baz","quux")]),
('{ .escaped = "Some quote with \\"quote\\"" }\n',S,[(".escaped",'Some quote with \\"quote\\"')]),
('{ foo = "bar", baz = quux" }\n',E,[("foo","bar")]),
('{ foo = "bar"; baz = "quux" }\n',E,[("foo","bar")]),
('{ unterminated = "string }\nNEXT_LINE\n',E,[]),
('{ line_continuation_is_error = "string\\\nNEXT_LINE"\n',E,[])]
for (i,r,a) in A:
    w(f'/- {cm(i)} -/')
    w(f'example : anns {bs(i)} = some (.{r}, [{", ".join("(%s, %s)"%(bs(x),bs(y)) for x,y in a)}]) := by decide +kernel')
w('end FasmTests\n')
# --- frame, bit ops
w('''/-! ## `/repo/fpga/xilinx/arch-xc7-frame_test.cc`, `bit-ops_test.cc`, `big-endian-span_test.cc` -/
section WordTests
open Xc7 BitOps

example : icapCRC 0#32 0#32 0#32 = 0#32 := by decide +kernel
example : icapCRC (1#32 <<< 4) 0#32 0#32 = 0x82F63B78#32 := by decide +kernel
example : icapCRC (~~~0#32) (~~~0#32) 0#32 = 0xBF86D4DF#32 := by decide +kernel
example : icapCRC 0#32 0#32 (~~~0#32) = 0xC631E365#32 := by decide +kernel
example : icapECC 0#32 0#32 0#32 = 0#32 := by decide +kernel
example : icapECC 0#32 1#32 0#32 = 0x1320#32 := by decide +kernel
example : icapECC 7#32 1#32 0#32 = 0x1420#32 := by decide +kernel
example : icapECC 0x26#32 1#32 0#32 = 0x1820#32 := by decide +kernel
example : icapECC 0x32#32 (~~~0#32) 0#32 = 0x19AC#32 := by decide +kernel
example : icapECC 0x64#32 0#32 1#32 = 0x1001#32 := by decide +kernel

example : bitMask 32 0 = 1#32 := by decide +kernel
example : bitMask 32 3 = 8#32 := by decide +kernel
example : bitMaskRange 32 23 23 = 0x800000#32 := by decide +kernel
example : bitMaskRange 32 7 0 = 0xFF#32 := by decide +kernel
example : bitMaskRange 32 18 8 = 0x7FF00#32 := by decide +kernel
example : bitFieldGet 0xFFFFFFFF#32 23 23 = 1#32 := by decide +kernel
example : bitFieldGet 0xFFCCBBAA#32 7 0 = 0xAA#32 := by decide +kernel
example : bitFieldGet 0xFFCCBBAA#32 18 8 = 0x4BB#32 := by decide +kernel
example : bitFieldSet 0#32 23 23 1#32 = 0x800000#32 := by decide +kernel
example : bitFieldSet 0#32 23 23 3#32 = 0x800000#32 := by decide +kernel
example : bitFieldSet 0#32 18 8 0x123#32 = 0x12300#32 := by decide +kernel
example : bitFieldSet 0#32 18 8 0x1234#32 = 0x23400#32 := by decide +kernel

example : beSize [] = 0 := by decide +kernel
example : beSize [0, 1, 2] = 0 := by decide +kernel
example : beSize [0, 1, 2, 3] = 1 ∧ beGet [0, 1, 2, 3] 0 = .ok 0x00010203#32 := by decide +kernel
example : beSize [0, 1, 2, 3, 4, 5, 6, 7] = 2 ∧ beGet [0, 1, 2, 3, 4, 5, 6, 7] 0 = .ok 0x00010203#32 ∧
    beGet [0, 1, 2, 3, 4, 5, 6, 7] 1 = .ok 0x04050607#32 := by decide +kernel
example : bytesOfWord 0x04050607#32 = [4, 5, 6, 7] := by decide +kernel
end WordTests
''')
# --- packets, reader, writer
def words(l): return '['+', '.join('0x%X#32'%x for x in l)+']'
H=[0xFFFFFFFF]*8+[0xBB,0x11220044,0xFFFFFFFF,0xFFFFFFFF,0xAA995566]
def mk1(op,a,n): return (1<<29)|(op<<27)|(a<<13)|n
def mk2(op,n): return (2<<29)|(op<<27)|n
seq=list(range(1,13))
w('/-! ## `arch-xc7-configuration-packet_test.cc`, `bitstream-reader-xc7_test.cc`, `bitstream-writer_test.cc` -/\nsection PacketTests\nopen Xc7 Packet\n')
w('example : initWithWords [] none = ([], none) := by decide +kernel')
w(f'example : initWithWords {words([mk1(0,0,0)])} none = ([], some ⟨1#32, opNOP, regCRC, []⟩) := by decide +kernel')
w(f'example : initWithWords {words([mk1(1,2,2),0xAA,0xBB])} none = ([], some ⟨1#32, opRead, regFDRI, [0xAA#32, 0xBB#32]⟩) := by decide +kernel')
w(f'example : initWithWords {words([mk1(2,3,2),0xAA,0xBB])} none = ([], some ⟨1#32, opWrite, 3#32, [0xAA#32, 0xBB#32]⟩) := by decide +kernel')
w(f'example : initWithWords {words([mk2(1,12)])} none = ({words([mk2(1,12)])}, none) := by decide +kernel')
w(f'example : initWithWords {words([mk2(1,12)]+seq)} (some ⟨1#32, opRead, 0xA#32, []⟩) = ([], some ⟨2#32, opRead, 0xA#32, {words(seq)}⟩) := by decide +kernel')
w('')
w('''/-- Packets a reader over a byte string yields. -/
def readAll (bytes : Bytes) : Option (Option (List Packet)) :=
  match initWithBytes bytes with
  | .ok (some ws) => match readPackets 50 ws with
    | some (.ok ps) => some (some ps)
    | _ => none
  | .ok none => some none
  | _ => none
''')
w('example : readAll [] = some none := by decide +kernel')
w('example : (readAll [0xAA, 0x99, 0x55, 0x66]).join.isSome := by decide +kernel')
w('example : (readAll [0xFF, 0xFE, 0xAA, 0x99, 0x55, 0x66]).join.isSome := by decide +kernel')
w('example : (readAll [0xFF, 0xFE, 0xFD, 0xFC, 0xAA, 0x99, 0x55, 0x66]).join.isSome := by decide +kernel')
w('example : readAll [0xAA, 0x99, 0x55, 0x66, 0x20, 0, 0, 0] = some (some [⟨1#32, opNOP, regCRC, []⟩]) := by decide +kernel')
w('example : readAll [0xAA, 0x99, 0x55, 0x66, 0x40, 0, 0, 0] = some (some []) := by decide +kernel')
w('example : readAll [0xAA, 0x99, 0x55, 0x66, 0x28, 0, 0x60, 0, 0x48, 0, 0, 4, 1, 2, 3, 4, 5, 6, 7, 8, 9, 0xA, 0xB, 0xC, 0xD, 0xE, 0xF, 0x10] =\n    some (some [⟨1#32, opRead, 3#32, []⟩, ⟨2#32, opRead, 3#32, [0x01020304#32, 0x05060708#32, 0x090A0B0C#32, 0x0D0E0F10#32]⟩]) := by decide +kernel')
w('')
t0='⟨0#32, opNOP, regCRC, []⟩'; t1='⟨1#32, opWrite, 3#32, [0xAA#32, 0xBB#32]⟩'; t1e='⟨1#32, opWrite, 3#32, []⟩'; t2=f'⟨2#32, opRead, 3#32, {words(seq)}⟩'
for (ps,r) in [([],[]),([t0],[0]),([t1],[0x30006002,0xAA,0xBB]),([t1e,t2],[0x30006000,0x4800000C]+seq),
  ([t1,t1e,t1e,t2,t1e],[0x30006002,0xAA,0xBB,0x30006000,0x30006000,0x4800000C]+seq+[0x30006000])]:
    w(f'example : writerWords .xc7 [{", ".join(ps)}] 60 = some (.ok {words(H+r)}) := by decide +kernel')
w('end PacketTests\n')
# --- parts
CLB,BR,CFG='kCLBIOCLK','kBlockRam','kCFGCLB'
def fa(t): b,bo,r,c,m=t; return f'(make {b} {"true" if bo else "false"} {r} {c} {m})'
busA=[(BR,0,0,0,0),(BR,0,0,0,1),(BR,0,0,1,0),(BR,0,0,1,1)]
rowA=[(CLB,0,0,0,0),(CLB,0,0,0,1),(CLB,0,0,1,0),(CLB,0,0,1,1),(BR,0,0,0,0),(BR,0,0,0,1),(BR,0,0,0,2)]
regA=rowA+[(CLB,0,1,0,0),(CLB,0,1,0,1)]
partA=regA+[(CLB,1,0,0,0),(CLB,1,0,0,1)]
w('''/-! ## `arch-xc7-part_test.cc` -/
section PartTests
open Xc7 Xc7.FrameAddress

/-- Insertion into a list sorted by a key. -/
def ins (key : FrameAddress → Nat) (a : FrameAddress) : List FrameAddress → List FrameAddress
  | [] => [a]
  | b :: l => if key a ≤ key b then a :: b :: l else b :: ins key a l

/-- Concrete sorting and partitioning (both meet the contracts of the standard). -/
def alg : Algorithms := { sort := fun key l => l.foldr (ins key) [], partition := fun l => (l.filter isBottom, l.filter fun a => !isBottom a) }

/-- The value of a successful construction. -/
def val {α : Type} (d : α) : Outcome α → α
  | .ok a => a
  | _ => d
''')
for nm,ty,l,f in (('busT','Bus',busA,'busOfList alg'),('rowT','Row',rowA,'rowOfList alg'),('regT','Region',regA,'regionOfList alg')):
    w(f'/-- The addresses of the test. -/\ndef {nm}L : List FrameAddress := [{", ".join(map(fa,l))}]')
    w(f'/-- What the constructor makes of them. -/\ndef {nm} : {ty} := val [] ({f} {nm}L)')
w(f'/-- The addresses of the test. -/\ndef partTL : List FrameAddress := [{", ".join(map(fa,partA))}]')
w('/-- What the constructor makes of them. -/\ndef partT : Xc7.Part := val ⟨0#32, [], []⟩ (Part.ofList alg 0x1234#32 partTL)')
C10='(⟨10⟩ : Column)'
def chk(valid,nxt,T,F,N):
    for t in T: w(f'example : {valid} {fa(t)} = true := by decide +kernel')
    for t in F: w(f'example : {valid} {fa(t)} = false := by decide +kernel')
    for a,b in N: w(f'example : {nxt} {fa(a)} = {"some "+fa(b) if b else "none"} := by decide +kernel')
chk(f'{C10}.isValid',f'{C10}.next',[(CLB,0,1,2,3)],[(CLB,0,1,2,10)],[((CLB,0,1,2,3),(CLB,0,1,2,4)),((CLB,0,1,2,9),None),((CLB,0,1,2,10),None)])
chk('busIsValid busT','busNext busT',[(BR,0,0,0,0),(BR,0,0,1,1)],[(BR,0,0,0,2)],[((BR,0,0,0,0),(BR,0,0,0,1)),((BR,0,0,0,1),(BR,0,0,1,0)),((BR,0,0,1,1),None)])
chk('rowIsValid rowT','rowNext rowT',[(CLB,0,0,0,0),(CLB,0,0,1,0),(BR,0,0,0,2)],[(CLB,0,0,0,2),(CLB,0,0,2,0)],
 [((CLB,0,0,0,0),(CLB,0,0,0,1)),((CLB,0,0,0,1),(CLB,0,0,1,0)),((CLB,0,0,1,1),None),((BR,0,0,0,1),(BR,0,0,0,2)),((BR,0,0,0,2),None)])
chk('regionIsValid regT','regionNext regT',[(CLB,0,0,0,0),(CLB,0,0,1,0),(BR,0,0,0,2),(CLB,0,1,0,0)],[(CLB,0,0,0,2),(CLB,0,0,2,0),(CLB,0,2,0,0),(CFG,0,0,0,2)],
 [((CLB,0,0,0,0),(CLB,0,0,0,1)),((CLB,0,0,0,1),(CLB,0,0,1,0)),((CLB,0,0,1,1),(CLB,0,1,0,0)),((BR,0,0,0,1),(BR,0,0,0,2)),((CLB,0,1,0,1),None),((BR,0,0,0,2),None)])
chk('partT.isValid','partT.next',[(CLB,0,0,0,0),(CLB,0,0,1,0),(BR,0,0,0,2),(CLB,0,1,0,0),(CLB,1,0,0,0)],[(CLB,0,0,0,2),(CLB,0,0,2,0),(CLB,0,2,0,0),(CFG,0,0,0,2),(CLB,1,0,1,0)],
 [((CLB,0,0,0,0),(CLB,0,0,0,1)),((CLB,0,0,0,1),(CLB,0,0,1,0)),((CLB,0,0,1,1),(CLB,0,1,0,0)),((CLB,0,1,0,1),(CLB,1,0,0,0)),((CLB,1,0,0,1),(BR,0,0,0,0)),((BR,0,0,0,2),None)])
w('end PartTests\n')
# --- frames & configuration
w('''/-! ## `frames-xc7_test.cc`, `configuration-xc7_test.cc` (the cases without data files) -/
section ConfigTests
open Xc7 Xc7.FrameAddress Xc7.Packet

/-- A part made from a list of addresses. -/
def part1234 (l : List FrameAddress) : Xc7.Part := val ⟨0#32, [], []⟩ (Part.ofList alg 0x1234#32 l)

/-- The packets of the configuration tests. -/
def testPackets (far : Word) (data : List Word) : List Packet :=
  [⟨1#32, opWrite, regIDCODE, [0x1234#32]⟩, ⟨1#32, opWrite, regFAR, [far]⟩, ⟨1#32, opWrite, regCMD, [1#32]⟩,
   ⟨1#32, opWrite, regFDRI, data⟩]
''')
w('''/- FillInMissingFrames (frames stand for their fill value) -/
example : addMissingFrames (part1234 [make kCLBIOCLK false 0 0 0, make kCLBIOCLK false 0 0 1, make kCLBIOCLK false 0 0 2,
      make kCLBIOCLK false 0 0 3, make kCLBIOCLK false 0 0 4]) 0 10 [(2, 0xCC), (3, 0xDD), (4, 0xEE)] =
    some [(0, 0), (1, 0), (2, 0xCC), (3, 0xDD), (4, 0xEE)] := by decide +kernel
/- ConstructFromPacketsWithSingleFrame -/
example : (initWithPackets 101 (part1234 [0x4567#32, 0x4568#32]) (testPackets 0x4567#32 (List.replicate 101 0xAA#32))).map
      (fun c => (c.part.idcode, c.frames)) = some (0x1234#32, [(0x4567, List.replicate 101 0xAA#32)]) := by decide +kernel
/- ConstructFromPacketsWithAutoincrement -/
example : (initWithPackets 101 (part1234 ((List.range 16).map (fun i => BitVec.ofNat 32 (0x4560 + i)) ++
        (List.range 16).map (fun i => BitVec.ofNat 32 (0x4580 + i))))
      (testPackets 0x456F#32 (List.replicate 101 0xAA#32 ++ List.replicate 101 0xBB#32))).map
      (fun c => (c.part.idcode, c.frames)) =
    some (0x1234#32, [(0x456F, List.replicate 101 0xAA#32), (0x4580, List.replicate 101 0xBB#32)]) := by decide +kernel
/-- The addresses of `CheckForPaddingFrames`. -/
def padL : List FrameAddress := [make kCLBIOCLK false 0 0 0, make kCLBIOCLK true 0 0 0, make kCLBIOCLK true 1 0 0,
  make kBlockRam false 0 0 0, make kBlockRam false 1 0 0]
/-- A frame filled with one value, one word long (the payload function is generic in the length). -/
def fill1 (w : Word) : FrameWords 1 := Vector.replicate 1 w
/-- The frames of `CheckForPaddingFrames`, shortened to one word each. -/
def padFrames : BMap (FrameWords 1) :=
  (padL.zip [0xAA#32, 0xBB#32, 0xCC#32, 0xDD#32, 0xEE#32]).map fun e => (e.1.toNat, fill1 e.2)
/- CheckForPaddingFrames: fifteen frames, and decoding gives the five back -/
example : (type2Payload (part1234 padL) padFrames).length = 15 * 1 := by decide +kernel
example : (initWithPackets 1 (part1234 padL) (testPackets 0#32 (type2Payload (part1234 padL) padFrames))).map (fun c => c.frames) =
    some (padFrames.map fun e => (e.1, e.2.toList)) := by decide +kernel
end ConfigTests
''')
# --- text dbs
w('''/-! ## `/repo/fpga/database-parsers_test.cc`, `database_test.cc`

The texts are C string literals: the byte behind the last one is the terminating NUL. -/
section DbTests
open Db
''')
P=[("Palways",None),("P    always",[("P","always")]),("P  always   \n",[("P","always")]),("P always",[("P","always")]),("P default",[("P","default")]),("P hint",[("P","hint")]),
("P  always   \n  A   default \n",[("P","always"),("A","default")])]
for t,r in P:
    w(f'/- {cm(t)} -/')
    rhs='.err' if r is None else '.ok ['+', '.join(f'({bs(a)}, .{b})' for a,b in r)+']'
    w(f'example : parsePseudoPIPs (some 0) {bs(t)} = {rhs} := by decide +kernel')
SB=[("FOO 28_519 !29_519",[("FOO",0,[(28,519,1),(29,519,0)])]),("BAR !1_23",[("BAR",0,[(1,23,0)])]),
("\n BAZ  42_42 33_93\n QUX !0_1 \n  ",[("BAZ",0,[(42,42,1),(33,93,1)]),("QUX",0,[(0,1,0)])]),
("BAR[0] !1_23",[("BAR",0,[(1,23,0)])]),("BAR[1] !1_23",[("BAR",1,[(1,23,0)])]),("BAR[002] !1_23",[("BAR",2,[(1,23,0)])]),("BAR[200] !1_23",[("BAR",200,[(1,23,0)])])]
for t,r in SB:
    w(f'/- {cm(t)} -/')
    rhs='.ok ['+', '.join(f'(({bs(n)}, {a}), ['+', '.join(f'⟨{x}, {y}, {"true" if z else "false"}⟩' for x,y,z in l)+'])' for n,a,l in r)+']'
    w(f'example : parseSegmentsBits (fun _ => 0) (some 0) {bs(t)} = {rhs} := by decide +kernel')
pA=("A1",35,"IOB_X1Y81","RIOB33_X43Y81","IO_L9N_T1_DQS_AD7N_35"); pN=("N6",34,"IOB_X1Y13","RIOB33_X43Y13","IO_L18N_T2_34")
PP=[("pin,bank,site,tile,pin_function\nA1,35,IOB_X1Y81,RIOB33_X43Y81,IO_L9N_T1_DQS_AD7N_35",[pA]),
("\nA1,35,IOB_X1Y81,RIOB33_X43Y81,IO_L9N_T1_DQS_AD7N_35",None),("pin,bank,site,tile,pin_function\nA1,35,IOB_X1Y81,IO_L9N_T1_DQS_AD7N_35",None),
("pin,bank,site,tile,pin_function\nA1,35,IOB_X1Y81,RIOB33_X43Y81,  IO_L9N_T1_DQS_AD7N_35\n\nN6,  34,IOB_X1Y13,RIOB33_X43Y13,IO_L18N_T2_34\n",[pA,pN])]
for t,r in PP:
    w(f'/- {cm(t)} -/')
    rhs='.err' if r is None else '.ok ['+', '.join(f'⟨{bs(a)}, {b}, {bs(c)}, {bs(d)}, {bs(e)}⟩' for a,b,c,d,e in r)+']'
    w(f'example : parsePackagePins (some 0) {bs(t)} = {rhs} := by decide +kernel')
src=open('/repo/fpga/database-parsers_test.cc').read()
def raw(name): return re.search(name+r'\s*=\s*R"\((.*?)\)"',src,re.S).group(1)
def js(v):
    if isinstance(v,dict): return '.obj ['+', '.join(f'({bs(k)}, {js(x)})' for k,x in v.items())+']'
    if isinstance(v,list): return '.arr ['+', '.join(map(js,v))+']'
    if isinstance(v,str): return f'.str {bs(v)}'
    if isinstance(v,int): return f'.int {v}'
    raise 1
grid=json.loads(raw('kSampleTileGridJSON')); part=json.loads(raw('kSamplePartJSON'))
w(f'/-- `kSampleTileGridJSON` as a JSON value. -/\ndef sampleGrid : Json := {js(grid)}')
def smap(d): return '['+', '.join(f'({bs(k)}, {bs(v)})' for k,v in d.items())+']'
BT={'CLB_IO_CLK':'.clbIoClk','BLOCK_RAM':'.blockRam','CFG_CLB':'.cfgClb'}
def tile(t):
    def blk(b):
        a=b.get('alias'); al=f'some ⟨{smap(a["sites"])}, {a["start_offset"]}, {bs(a["type"])}⟩' if a else 'none'
        return f'⟨{al}, {int(b["baseaddr"],0)}, {b["frames"]}, {b["offset"]}, {b["words"]}⟩'
    cr=f'some {bs(t["clock_region"])}' if 'clock_region' in t else 'none'
    return f'⟨{bs(t["type"])}, {t["grid_x"]}, {t["grid_y"]}, {cr}, [{", ".join("(%s, %s)"%(BT[k],blk(b)) for k,b in t["bits"].items())}], {smap(t["pin_functions"])}, {smap(t["sites"])}, [{", ".join(map(bs,t["prohibited_sites"]))}]⟩'
w(f'example : parseTileGrid sampleGrid = .ok [{", ".join("(%s, %s)"%(bs(k),tile(t)) for k,t in grid.items())}] := by decide +kernel')
w('/- `EmptyTileGrid`: the inputs that are JSON values but not grids -/')
w('example : parseTileGrid (.arr []) = .err := by decide +kernel')
w('example : parseTileGrid (.int 32) = .err := by decide +kernel')
w(f'/-- `kSamplePartJSON` as a JSON value. -/\ndef samplePart : Json := {js(part)}')
def half(h): return '['+', '.join('['+', '.join(f'({BT[b]}, [{", ".join(str(c["frame_count"]) for c in x["configuration_columns"].values())}])' for b,x in r["configuration_buses"].items())+']' for r in h["rows"].values())+']'
g=part['global_clock_regions']
w(f'example : parsePart samplePart = .ok ⟨{half(g["bottom"])}, {half(g["top"])}, {part["idcode"]}#32, [{", ".join("(%s, %s)"%(k,bs(v)) for k,v in part["iobanks"].items())}]⟩ := by decide +kernel')
w(f'/-- `kSampleTileGridJSON`, the text. -/\ndef sampleGridText : Bytes := {bs(raw("kSampleTileGridJSON"))}')
w(f'/-- `kSamplePartJSON`, the text. -/\ndef samplePartText : Bytes := {bs(raw("kSamplePartJSON"))}')
w('example : JsonText.parseTileGridJSON (fun _ => false) sampleGridText = parseTileGrid sampleGrid := by decide +kernel')
w('example : JsonText.parsePartJSON (fun _ => false) samplePartText = parsePart samplePart := by decide +kernel')
trail=re.search(r'"asd",\s*R"\((.*?)\)"',src,re.S).group(1)
for t in ("","[]","  ","\n\n","32","asd",trail):
    w(f'/- `EmptyTileGrid`: {cm(t)} -/')
    w(f'example : JsonText.parseTileGridJSON (fun _ => false) {bs(t)} = .err := by decide +kernel')
py,dy=raw('kSamplePartsMapperYAML'),raw('kSampleDevicesMapperYAML')
w(f'/-- `kSamplePartsMapperYAML`. -/\ndef samplePartsYaml : Bytes := {bs(py)}')
w(f'/-- `kSampleDevicesMapperYAML`. -/\ndef sampleDevicesYaml : Bytes := {bs(dy)}')
inf=[("xc7a100tcsg324-3","xc7a100t","xc7a100t","csg324","3"),("xc7a35tcpg236-2L","xc7a35t","xc7a50t","cpg236","2L"),("xc7a50tcpg236-1","xc7a50t","xc7a50t","cpg236","1")]
w(f'example : parsePartsInfos samplePartsYaml sampleDevicesYaml = .ok [{", ".join("(%s, ⟨%s, %s, %s, %s⟩)"%tuple(map(bs,x)) for x in inf)}] := by decide +kernel')
w(f'''/-- The registry of `database_test.cc`. -/
def sampleRegistry : Registry := Registry.create id
  {{ bottomRows := [], topRows := [], idcode := 0#32, iobanks := [(0, {bs("X1Y78")}), (3, {bs("X2Y43")}), (4, {bs("X1Y78")})] }}
  [⟨[], 0, [], {bs("LIOB33_X0Y93")}, []⟩, ⟨[], 216, [], {bs("GTP_CHANNEL_1_X97Y121")}, []⟩, ⟨[], 0, [], {bs("HCLK_IOI3_X1Y79")}, []⟩]''')
for b,ts in [(0,["HCLK_IOI3_X1Y78","LIOB33_X0Y93","HCLK_IOI3_X1Y79"]),(3,["HCLK_IOI3_X2Y43"]),(4,["HCLK_IOI3_X1Y78"]),(216,["GTP_CHANNEL_1_X97Y121"])]:
    w(f'example : sampleRegistry.tiles {b} = some [{", ".join(map(bs,ts))}] := by decide +kernel')
    for t in ts: w(f'example : {b} ∈ sampleRegistry.tileBanks {bs(t)} := by decide +kernel')
w('end DbTests\n\nend Verif.Conformance')
# wrap very long lines: break after ", " beyond 118 cols, only outside comments
def wrap(l):
    if len(l)<=118 or l.startswith('/-'): return l
    parts=l.split(', '); cur=parts[0]; res=[]
    for p in parts[1:]:
        if len(cur)+2+len(p)>116: res.append(cur+','); cur='    '+p
        else: cur+=', '+p
    res.append(cur); return '\n'.join(res)
open('/verif/lean/Verif/Conformance.lean','w').write('\n'.join('\n'.join(wrap(x) for x in blk.split('\n')) for blk in out)+'\n')
