import Verif.Model.Packet
/-! # Specification: the packet wire format (UG470, tables 5-20 and 5-22)

Everything is plain arithmetic on the numeric value of the words. -/
namespace Verif.Spec
open Verif.Xc7

/-- `width` bits of a word starting at bit `lo`. -/
def field (w : Word) (lo width : Nat) : Nat := w.toNat / 2 ^ lo % 2 ^ width

/-- The fields of a packet fit the header: 2-bit opcode, 14-bit register, 11-bit count (type 1) or
27-bit count (type 2).  A type-0 word carries nothing. -/
def Representable (p : Packet) : Prop :=
  (p.headerType.toNat = 0 ∧ p.opcode.toNat = 0 ∧ p.address.toNat = 0 ∧ p.data = []) ∨
  (p.headerType.toNat = 1 ∧ p.opcode.toNat < 2 ^ 2 ∧ p.address.toNat < 2 ^ 14 ∧
    p.data.length < 2 ^ 11) ∨
  (p.headerType.toNat = 2 ∧ p.opcode.toNat < 2 ^ 2 ∧ p.data.length < 2 ^ 27)

/-- The value of a header word: type in bits 31:29, opcode in 28:27, register in 26:13 (type 1
only), word count in 10:0 or 26:0. -/
def headerValue (p : Packet) : Nat :=
  if p.headerType.toNat = 1 then
    1 * 2 ^ 29 + p.opcode.toNat * 2 ^ 27 + p.address.toNat * 2 ^ 13 + p.data.length
  else if p.headerType.toNat = 2 then
    2 * 2 ^ 29 + p.opcode.toNat * 2 ^ 27 + p.data.length
  else p.headerType.toNat * 2 ^ 29

/-- The packets in a word sequence.  `prev` is the packet just before, `fuel` any number not below
the number of words. -/
def packetsOf : Nat → Option Packet → List Word → List Packet
  | 0, _, _ => []
  | _ + 1, _, [] => []
  | fuel + 1, prev, w :: ws =>
    if field w 29 3 = 0 then
      let p : Packet := ⟨0#32, 0#32, 0#32, []⟩
      p :: packetsOf fuel (some p) ws
    else if field w 29 3 = 1 then
      let c := field w 0 11
      if ws.length < c then []
      else
        let p : Packet := ⟨1#32, BitVec.ofNat 32 (field w 27 2), BitVec.ofNat 32 (field w 13 14), ws.take c⟩
        p :: packetsOf fuel (some p) (ws.drop c)
    else if field w 29 3 = 2 then
      let c := field w 0 27
      if ws.length < c then []
      else match prev with
        | some q =>
          let p : Packet := ⟨2#32, BitVec.ofNat 32 (field w 27 2), q.address, ws.take c⟩
          p :: packetsOf fuel (some p) (ws.drop c)
        | none => packetsOf fuel none (ws.drop c)
    else []

/-- All packets of a word sequence. -/
def packetStream (ws : List Word) : List Packet := packetsOf ws.length none ws

/-- The payloads are consecutive non-overlapping slices of `ws`, in order, each right after a word
whose type field is the packet's type. -/
inductive Slices : List Word → List Packet → Prop
  | nil (ws : List Word) : Slices ws []
  | cons (skipped : List Word) (h : Word) (p : Packet) (ps : List Packet) (rest : List Word) :
      field h 29 3 = p.headerType.toNat → Slices rest ps →
      Slices (skipped ++ [h] ++ p.data ++ rest) (p :: ps)

/-- The words of a packet sequence: each header word followed by its data. -/
def wireWords (ps : List Packet) : List Word := ps.flatMap fun p => BitVec.ofNat 32 (headerValue p) :: p.data

/-- Every type-2 packet comes right after a packet with the same register; `prev` is the packet
before the list. -/
def Chained : Option Packet → List Packet → Prop
  | _, [] => True
  | prev, p :: ps => (p.headerType.toNat = 2 → ∃ q, prev = some q ∧ q.address = p.address) ∧
      Chained (some p) ps

end Verif.Spec
