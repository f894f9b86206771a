import Verif.Model.Basic
/-! # Specification vocabulary for frame errors -/
namespace Verif.Spec

/-- Flip bit `p.2` of word `p.1` of a frame. -/
def flipBit (f : List Word) (p : Nat × Nat) : List Word := f.modify p.1 (· ^^^ (1#32 <<< p.2))

/-- Flip several bits one after the other. -/
def flipBits (f : List Word) (ps : List (Nat × Nat)) : List Word := ps.foldl flipBit f

/-- A bit position of a 101-word frame. -/
def IsFrameBit (p : Nat × Nat) : Prop := p.1 < 101 ∧ p.2 < 32

instance (p : Nat × Nat) : Decidable (IsFrameBit p) := by unfold IsFrameBit; infer_instance

/-- The ECC value stored in a frame: low 13 bits of word 50. -/
def storedECC (f : List Word) : Word := (f[50]?.getD 0#32) &&& 0x1FFF#32

/-! ## The 7-series frame ECC as an extended Hamming code -/

/-- Is bit `p.2` of word `p.1` of the frame set? -/
def bitSet (f : List Word) (p : Nat × Nat) : Bool := (f[p.1]?.getD 0#32).getLsbD p.2

/-- All 3232 bit positions (word, bit) of a frame. -/
def frameBits : List (Nat × Nat) :=
  (List.range 101).flatMap fun k => (List.range 32).map fun b => (k, b)

/-- The positions of the bits of a frame that are set. -/
def setBits (f : List Word) : List (Nat × Nat) := frameBits.filter (bitSet f)

/-- The 13 positions where the check bits are stored: the low bits of word 50. -/
def isCheckBit (p : Nat × Nat) : Bool := p.1 == 50 && decide (p.2 < 13)

/-- The Hamming position of a data bit. Positions are given out in frame order, starting at 0x320,
and the two blocks of 32 that would contain the powers of two 0x400 and 0x800 are left out. -/
def hammingPosition (p : Nat × Nat) : Nat :=
  let n := 0x320 + 32 * p.1 + p.2
  if n < 0x400 then n else if n + 0x20 < 0x800 then n + 0x20 else n + 0x40

end Verif.Spec
