import Mathlib.Algebra.Polynomial.Div
import Mathlib.Algebra.Field.ZMod
import Verif.Model.Basic
/-! # Specification of the configuration CRC: remainder of a division of polynomials over GF(2) -/
namespace Verif.Spec
open Polynomial

/-- The Castagnoli generator polynomial (CRC-32C, 0x1EDC6F41). -/
noncomputable def castagnoli : (ZMod 2)[X] :=
  X^32 + X^28 + X^27 + X^26 + X^25 + X^23 + X^22 + X^20 + X^19 + X^18 + X^14 + X^13 + X^11 + X^10 +
    X^9 + X^8 + X^6 + 1

/-- The polynomial with these coefficients, the highest degree first. -/
noncomputable def polyOf (bits : List Bool) : (ZMod 2)[X] :=
  bits.foldl (fun p b => X * p + if b then 1 else 0) 0

/-- The `n` low bits of a word, the least significant first. -/
def lsbFirst (n : Nat) (w : Word) : List Bool := (List.range n).map w.getLsbD

/-- The bits fed to the CRC for a history of (register, data) writes, in order: the 32 data bits of
each write and then its 5 register address bits, each least significant first. -/
def crcInput (h : List (Word × Word)) : List Bool :=
  h.flatMap fun x => lsbFirst 32 x.2 ++ lsbFirst 5 x.1

end Verif.Spec
