import Verif.Spec.Failure
/-! # Specification: statements whose bits are not in the database, or not in a frame -/
namespace Verif.Spec
open Verif.Db Verif.Asm

/-- Bit `i` of the statement can be assembled: if it is 1, the database lists it, and what it sets lies inside a
frame. -/
def BitFine (tiles : Tiles) (F : FasmFeature) (tile feature : Bytes) (i : Nat) : Prop :=
  F.bits.testBit i = true → ∃ bits, FeatureBits tiles tile feature (((i : Int) + F.start) % 2 ^ 32).toNat bits ∧
    ∀ c ∈ bits, c.value = true → c.word < 101

/-- Bit `i` of the statement, called `tile.feature`, is 1, and the bits before it can be assembled. -/
def Arrives (tiles : Tiles) (F : FasmFeature) (tile feature : Bytes) (i : Nat) : Prop :=
  F.name = tile ++ 0x2e :: feature ∧ 0x2e ∉ tile ∧ (i : Int) < F.width ∧ F.bits.testBit i = true ∧
    ∀ j < i, BitFine tiles F tile feature j

/-- The first bit that cannot be assembled is listed, but sets something outside the frame. -/
def Overruns (tiles : Tiles) (F : FasmFeature) : Prop :=
  ∃ tile feature i bits, Arrives tiles F tile feature i ∧
    FeatureBits tiles tile feature (((i : Int) + F.start) % 2 ^ 32).toNat bits ∧ ∃ c ∈ bits, c.value = true ∧ 101 ≤ c.word

/-- The first bit that cannot be assembled is not listed. -/
def Stalls (tiles : Tiles) (F : FasmFeature) : Prop :=
  ∃ tile feature i, Arrives tiles F tile feature i ∧
    ∀ bits, ¬ FeatureBits tiles tile feature (((i : Int) + F.start) % 2 ^ 32).toNat bits

end Verif.Spec
