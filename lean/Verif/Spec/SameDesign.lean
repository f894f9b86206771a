import Verif.Spec.Source
import Verif.Spec.Ending
/-! # Designs that say the same -/
namespace Verif.Spec
open Verif.Db Verif.Asm

/-- A statement of the text asks for bit `addr` of the feature in the tile. -/
def TextAsks (text tile feature : Bytes) (addr : Nat) : Prop := ∃ F, Written text F ∧ Asks F tile feature addr

/-- Every line is accepted, every statement has a name with a dot, and bits below 2^31. -/
def CleanText (text : Bytes) : Prop :=
  LinesOk text ∧ ∀ F, Written text F → 0x2e ∈ F.name ∧ ∀ i : Nat, (i : Int) < F.width → (i : Int) + F.start < 2 ^ 31

/-- The line writes bit `n` of the feature as 1. -/
def SourceLine.Sets : SourceLine → Bytes → Nat → Prop
  | .empty _ _, _, _ => False
  | .statement _ f _ _, name, n => f.name = name ∧ f.range.lo ≤ n ∧ n ≤ f.range.hi ∧ f.value.val.testBit (n - f.range.lo) = true

/-- The name of its feature, if it has one, has a dot. -/
def SourceLine.Dotted : SourceLine → Prop
  | .empty _ _ => True
  | .statement _ f _ _ => 0x2e ∈ f.name

/-- The plainest line there is: `name[n]`, nothing else on it. -/
def PlainBit (name : Bytes) (n : Nat) (l : SourceLine) : Prop :=
  ∃ g digits, (∀ i, g i = []) ∧ numVal 10 digits = n ∧ l = .statement g ⟨name, .bit digits, .absent⟩ [] []

end Verif.Spec
