import Verif.Spec.Readback
import Verif.Spec.Payload
/-! # Specification: frames a part does not have -/
namespace Verif.Spec
open Verif.Xc7

/-- No frame on the walk over the part has this address. -/
def Foreign (p : Part) (k : Nat) : Prop := ∀ a, Reached p a → a.toNat ≠ k

/-- The first foreign address of a frame map. -/
structure FirstForeign {β : Type} (p : Part) (frames : BMap β) (k : Nat) (f : β) : Prop where
  given : (k, f) ∈ frames
  foreign : Foreign p k
  first : ∀ j g, (j, g) ∈ frames → Foreign p j → k ≤ j

/-- `b` is the first frame of the part behind address `k`. -/
structure FirstBehind (p : Part) (k : Nat) (b : FrameAddress) : Prop where
  reached : Reached p b
  behind : k < b.toNat
  first : ∀ a, Reached p a → k < a.toNat → b.toNat ≤ a.toNat

/-- The frames of the part and those at further addresses, in the order of addresses, with two frames more after each row and at the end, are fewer
than 2^27 words: their number fits the count of a type 2 packet. -/
def FitsWith (p : Part) (further : Nat → Prop) : Prop :=
  ∀ all : BMap Unit, all.Sorted → (∀ k, k ∈ all.map (·.1) ↔ further k ∨ ∃ a, Reached p a ∧ a.toNat = k) →
    (all.length + 2 * rowEnds p all + 2) * 101 < 2 ^ 27

end Verif.Spec
