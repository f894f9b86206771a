import Verif.Model.Configuration
import Verif.Spec.Geometry
import Verif.Props.C01_C03
/-! # Specification: layout of the frame payload -/
namespace Verif.Spec
open Verif.Xc7 Verif.Props

/-- The address after `k` lies in a different row: its block type, half or row number differs. -/
def endsRow (p : Part) (k : FrameAddress) : Bool :=
  match p.next k with
  | none => false
  | some n => decide ((coordOf n).block ≠ (coordOf k).block ∨ (coordOf n).bottom ≠ (coordOf k).bottom ∨
      (coordOf n).row ≠ (coordOf k).row)

/-- Number of row ends among the frames of a map. -/
def rowEnds {β : Type} (p : Part) (m : BMap β) : Nat :=
  (m.filter fun kv => endsRow p (BitVec.ofNat 32 kv.1)).length

/-- Word offset of frame number `i`: one slot per earlier frame, two more after each row end. -/
def slot {β : Type} (n : Nat) (p : Part) (m : BMap β) (i : Nat) : Nat :=
  n * (i + 2 * rowEnds p (m.take i))

/-- The keys of the map are exactly the walk `a, next a, next (next a), …`. -/
def WalkFrom {β : Type} (p : Part) : FrameAddress → BMap β → Prop
  | _, [] => False
  | a, (k, _) :: rest => k = a.toNat ∧
      match p.next a with
      | none => rest = []
      | some nx => WalkFrom p nx rest

/-- The frames of the part in walk order, with two frames more after each row and at the end, are fewer than 2^27 words: their number
fits the count of a type 2 packet. -/
def FitsPacket (p : Part) : Prop :=
  ∀ walk : BMap Unit, WalkFrom p 0#32 walk → (walk.length + 2 * rowEnds p walk + 2) * 101 < 2 ^ 27

/-- A decoded frame map shows the same frames. -/
def sameFrames {n : Nat} (m : BMap (FrameWords n)) : BMap (List Word) := m.map fun kv => (kv.1, kv.2.toList)

end Verif.Spec
