import Verif.Spec.Payload
/-! # Specification: where the words of a block of frame data go

A block of frame data begins at an address and fills the frames of the walk from there, `n` words each; at the end of a
row two frames' worth of words are skipped. -/
namespace Verif.Spec
open Verif.Xc7

/-- The address `i` steps after `a`. -/
def walkAt (p : Part) (a : FrameAddress) : Nat → Option FrameAddress
  | 0 => some a
  | i + 1 => (walkAt p a i).bind p.next

/-- The walk over the frame addresses of a part never comes to an end. -/
def WalkEndless (d : Db.Part) : Prop := ∀ p, Part.fromPart d = .ok p → ∀ i, walkAt p 0#32 i ≠ none

/-- Where the words of frame number `i` of the block begin. -/
def blockOffset (n : Nat) (p : Part) (a : FrameAddress) : Nat → Nat
  | 0 => 0
  | i + 1 => blockOffset n p a i + n + (if (walkAt p a i).any (endsRow p) then 2 * n else 0)

/-- A block that begins at `a` puts `ws` into frame `k`.  (The last frame may get fewer than `n` words.) -/
def Placed (n : Nat) (p : Part) (a : FrameAddress) (data : List Word) (k : Nat) (ws : List Word) : Prop :=
  ∃ i b, walkAt p a i = some b ∧ b.toNat = k ∧ blockOffset n p a i < data.length ∧
    ws = (data.drop (blockOffset n p a i)).take n

/-- Frames `new` over frames `old`. -/
def Over (new : Nat → List Word → Prop) (old : BMap (List Word)) (k : Nat) (ws : List Word) : Prop :=
  new k ws ∨ ((∀ ws', ¬ new k ws') ∧ old.get? k = some ws)

/-- After a block that begins at `a`, the next block begins at `b` unless told otherwise: the address after the last
frame that got words, or that frame itself when it is the last of the part. -/
def Resume (n : Nat) (p : Part) (a : FrameAddress) (data : List Word) (b : FrameAddress) : Prop :=
  ∃ i, walkAt p a i = some b ∧ (∀ j < i, blockOffset n p a j < data.length) ∧
    (data.length ≤ blockOffset n p a i ∨ p.next b = none)

/-- A packet that writes `data` to a register (opcode 2). -/
def writes (type : BitVec 32) (reg : Nat) (data : List Word) : Packet := ⟨type, 2#32, BitVec.ofNat 32 reg, data⟩

end Verif.Spec
