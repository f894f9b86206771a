import Verif.Spec.Packets
/-! # Specification: words behind a bitstream -/
namespace Verif.Spec
open Verif.Xc7

/-- The header of a write to the frame data register (2) or the ID register (12), or of a write of type 2, which goes to the register of
the packet before. -/
def FrameHeader (w : Word) : Prop :=
  field w 27 2 = 2 ∧ (field w 29 3 = 2 ∨ field w 29 3 = 1 ∧ (field w 13 14 = 2 ∨ field w 13 14 = 12))

/-- The words that program one frame: WCFG to the command register, the address to FAR, 101 words to FDRI. -/
def frameWrite (a : FrameAddress) (words : List Word) : List Word :=
  [0x30008001#32, 1#32, 0x30002001#32, a, 0x30004065#32] ++ words

end Verif.Spec
