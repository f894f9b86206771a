import Verif.Spec.WholeDesign
/-! # What a bitstream tells about its design -/
namespace Verif.Spec
open Verif.Db Verif.Asm

/-- The files of the database list bit `b` of word `w` of frame `k`, as one to be set, for something the design asks for or the assembler adds. -/
def SaysBit (grid : TileGrid) (part : Db.Part) (pins : PackagePins) (files : Bytes → TypeContents) (ls : List SourceLine) (k w b : Nat) : Prop :=
  ∃ tile feature addr block s, WantsBit grid part pins ls tile feature addr ∧ FileBits grid files tile feature addr block s ∧ s.isSet = true ∧ Lies block s k w b

/-- The feature bit sets this place in the memory of the device, and no other among those of `known` sets it. -/
def OwnPlace (grid : TileGrid) (files : Bytes → TypeContents) (known : Bytes → Bytes → Nat → Prop) (tile feature : Bytes) (addr k w b : Nat) : Prop :=
  (∃ block s, FileBits grid files tile feature addr block s ∧ s.isSet = true ∧ Lies block s k w b) ∧
  ∀ tile' feature' addr' block' s', known tile' feature' addr' → FileBits grid files tile' feature' addr' block' s' → s'.isSet = true → Lies block' s' k w b →
    tile' = tile ∧ feature' = feature ∧ addr' = addr

/-- Among the feature bits of `known`, this one can be told: it has a place of its own. -/
def CanTell (grid : TileGrid) (files : Bytes → TypeContents) (known : Bytes → Bytes → Nat → Prop) (tile feature : Bytes) (addr : Nat) : Prop :=
  ∃ k w b, OwnPlace grid files known tile feature addr k w b

/-- A list of feature bits (tile, feature, bit) and a place for each of them (frame, word, bit) by which it can be told. -/
structure Vocabulary (grid : TileGrid) (files : Bytes → TypeContents) (voc : List (Bytes × Bytes × Nat)) (place : Bytes × Bytes × Nat → Nat × Nat × Nat) (order : List Nat) : Prop where
  dots : ∀ e ∈ voc, 0x2e ∉ e.1
  own : ∀ e ∈ voc, OwnPlace grid files (fun tile feature addr => (tile, feature, addr) ∈ voc) e.1 e.2.1 e.2.2 (place e).1 (place e).2.1 (place e).2.2
  /-- among the frames of the device, and in a frame -/
  inside : ∀ e ∈ voc, (place e).1 ∈ order ∧ (place e).2.1 < 101

/-- The place is set in the memory. -/
def Stored (mem : Nat → List (BitVec 32)) (at_ : Nat × Nat × Nat) : Prop := ∃ x, (mem at_.1)[at_.2.1]? = some x ∧ x.getLsbD at_.2.2 = true

/-- The lines write as 1 exactly the feature bits of the list whose places are set in the memory. -/
def Disassembles (voc : List (Bytes × Bytes × Nat)) (place : Bytes × Bytes × Nat → Nat × Nat × Nat) (mem : Nat → List (BitVec 32)) (ls : List SourceLine) : Prop :=
  ∀ name n, (∃ l ∈ ls, l.Sets name n) ↔ ∃ e ∈ voc, name = e.1 ++ 0x2e :: e.2.1 ∧ n = e.2.2 ∧ Stored mem (place e)

end Verif.Spec
