import Verif.Spec.Device
import Verif.Spec.Description
/-! # Specification: the configuration memory of a device

Frame data go into frames one after another.  After UG470: an address has 26 bits — block type (3), half (1), row (5), column
(10), frame in the column (7); the device counts itself to the next frame it has, swallows two frames between rows, and takes
a frame over only when a whole further frame stands behind it.  Nothing here refers to the program. -/
namespace Verif.Spec
open Verif.Db

/-- What the frames of a device hold. -/
abbrev Memory := Nat → List Word

/-- One frame replaced. -/
def Memory.put (m : Memory) (k : Nat) (ws : List Word) : Memory := fun x => if x = k then ws else m x

/-- `part.json` describes a frame with address `k`. -/
def FrameOf (d : Db.Part) (k : Nat) : Prop :=
  ∃ bus bottom row column minor n, describedCount d bottom row bus column = some n ∧ minor < n ∧
    k = busNumber bus * 2 ^ 23 + (if bottom then 2 ^ 22 else 0) + row * 2 ^ 17 + column * 2 ^ 7 + minor

/-- The frames of the device in the order in which it counts. -/
def FramesInOrder (d : Db.Part) (order : List Nat) : Prop := order.Pairwise (· < ·) ∧ ∀ k, k ∈ order ↔ FrameOf d k

/-- The next frame, if there is one, is in another row: addresses differ above the column. -/
def rowEnded (k : Nat) (rest : List Nat) : Bool := rest.head?.elim false fun n => decide (n / 2 ^ 17 ≠ k / 2 ^ 17)

/-- Words go into frames of 101 words, in order. -/
def pour : List Nat → List Word → Memory → Memory
  | [], _, m => m
  | k :: rest, ws, m =>
    pour rest (ws.drop (if rowEnded k rest then 303 else 101)) (if 202 ≤ ws.length then m.put k (ws.take 101) else m)

/-- What the device holds after the blocks of frame data it took in, each from its first address on. -/
def Device.memory (order : List Nat) (s : Device) (m : Memory) : Memory :=
  s.loaded.foldl (fun m b => pour (order.dropWhile (· < b.1)) b.2 m) m

end Verif.Spec
