import Verif.Spec.Address
import Verif.Model.Part
/-! # Specification: what a part's geometry means

`frameCountAt` is the plain nested lookup "how many frames does the column at these coordinates
have"; everything else is stated in terms of coordinates. -/
namespace Verif.Spec
open Verif.Xc7

/-- Frame count of the column at (block, half, row, column), if the part has such a column. -/
def frameCountAt (p : Part) (block : Nat) (bottom : Bool) (row column : Nat) : Option Nat :=
  ((((if bottom then p.bottom else p.top).get? row).bind (·.get? block)).bind (·.get? column)).map
    (·.frameCount)

/-- The part has a frame at this coordinate. -/
def HasFrame (p : Part) (c : Coord) : Prop :=
  ∃ n, frameCountAt p c.block c.bottom c.row c.column = some n ∧ c.minor < n

/-- All maps of the part are ordered maps (invariant of `absl::btree_map`) and all coordinates fit
the address fields: at most 32 rows per half, 1024 columns per bus, 128 frames per column. -/
def Fits (p : Part) : Prop :=
  ∀ g, g = p.top ∨ g = p.bottom → g.Sorted ∧ ∀ r ∈ g, r.1 < 32 ∧ r.2.Sorted ∧
    ∀ b ∈ r.2, b.2.Sorted ∧ ∀ c ∈ b.2, c.1 < 1024 ∧ c.2.frameCount ≤ 128

/-- No holes: only the three configuration block types, columns contiguous from 0 in every bus,
rows contiguous from 0 in every half for each block type, and no block type that exists only in the
bottom half. -/
structure Dense (p : Part) : Prop where
  blocks : ∀ c, HasFrame p c → c.block < 3
  columns : ∀ c, HasFrame p c → ∀ k ≤ c.column, HasFrame p ⟨c.block, c.bottom, c.row, k, 0⟩
  rows : ∀ c, HasFrame p c → ∀ r ≤ c.row, HasFrame p ⟨c.block, c.bottom, r, 0, 0⟩
  halves : ∀ c, HasFrame p c → HasFrame p ⟨c.block, false, 0, 0, 0⟩

/-- Addresses visited by repeatedly asking the part for the next address, starting at 0. -/
inductive Reached (p : Part) : FrameAddress → Prop
  | start : Reached p 0#32
  | step {a n : FrameAddress} : Reached p a → p.next a = some n → Reached p n

end Verif.Spec
