/-! # Specification: device coordinates

Independent of the model: a frame coordinate is a 5-tuple of numbers, ordered lexicographically. -/
namespace Verif.Spec

/-- Coordinates of a configuration frame on the device. -/
structure Coord where
  block : Nat
  bottom : Bool
  row : Nat
  column : Nat
  minor : Nat
deriving DecidableEq, Repr

namespace Coord

/-- The coordinate fits the 26-bit address layout of UG470 (3/1/5/10/7 bits). -/
def InRange (c : Coord) : Prop :=
  c.block < 8 ∧ c.row < 32 ∧ c.column < 1024 ∧ c.minor < 128

instance (c : Coord) : Decidable c.InRange := by unfold InRange; infer_instance

/-- Lexicographic order: block type, then half (top first), row, column, minor. -/
def lt (a b : Coord) : Prop :=
  a.block < b.block ∨ (a.block = b.block ∧
  (a.bottom.toNat < b.bottom.toNat ∨ (a.bottom = b.bottom ∧
  (a.row < b.row ∨ (a.row = b.row ∧
  (a.column < b.column ∨ (a.column = b.column ∧ a.minor < b.minor)))))))

end Coord
end Verif.Spec
