import Verif.Proofs.CNumber
import Verif.Props.C41_C42
/-! # C73: which tile grids are read, and how their addresses are

`C42` says what is read when addresses are hexadecimal; here they are anything. -/
namespace Verif.Props
open Verif.Db Verif.Spec Verif.Text

/-- Every text counts as exactly one number. -/
theorem C73_number (s : Bytes) : ∃ i, CNumber s i ∧ ∀ j, CNumber s j → j = i := by
  obtain ⟨i, hi⟩ := cnumber_exists s
  exact ⟨i, hi, fun j hj => (cnumber_value hj).trans (cnumber_value hi).symm⟩

/-- Base addresses: the number, if it fits 64 bits, and an error otherwise. -/
theorem C73_address (s : Bytes) (i : Int) (h : CNumber s i) :
    (-2 ^ 63 ≤ i ∧ i < 2 ^ 63 → baseAddress s = .ok (i % 2 ^ 64).toNat) ∧
    (¬ (-2 ^ 63 ≤ i ∧ i < 2 ^ 63) → baseAddress s = .err) := by
  unfold baseAddress
  rw [strtol0_of h]
  refine ⟨fun h => ?_, fun h => ?_⟩
  · rw [if_pos h]
  · rw [if_neg h]

theorem C73_address_iff (s : Bytes) (a : Nat) : baseAddress s = .ok a ↔ AddressText s a := by
  obtain ⟨i, hi, huniq⟩ := C73_number s
  obtain ⟨h1, h2⟩ := C73_address s i hi
  by_cases hr : -2 ^ 63 ≤ i ∧ i < 2 ^ 63
  · rw [h1 hr]
    constructor
    · intro h
      have h := Outcome.ok.inj h
      exact ⟨i, hi, hr.1, hr.2, by omega⟩
    · rintro ⟨j, hj, _, _, hj4⟩
      have := huniq j hj
      subst this
      congr 1
      omega
  · rw [h2 hr]
    constructor
    · intro h; cases h
    · rintro ⟨j, hj, hj2, hj3, _⟩
      have := huniq j hj
      subst this
      exact absurd ⟨hj2, hj3⟩ hr

/-- **Tile grids, exactly**: `parseTileGrid` reads a grid from a value if and only if the value describes that grid, with
base addresses written as C reads numbers. -/
theorem C73_grid (j : Json) (g : TileGrid) : parseTileGrid j = .ok g ↔ GridJson AddressText j g := by
  rw [parseTileGrid_iff]
  exact ⟨GridJson.mono fun s n h => (C73_address_iff s n).1 h, GridJson.mono fun s n h => (C73_address_iff s n).2 h⟩

/-- A value describes at most one grid. -/
theorem C73_unique (j : Json) (g g' : TileGrid) (h : GridJson AddressText j g) (h' : GridJson AddressText j g') : g = g' := by
  have := (C73_grid j g).2 h
  rw [(C73_grid j g').2 h'] at this
  cases this; rfl

/-- Hexadecimal addresses are among these. -/
theorem C73_hex (s : Bytes) (n : Nat) (h : HexText s n) : AddressText s n := (C73_address_iff s n).1 (hexText_address h)

/-- ` -017`, followed by anything that is not an octal digit, is −15. -/
example : AddressText bytes!" -0178" (2 ^ 64 - 15) := (C73_address_iff _ _).1 (by decide)
example : CNumber bytes!" -0178" (-15) :=
  ⟨[0x20], bytes!"-", bytes!"0178", 15, rfl, (by unfold White; decide),
    .octal bytes!"17" bytes!"8" 15 ⟨[1, 7], rfl, by decide, rfl⟩
      (by intro c hc x hx; cases hc; have : digitValue 0x38 = some 8 := by decide
          rw [this] at hx; cases hx; decide)
      (by intro x c r h; cases h; intro h; revert h; decide), Or.inr (Or.inr ⟨rfl, rfl⟩)⟩
/-- `0x` without digits is 0, and `0xg`; `0X1F` is 31. -/
example : baseAddress bytes!"0x" = .ok 0 ∧ baseAddress bytes!"0xg" = .ok 0 ∧ baseAddress bytes!"0X1F" = .ok 31 ∧
    baseAddress bytes!"010" = .ok 8 ∧ baseAddress bytes!"10" = .ok 10 := by decide
/-- 2^63 is an error. -/
example : baseAddress bytes!"9223372036854775808" = .err := by
  decide

/-- The sample grid of `C42` is described in this way too. -/
example (g : TileGrid) (h : GridValid g) : GridJson AddressText (gridObj g) g := (C73_grid _ _).1 (C42_round_trip g h)

end Verif.Props
