import Verif.Proofs.FrameAddress
import Verif.Spec.Address
/-! # C01 bit fields, C02 frame address packing, C03 frame address order -/
namespace Verif.Props
open Verif.BitOps Verif.Xc7 Verif.Spec

/-! ## C01 -/

/-- Reading back a written field gives the written value truncated to the field width. -/
theorem C01_get_set {w : Nat} (reg field : BitVec w) (top bottom : Nat)
    (hbt : bottom ≤ top) (ht : top < w) :
    (bitFieldGet (bitFieldSet reg top bottom field) top bottom).toNat
      = field.toNat % 2 ^ (top - bottom + 1) := by
  apply Nat.eq_of_testBit_eq
  intro i
  have h1 := getLsbD_bitFieldGet (bitFieldSet reg top bottom field) top bottom i hbt ht
  have h2 := getLsbD_bitFieldSet reg field top bottom (bottom + i) hbt ht
  simp only [BitVec.getLsbD] at h1 h2
  rw [h1, h2, Nat.testBit_mod_two_pow]
  by_cases h : i ≤ top - bottom
  · have h3 : i < top - bottom + 1 := by omega
    have h4 : bottom + i ≤ top := by omega
    simp [h, h3, h4]
  · have h3 : ¬ i < top - bottom + 1 := by omega
    simp [h, h3]

/-- A write changes no bit outside the field. -/
theorem C01_set_outside {w : Nat} (reg field : BitVec w) (top bottom i : Nat)
    (hbt : bottom ≤ top) (ht : top < w) (hi : i < bottom ∨ top < i) :
    (bitFieldSet reg top bottom field).getLsbD i = reg.getLsbD i := by
  rw [getLsbD_bitFieldSet _ _ _ _ _ hbt ht, if_neg (by omega)]

/-- A write stores bit `i` of the value at position `bottom + i`. -/
theorem C01_set_inside {w : Nat} (reg field : BitVec w) (top bottom i : Nat)
    (hbt : bottom ≤ top) (ht : top < w) (hi : bottom + i ≤ top) :
    (bitFieldSet reg top bottom field).getLsbD (bottom + i) = field.getLsbD i := by
  rw [getLsbD_bitFieldSet _ _ _ _ _ hbt ht, if_pos (by omega)]; congr 1; omega

/-- The last write to a field wins. -/
theorem C01_set_set {w : Nat} (reg f g : BitVec w) (top bottom : Nat)
    (hbt : bottom ≤ top) (ht : top < w) :
    bitFieldSet (bitFieldSet reg top bottom f) top bottom g = bitFieldSet reg top bottom g := by
  apply BitVec.eq_of_getLsbD_eq
  intro i _
  simp only [getLsbD_bitFieldSet _ _ _ _ _ hbt ht]
  split <;> rfl

/-- Reading a field is division and remainder by powers of two. -/
theorem C01_get_value {w : Nat} (v : BitVec w) (top bottom : Nat)
    (hbt : bottom ≤ top) (ht : top < w) :
    (bitFieldGet v top bottom).toNat = v.toNat / 2 ^ bottom % 2 ^ (top - bottom + 1) :=
  toNat_bitFieldGet v top bottom hbt ht

/-- Writes to disjoint fields commute. -/
theorem C01_set_comm {w : Nat} (reg f g : BitVec w) (t b t' b' : Nat)
    (h1 : b ≤ t) (h2 : t < b') (h3 : b' ≤ t') (h4 : t' < w) :
    bitFieldSet (bitFieldSet reg t b f) t' b' g = bitFieldSet (bitFieldSet reg t' b' g) t b f := by
  apply BitVec.eq_of_getLsbD_eq
  intro i _
  rw [getLsbD_bitFieldSet _ _ _ _ _ h3 h4, getLsbD_bitFieldSet _ _ _ _ _ h1 (by omega),
    getLsbD_bitFieldSet _ _ _ _ _ h1 (by omega), getLsbD_bitFieldSet _ _ _ _ _ h3 h4]
  by_cases c1 : b' ≤ i ∧ i ≤ t'
  · have c2 : ¬ (b ≤ i ∧ i ≤ t) := by omega
    simp [c1, c2]
  · simp [c1]

/-- Non-vacuity: bits 12..5 of a 32-bit register. -/
example : 5 ≤ 12 ∧ 12 < 32 ∧
    bitFieldGet (bitFieldSet 0xFFFFFFFF#32 12 5 0x1A5#32) 12 5 = 0xA5#32 := by decide

/-! ## C02 -/

/-- The address the code builds for a coordinate (arguments converted to the C++ parameter types). -/
def addressOf (c : Coord) : FrameAddress :=
  FrameAddress.make (BitVec.ofNat 32 c.block) c.bottom (BitVec.ofNat 8 c.row)
    (BitVec.ofNat 16 c.column) (BitVec.ofNat 8 c.minor)

/-- The coordinate the code's five accessors report for an address. -/
def coordOf (a : FrameAddress) : Coord :=
  { block := (FrameAddress.blockType a).toNat, bottom := FrameAddress.isBottom a,
    row := (FrameAddress.row a).toNat, column := (FrameAddress.column a).toNat,
    minor := (FrameAddress.minor a).toNat }

theorem toNat_addressOf (c : Coord) (h : c.InRange) :
    (addressOf c).toNat =
      c.block * 2^23 + c.bottom.toNat * 2^22 + c.row * 2^17 + c.column * 2^7 + c.minor := by
  obtain ⟨h1, h2, h3, h4⟩ := h
  rw [addressOf, FrameAddress.toNat_make _ _ _ _ _ (by simp; omega)]
  simp only [BitVec.toNat_ofNat]
  rw [Nat.mod_eq_of_lt (by omega : c.block < 2^32), Nat.mod_eq_of_lt (by omega : c.row < 2^8),
    Nat.mod_eq_of_lt (by omega : c.column < 2^16), Nat.mod_eq_of_lt (by omega : c.minor < 2^8),
    Nat.mod_eq_of_lt h2, Nat.mod_eq_of_lt h3, Nat.mod_eq_of_lt h4]

/-- Unpacking a packed coordinate returns it. -/
theorem C02_coord_round_trip (c : Coord) (h : c.InRange) : coordOf (addressOf c) = c := by
  have e := toNat_addressOf c h
  obtain ⟨h1, h2, h3, h4⟩ := h
  have hb : c.bottom.toNat < 2 := Bool.toNat_lt _
  obtain ⟨blk, bot, r, col, mi⟩ := c
  simp only at *
  simp only [coordOf, FrameAddress.toNat_blockType, FrameAddress.toNat_row,
    FrameAddress.toNat_column, FrameAddress.toNat_minor, FrameAddress.isBottom_eq, e]
  congr 1
  · omega
  · cases bot <;> simp at * <;> omega
  · omega
  · omega
  · omega

/-- For *any* arguments of the C++ parameter types, with a block type below 8, every accessor
returns its argument truncated to the width of its field. -/
theorem C02_accessors_truncate (b : BlockType) (half : Bool) (r : BitVec 8) (c : BitVec 16)
    (m : BitVec 8) (hb : b.toNat < 8) :
    coordOf (FrameAddress.make b half r c m) =
      ⟨b.toNat, half, r.toNat % 32, c.toNat % 1024, m.toNat % 128⟩ := by
  have e := FrameAddress.toNat_make b half r c m hb
  have hh : half.toNat < 2 := Bool.toNat_lt _
  simp only [coordOf, FrameAddress.toNat_blockType, FrameAddress.toNat_row,
    FrameAddress.toNat_column, FrameAddress.toNat_minor, FrameAddress.isBottom_eq, e]
  congr 1
  · omega
  · cases half <;> simp at * <;> omega
  · omega
  · omega
  · omega

/-- The accessors always report an in-range coordinate. -/
theorem C02_coordOf_inRange (a : FrameAddress) : (coordOf a).InRange := by
  simp only [Coord.InRange, coordOf, FrameAddress.toNat_blockType, FrameAddress.toNat_row,
    FrameAddress.toNat_column, FrameAddress.toNat_minor]
  omega

/-- Repacking the accessors of any address gives its low 26 bits. -/
theorem C02_address_round_trip (a : FrameAddress) :
    (addressOf (coordOf a)).toNat = a.toNat % 2^26 := by
  rw [toNat_addressOf _ (C02_coordOf_inRange a)]
  simp only [coordOf, FrameAddress.toNat_blockType, FrameAddress.toNat_row,
    FrameAddress.toNat_column, FrameAddress.toNat_minor, FrameAddress.isBottom_eq]
  by_cases hb : a.toNat / 2^22 % 2 = 1
  · simp only [hb, decide_true, Bool.toNat_true]; omega
  · simp only [hb, decide_false, Bool.toNat_false]; omega

/-- Two in-range coordinates never share an address. -/
theorem C02_injective (c d : Coord) (hc : c.InRange) (hd : d.InRange)
    (h : addressOf c = addressOf d) : c = d := by
  rw [← C02_coord_round_trip c hc, ← C02_coord_round_trip d hd, h]

/-- Finding: outside the defined block types the signed first `bit_field_set` spills above bit 25:
`kInvalid` sets bits 26-31, so the raw word differs from the 26-bit layout although the accessors
still agree. -/
theorem C02_invalid_block_spills :
    (FrameAddress.make kInvalid false 0#8 0#16 0#8).toNat = 0xFF800000 ∧
    coordOf (FrameAddress.make kInvalid false 0#8 0#16 0#8) = ⟨7, false, 0, 0, 0⟩ := by decide

example : (⟨1, true, 3, 45, 127⟩ : Coord).InRange ∧
    addressOf ⟨1, true, 3, 45, 127⟩ = 0x00C616FF#32 := by decide

/-! ## C03 -/

/-- Numeric order of addresses is the lexicographic order of coordinates. -/
theorem C03_order (c d : Coord) (hc : c.InRange) (hd : d.InRange) :
    (addressOf c).toNat < (addressOf d).toNat ↔ c.lt d := by
  rw [toNat_addressOf c hc, toNat_addressOf d hd]
  obtain ⟨h1, h2, h3, h4⟩ := hc
  obtain ⟨g1, g2, g3, g4⟩ := hd
  obtain ⟨blk, bot, r, col, mi⟩ := c
  obtain ⟨blk', bot', r', col', mi'⟩ := d
  simp only [Coord.lt] at *
  cases bot <;> cases bot' <;> simp <;> omega

/-- The same for any two 26-bit address words, via the accessors. -/
theorem C03_order_words (a b : FrameAddress) (ha : a.toNat < 2^26) (hb : b.toNat < 2^26) :
    a < b ↔ (coordOf a).lt (coordOf b) := by
  rw [← C03_order _ _ (C02_coordOf_inRange a) (C02_coordOf_inRange b), C02_address_round_trip,
    C02_address_round_trip, Nat.mod_eq_of_lt ha, Nat.mod_eq_of_lt hb, BitVec.lt_def]

example : (⟨0, true, 31, 1023, 127⟩ : Coord).InRange ∧ (⟨1, false, 0, 0, 0⟩ : Coord).InRange ∧
    (⟨0, true, 31, 1023, 127⟩ : Coord).lt ⟨1, false, 0, 0, 0⟩ := by
  refine ⟨by decide, by decide, Or.inl (by decide)⟩

end Verif.Props
