import Verif.Model.Frame
import Verif.Proofs.BitOps
/-! Numeric normal forms of frame addresses. -/
namespace Verif.Xc7.FrameAddress
open Verif.BitOps

theorem toNat_blockType (a : FrameAddress) : (blockType a).toNat = a.toNat / 2^23 % 2^3 :=
  toNat_bitFieldGet a 25 23 (by decide) (by decide)

theorem isBottom_eq (a : FrameAddress) : isBottom a = decide (a.toNat / 2^22 % 2 = 1) := by
  have h := toNat_bitFieldGet a 22 22 (by decide) (by decide)
  unfold isBottom
  by_cases h1 : a.toNat / 2^22 % 2 = 1
  · simp only [h1, decide_true]
    simp only [bne_iff_ne, ne_eq]
    intro h2; rw [h2] at h; simp at h; omega
  · simp only [h1, decide_false]
    simp only [bne_eq_false_iff_eq]
    apply BitVec.eq_of_toNat_eq
    rw [h]; simp; omega

theorem toNat_row (a : FrameAddress) : (row a).toNat = a.toNat / 2^17 % 2^5 := by
  have h := toNat_bitFieldGet a 21 17 (by decide) (by decide)
  simp only [row, BitVec.toNat_setWidth, h]; omega

theorem toNat_column (a : FrameAddress) : (column a).toNat = a.toNat / 2^7 % 2^10 := by
  have h := toNat_bitFieldGet a 16 7 (by decide) (by decide)
  simp only [column, BitVec.toNat_setWidth, h]; omega

theorem toNat_minor (a : FrameAddress) : (minor a).toNat = a.toNat % 2^7 := by
  have h := toNat_bitFieldGet a 6 0 (by decide) (by decide)
  simp only [minor, BitVec.toNat_setWidth, h]; omega

theorem toNat_setInt (b : BlockType) (hb : b.toNat < 8) :
    (bitFieldSetInt 0#32 25 23 b).toNat = b.toNat * 2^23 := by
  have hm : bitMaskRangeInt 25 23 = 0xFF800000#32 := by decide
  have hb' : b = BitVec.ofNat 32 b.toNat := by simp
  have : b.toNat = 0 ∨ b.toNat = 1 ∨ b.toNat = 2 ∨ b.toNat = 3 ∨ b.toNat = 4 ∨ b.toNat = 5 ∨
    b.toNat = 6 ∨ b.toNat = 7 := by omega
  rcases this with h | h | h | h | h | h | h | h <;> (rw [h] at hb'; subst hb'; decide)

/-- Numeric value of a constructed address. -/
theorem toNat_make (b : BlockType) (h : Bool) (r : BitVec 8) (c : BitVec 16) (m : BitVec 8)
    (hb : b.toNat < 8) :
    (make b h r c m).toNat =
      b.toNat * 2^23 + h.toNat * 2^22 + (r.toNat % 32) * 2^17 + (c.toNat % 1024) * 2^7
        + m.toNat % 128 := by
  have h0 := toNat_setInt b hb
  have hr := r.isLt
  have hc := c.isLt
  have hm := m.isLt
  have hh : h.toNat < 2 := Bool.toNat_lt h
  simp only [make]
  rw [toNat_bitFieldSet _ _ 6 0 (by decide) (by decide),
    toNat_bitFieldSet _ _ 16 7 (by decide) (by decide),
    toNat_bitFieldSet _ _ 21 17 (by decide) (by decide),
    toNat_bitFieldSet _ _ 22 22 (by decide) (by decide), h0]
  simp only [BitVec.toNat_setWidth, BitVec.toNat_ofNat]
  have e1 : h.toNat % 2^32 = h.toNat := Nat.mod_eq_of_lt (by omega)
  have e2 : r.toNat % 2^32 = r.toNat := Nat.mod_eq_of_lt (by omega)
  have e3 : c.toNat % 2^32 = c.toNat := Nat.mod_eq_of_lt (by omega)
  have e4 : m.toNat % 2^32 = m.toNat := Nat.mod_eq_of_lt (by omega)
  rw [e1, e2, e3, e4]
  omega

end Verif.Xc7.FrameAddress
