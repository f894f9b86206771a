import Verif.Model.BitOps
/-! Helper lemmas about bit fields. -/
namespace Verif.BitOps

theorem getLsbD_allOnes_sub (w b i : Nat) (hb : b < w) :
    (bitAllOnes w - bitMask w b + 1#w).getLsbD i = (decide (b ≤ i) && decide (i < w)) := by
  have h1 : (bitAllOnes w - bitMask w b + 1#w) = BitVec.ofNat w (2^w - 2^b) := by
    apply BitVec.eq_of_toNat_eq
    have hlt : 2^b < 2^w := Nat.pow_lt_pow_right (by omega) hb
    have hpos : 0 < 2^b := Nat.two_pow_pos b
    have h1 : (1 : Nat) < 2^w := Nat.one_lt_two_pow (by omega)
    simp only [bitAllOnes, bitMask, BitVec.toNat_add, BitVec.toNat_sub, BitVec.toNat_shiftLeft,
      BitVec.toNat_ofNat, BitVec.toNat_not, Nat.zero_mod, Nat.shiftLeft_eq, Nat.mod_eq_of_lt h1,
      Nat.one_mul, Nat.mod_eq_of_lt hlt]
    rw [Nat.mod_eq_of_lt (a := 2^w - 2^b) (by omega)]
    have : 2 ^ w - 2 ^ b + (2 ^ w - 1 - 0) = 2^w + (2^w - 2^b - 1) := by omega
    rw [this, Nat.add_mod_left, Nat.mod_eq_of_lt (a := 2^w - 2^b - 1) (by omega)]
    have h5 : 2^w - 2^b - 1 + 1 = 2^w - 2^b := by omega
    rw [h5, Nat.mod_eq_of_lt (a := 2^w - 2^b) (by omega)]
  rw [h1, BitVec.getLsbD_ofNat]
  have hpos : 0 < 2^b := Nat.two_pow_pos b
  have h2 : 2^w - 2^b = 2^w - ((2^b - 1) + 1) := by omega
  have hlt : 2^b < 2^w := Nat.pow_lt_pow_right (by omega) hb
  rw [h2, Nat.testBit_two_pow_sub_succ (by omega)]
  by_cases hi : i < w <;> by_cases hbi : b ≤ i <;> simp [hi, hbi] <;> omega

theorem getLsbD_maskRange (w t b i : Nat) (hbt : b ≤ t) (ht : t < w) :
    (bitMaskRange w t b).getLsbD i = (decide (b ≤ i) && decide (i ≤ t)) := by
  rw [bitMaskRange, BitVec.getLsbD_and, getLsbD_allOnes_sub w b i (by omega)]
  simp only [BitVec.getLsbD_ushiftRight, bitAllOnes, BitVec.getLsbD_not, BitVec.getLsbD_zero]
  by_cases h1 : b ≤ i <;> by_cases h2 : i ≤ t <;> simp [h1, h2] <;> omega

theorem getLsbD_bitFieldGet {w : Nat} (v : BitVec w) (t b i : Nat) (hbt : b ≤ t) (ht : t < w) :
    (bitFieldGet v t b).getLsbD i = (decide (i ≤ t - b) && v.getLsbD (b + i)) := by
  rw [bitFieldGet, BitVec.getLsbD_ushiftRight, BitVec.getLsbD_and, getLsbD_maskRange _ _ _ _ hbt ht]
  by_cases h : i ≤ t - b
  · have : b + i ≤ t := by omega
    simp [h, this]
  · have : ¬ (b + i ≤ t) := by omega
    simp [h, this]

theorem getLsbD_bitFieldSet {w : Nat} (r f : BitVec w) (t b i : Nat) (hbt : b ≤ t) (ht : t < w) :
    (bitFieldSet r t b f).getLsbD i =
      if b ≤ i ∧ i ≤ t then f.getLsbD (i - b) else r.getLsbD i := by
  rw [bitFieldSet, BitVec.getLsbD_or, BitVec.getLsbD_and, BitVec.getLsbD_and, BitVec.getLsbD_not,
    getLsbD_maskRange _ _ _ _ hbt ht, BitVec.getLsbD_shiftLeft]
  by_cases hiw : i < w
  · by_cases h1 : b ≤ i <;> by_cases h2 : i ≤ t <;> simp [h1, h2, hiw] <;> omega
  · have : ¬ (i ≤ t) := by omega
    simp [hiw, this]
    exact BitVec.getLsbD_of_ge r i (by omega)

/-- Numeric meaning of reading a field. -/
theorem toNat_bitFieldGet {w : Nat} (v : BitVec w) (t b : Nat) (hbt : b ≤ t) (ht : t < w) :
    (bitFieldGet v t b).toNat = v.toNat / 2^b % 2^(t - b + 1) := by
  apply Nat.eq_of_testBit_eq
  intro i
  have := getLsbD_bitFieldGet v t b i hbt ht
  simp only [BitVec.getLsbD] at this
  rw [this, Nat.testBit_mod_two_pow, Nat.testBit_div_two_pow]
  by_cases h : i ≤ t - b
  · have : i < t - b + 1 := by omega
    simp [h, this, Nat.add_comm]
  · have : ¬ (i < t - b + 1) := by omega
    simp [h, this]

/-- Numeric meaning of writing a field. -/
theorem toNat_bitFieldSet {w : Nat} (r f : BitVec w) (t b : Nat) (hbt : b ≤ t) (ht : t < w) :
    (bitFieldSet r t b f).toNat =
      r.toNat / 2^(t+1) * 2^(t+1) + (f.toNat % 2^(t - b + 1)) * 2^b + r.toNat % 2^b := by
  apply Nat.eq_of_testBit_eq
  intro i
  have h0 := getLsbD_bitFieldSet r f t b i hbt ht
  simp only [BitVec.getLsbD] at h0
  rw [h0]
  have e : r.toNat / 2^(t+1) * 2^(t+1) + (f.toNat % 2^(t - b + 1)) * 2^b + r.toNat % 2^b
      = 2^b * (2^(t-b+1) * (r.toNat / 2^(t+1)) + f.toNat % 2^(t - b + 1)) + r.toNat % 2^b := by
    have : 2^(t+1) = 2^b * 2^(t-b+1) := by rw [← Nat.pow_add]; congr 1; omega
    rw [Nat.mul_add, ← Nat.mul_assoc, ← this, Nat.mul_comm (2^(t+1)), Nat.mul_comm (2^b) (_ % _)]
  rw [e, Nat.testBit_two_pow_mul_add _ (Nat.mod_lt _ (Nat.two_pow_pos b))]
  by_cases h1 : i < b
  · have h2 : ¬ (b ≤ i) := by omega
    simp [h1, h2, Nat.testBit_mod_two_pow]
  · rw [if_neg h1, Nat.testBit_two_pow_mul_add _ (Nat.mod_lt _ (Nat.two_pow_pos _))]
    by_cases h2 : i ≤ t
    · have h3 : i - b < t - b + 1 := by omega
      have h4 : b ≤ i := by omega
      rw [if_pos ⟨h4, h2⟩, if_pos h3, Nat.testBit_mod_two_pow]
      simp [h3]
    · have h3 : ¬ (i - b < t - b + 1) := by omega
      rw [if_neg (by omega), if_neg h3, Nat.testBit_div_two_pow]
      congr 1; omega

end Verif.BitOps
