import Verif.Model.Frame
/-! The CRC loop as iteration of a linear map. -/
namespace Verif.Xc7

/-- One CRC step with a zero input bit. -/
def crcZ (x : BitVec 64) : BitVec 64 :=
  (x >>> 1) ^^^ (if x.getLsbD 0 then 0x82F63B78#64 else 0#64)

/-- `n` such steps. -/
def crcZn : Nat → BitVec 64 → BitVec 64
  | 0, x => x
  | n + 1, x => crcZn n (crcZ x)

theorem and_one64 (a : BitVec 64) : a &&& 1#64 = if a.getLsbD 0 then 1#64 else 0#64 := by
  apply BitVec.eq_of_getLsbD_eq
  intro i hi
  by_cases h0 : i = 0
  · subst h0; cases h : a.getLsbD 0 <;> simp [h] <;> simpa using h
  · cases a.getLsbD 0 <;> simp [h0]

theorem crcStep (val crc : BitVec 64) :
    (((if val &&& 1#64 ≠ crc &&& 1#64 then crc ^^^ crcPoly else crc) >>> 1) ^^^ (val >>> 1))
      = crcZ (crc ^^^ val) := by
  have hp : crcPoly >>> 1 = 0x82F63B78#64 := by decide
  rw [and_one64, and_one64]
  unfold crcZ
  rw [BitVec.ushiftRight_xor_distrib, BitVec.getLsbD_xor]
  cases hv : val.getLsbD 0 <;> cases hc : crc.getLsbD 0 <;>
    simp [BitVec.ushiftRight_xor_distrib, hp] <;> ac_rfl

theorem crcLoop_eq (n : Nat) : ∀ val crc : BitVec 64,
    (crcLoop n (val, crc)).2 ^^^ (val >>> n) = crcZn n (crc ^^^ val) := by
  induction n with
  | zero => intro val crc; simp [crcLoop, crcZn]
  | succ n ih =>
    intro val crc
    simp only [crcLoop, crcZn]
    have := ih (val >>> 1) ((if val &&& 1#64 ≠ crc &&& 1#64 then crc ^^^ crcPoly else crc) >>> 1)
    rw [crcStep, ← BitVec.shiftRight_add] at this
    rw [← this]
    congr 2; omega

theorem crcZ_xor (a b : BitVec 64) : crcZ (a ^^^ b) = crcZ a ^^^ crcZ b := by
  unfold crcZ
  rw [BitVec.ushiftRight_xor_distrib, BitVec.getLsbD_xor]
  cases a.getLsbD 0 <;> cases b.getLsbD 0 <;> simp
  · ac_rfl
  · ac_rfl
  · have : a >>> 1 ^^^ 2197175160#64 ^^^ (b >>> 1 ^^^ 2197175160#64) =
      (a >>> 1 ^^^ b >>> 1) ^^^ (2197175160#64 ^^^ 2197175160#64) := by ac_rfl
    rw [this]; simp

theorem crcZn_xor (n : Nat) : ∀ a b : BitVec 64, crcZn n (a ^^^ b) = crcZn n a ^^^ crcZn n b := by
  induction n with
  | zero => intros; rfl
  | succ n ih => intro a b; simp only [crcZn, crcZ_xor, ih]

theorem crcZ_lt (x : BitVec 64) (h : x.toNat < 2^32) : (crcZ x).toNat < 2^32 := by
  unfold crcZ
  rw [BitVec.toNat_xor]
  apply Nat.xor_lt_two_pow
  · rw [BitVec.toNat_ushiftRight, Nat.shiftRight_eq_div_pow]; omega
  · split <;> decide

theorem crcZ_eq_zero (x : BitVec 64) (h : x.toNat < 2^32) (hz : crcZ x = 0#64) : x = 0#64 := by
  unfold crcZ at hz
  cases hb : x.getLsbD 0
  · rw [hb] at hz
    simp at hz
    have h1 := congrArg BitVec.toNat hz
    rw [BitVec.toNat_ushiftRight, Nat.shiftRight_eq_div_pow] at h1
    simp at h1
    have h2 : x.toNat % 2 = 0 := by
      have : x.toNat.testBit 0 = false := hb
      simpa using this
    apply BitVec.eq_of_toNat_eq
    simp; omega
  · exfalso
    rw [hb] at hz
    have h1 := congrArg (fun y => BitVec.getLsbD y 31) hz
    simp only [BitVec.getLsbD_xor, BitVec.getLsbD_ushiftRight] at h1
    have h3 : x.getLsbD (1 + 31) = false := by
      unfold BitVec.getLsbD
      exact Nat.testBit_lt_two_pow (by omega)
    rw [h3] at h1
    revert h1; decide

theorem crcZn_eq_zero (n : Nat) : ∀ x : BitVec 64, x.toNat < 2^32 → crcZn n x = 0#64 → x = 0#64 := by
  induction n with
  | zero => intro x _ h; exact h
  | succ n ih =>
    intro x hx h
    exact crcZ_eq_zero x hx (ih _ (crcZ_lt x hx) h)

theorem crcZn_add (m n : Nat) : ∀ x, crcZn (m + n) x = crcZn n (crcZn m x) := by
  induction m with
  | zero => intro x; simp [crcZn]
  | succ m ih =>
    intro x
    have : m + 1 + n = (m + n) + 1 := by omega
    rw [this]; simp only [crcZn, ih]

theorem crcZn_shift (k : Nat) : ∀ x : BitVec 64, x.toNat * 2^k < 2^64 →
    crcZn k (x <<< k) = x := by
  induction k with
  | zero => intro x _; simp [crcZn]
  | succ k ih =>
    intro x hx
    have hx' : x.toNat * 2^k * 2 < 2^64 := by rw [Nat.pow_succ, ← Nat.mul_assoc] at hx; omega
    have hz : crcZ (x <<< (k + 1)) = x <<< k := by
      unfold crcZ
      have h0 : (x <<< (k + 1)).getLsbD 0 = false := by simp
      rw [h0]
      apply BitVec.eq_of_toNat_eq
      simp only [Bool.false_eq_true, if_false, BitVec.xor_zero, BitVec.toNat_ushiftRight,
        BitVec.toNat_shiftLeft, Nat.shiftLeft_eq, Nat.shiftRight_eq_div_pow]
      rw [Nat.mod_eq_of_lt hx, Nat.mod_eq_of_lt (by omega), Nat.pow_succ, ← Nat.mul_assoc]
      omega
    simp only [crcZn, hz]
    exact ih x (by omega)

/-- The 37-bit message of one CRC step. -/
def crcMsg (addr data : Word) : BitVec 64 := (addr.setWidth 64 <<< 32) ||| data.setWidth 64

theorem crcMsg_toNat (addr data : Word) (h : addr.toNat < 32) :
    (crcMsg addr data).toNat = addr.toNat * 2^32 + data.toNat := by
  have hd := data.isLt
  have e : (crcMsg addr data).toNat = (addr.toNat <<< 32 % 2^64) ||| data.toNat := by
    simp [crcMsg, BitVec.toNat_or, BitVec.toNat_shiftLeft]
    rw [Nat.mod_eq_of_lt (a := data.toNat) (by omega),
      Nat.mod_eq_of_lt (a := addr.toNat) (b := 18446744073709551616) (by omega)]
  rw [e, Nat.shiftLeft_eq, Nat.mod_eq_of_lt (by omega), ← Nat.shiftLeft_eq,
    Nat.shiftLeft_add_eq_or_of_lt hd, ]

theorem crcZn_lt (n : Nat) : ∀ x : BitVec 64, x.toNat < 2^32 → (crcZn n x).toNat < 2^32 := by
  induction n with
  | zero => intro x h; exact h
  | succ n ih => intro x h; exact ih _ (crcZ_lt x h)

/-- Closed form of the CRC step. -/
theorem icapCRC_eq (addr data prev : Word) (h : addr.toNat < 32) :
    icapCRC addr data prev =
      (crcZn 37 (prev.setWidth 64 ^^^ crcMsg addr data)).setWidth 32 := by
  have h1 := crcLoop_eq 37 (crcMsg addr data) (prev.setWidth 64)
  have h2 : crcMsg addr data >>> 37 = 0#64 := by
    apply BitVec.eq_of_toNat_eq
    have hd := data.isLt
    rw [BitVec.toNat_ushiftRight, crcMsg_toNat addr data h, Nat.shiftRight_eq_div_pow]
    simp; omega
  rw [h2, BitVec.xor_zero] at h1
  unfold icapCRC
  rw [← h1]; rfl

/-- Values that the 37 steps keep inside 32 bits. -/
theorem crcZn37_lt (x : BitVec 64) (hx : x.toNat < 2^37) : (crcZn 37 x).toNat < 2^32 := by
  -- split off the part above bit 32
  have hs : ∀ y : BitVec 64, ∀ k, y.toNat < 2^(32+k) → (crcZn k y).toNat < 2^32 := by
    intro y k
    induction k generalizing y with
    | zero => intro h; exact h
    | succ k ih =>
      intro h
      simp only [crcZn]
      apply ih
      unfold crcZ
      rw [BitVec.toNat_xor]
      apply Nat.xor_lt_two_pow
      · rw [BitVec.toNat_ushiftRight, Nat.shiftRight_eq_div_pow]
        have : 2^(32 + (k+1)) = 2^(32+k) * 2 := by rw [← Nat.pow_succ]; congr 1
        omega
      · have : 2^32 ≤ 2^(32+k) := Nat.pow_le_pow_right (by omega) (by omega)
        split
        · exact Nat.lt_of_lt_of_le (by decide) this
        · exact Nat.lt_of_lt_of_le (by decide) this
  have : crcZn 37 x = crcZn 32 (crcZn 5 x) := crcZn_add 5 32 x
  rw [this]
  exact crcZn_lt 32 _ (hs x 5 hx)

end Verif.Xc7
