import Verif.Proofs.Crc
import Verif.Spec.Crc
import Mathlib.Tactic.Ring
import Mathlib.Tactic.LinearCombination
/-! The CRC register as a remainder modulo the Castagnoli polynomial. -/
namespace Verif.Xc7
open Verif.Spec Polynomial

/-- A coefficient. -/
noncomputable def bit (b : Bool) : (ZMod 2)[X] := if b then 1 else 0

theorem two_zero (p : (ZMod 2)[X]) : p + p = 0 := CharTwo.add_self_eq_zero p

theorem bit_xor (a b : Bool) : bit (a ^^ b) = bit a + bit b := by
  cases a <;> cases b <;> simp [bit]
  exact (two_zero 1).symm

theorem polyOf_foldl (l : List Bool) : ∀ p : (ZMod 2)[X],
    l.foldl (fun p b => X * p + if b then 1 else 0) p = X^l.length * p + polyOf l := by
  induction l with
  | nil => intro p; simp [polyOf]
  | cons b l ih =>
    intro p
    unfold polyOf
    rw [List.foldl_cons, ih, List.foldl_cons, ih (X * 0 + _), List.length_cons]
    ring

theorem polyOf_nil : polyOf [] = 0 := rfl

theorem polyOf_append (a b : List Bool) : polyOf (a ++ b) = X^b.length * polyOf a + polyOf b := by
  unfold polyOf
  rw [List.foldl_append, polyOf_foldl]
  rfl

theorem polyOf_snoc (a : List Bool) (b : Bool) : polyOf (a ++ [b]) = X * polyOf a + bit b := by
  rw [polyOf_append]; simp [polyOf, bit]

theorem polyOf_cons (b : Bool) (l : List Bool) : polyOf (b :: l) = X^l.length * bit b + polyOf l := by
  have := polyOf_append [b] l
  simpa [polyOf, bit] using this

theorem polyOf_zipWith_xor : ∀ (a b : List Bool), a.length = b.length →
    polyOf (List.zipWith (· ^^ ·) a b) = polyOf a + polyOf b := by
  intro a
  induction a with
  | nil => intro b h; cases b <;> simp_all [polyOf]
  | cons x xs ih =>
    intro b h
    cases b with
    | nil => simp at h
    | cons y ys =>
      simp only [List.length_cons, Nat.add_right_cancel_iff] at h
      rw [List.zipWith_cons_cons, polyOf_cons, polyOf_cons, polyOf_cons, ih ys h, bit_xor,
        List.length_zipWith, h, Nat.min_self]
      ring

theorem degree_polyOf (l : List Bool) : (polyOf l).degree < l.length := by
  induction l with
  | nil => rw [polyOf_nil, degree_zero]; exact WithBot.bot_lt_coe _
  | cons b l ih =>
    rw [polyOf_cons, List.length_cons]
    refine lt_of_le_of_lt (degree_add_le _ _) (max_lt ?_ (lt_trans ih ?_))
    · cases b
      · simp [bit]
      · simp only [bit, if_true, mul_one, degree_X_pow]
        exact_mod_cast Nat.lt_succ_self _
    · exact_mod_cast Nat.lt_succ_self _

/-- The low part of the generator, as 32 coefficients. -/
def genBits : List Bool := lsbFirst 32 0x82F63B78#32

theorem genBits_eq : genBits =
    [false, false, false, true, true, true, true, false, true, true, false, true, true, true, false,
     false, false, true, true, false, true, true, true, true, false, true, false, false, false, false,
     false, true] := by decide

theorem castagnoli_eq : castagnoli = X^32 + polyOf genBits := by
  rw [genBits_eq]
  unfold castagnoli polyOf
  simp only [List.foldl_cons, List.foldl_nil, if_true, Bool.false_eq_true, if_false]
  ring

theorem castagnoli_monic : castagnoli.Monic := by
  rw [castagnoli_eq]
  apply monic_X_pow_add
  exact degree_polyOf genBits

theorem degree_castagnoli : castagnoli.degree = 32 := by
  rw [castagnoli_eq]
  rw [degree_add_eq_left_of_degree_lt]
  · simp
  · rw [degree_X_pow]; exact degree_polyOf genBits

/-- The low 32 bits of a 64-bit register. -/
def low32 (x : BitVec 64) : List Bool := (List.range 32).map x.getLsbD

/-- One CRC step with input bit `m`. -/
def crcBit (x : BitVec 64) (m : Bool) : BitVec 64 := crcZ (x ^^^ if m then 1#64 else 0#64)

theorem getLsbD_crcZ (x : BitVec 64) (i : Nat) :
    (crcZ x).getLsbD i = (x.getLsbD (i + 1) ^^ (x.getLsbD 0 && (0x82F63B78#64).getLsbD i)) := by
  unfold crcZ
  rw [BitVec.getLsbD_xor, BitVec.getLsbD_ushiftRight, Nat.add_comm 1 i]
  cases x.getLsbD 0 <;> simp

theorem low32_eq (x : BitVec 64) :
    low32 x = x.getLsbD 0 :: (List.range 31).map (fun i => x.getLsbD (i + 1)) := by
  unfold low32
  rw [List.range_succ_eq_map]
  simp [List.map_map, Function.comp_def]

theorem low32_crcZ (x : BitVec 64) (hx : x.toNat < 2^32) :
    low32 (crcZ x) = List.zipWith (· ^^ ·)
      ((List.range 31).map (fun i => x.getLsbD (i + 1)) ++ [false])
      (genBits.map (x.getLsbD 0 && ·)) := by
  have h32 : x.getLsbD 32 = false := by
    unfold BitVec.getLsbD; exact Nat.testBit_lt_two_pow hx
  have e : (List.range 31).map (fun i => x.getLsbD (i + 1)) ++ [false] =
      (List.range 32).map (fun i => x.getLsbD (i + 1)) := by
    rw [List.range_succ (n := 31), List.map_append, List.map_singleton, h32]
  rw [e]
  unfold low32 genBits lsbFirst
  rw [List.map_map, List.zipWith_map, List.zipWith_self]
  apply List.map_congr_left
  intro i hi
  rw [getLsbD_crcZ]
  have : ∀ i, i < 32 → (0x82F63B78#64).getLsbD i = (0x82F63B78#32).getLsbD i := by decide
  simp only [Function.comp]
  rw [this i (List.mem_range.1 hi)]

theorem polyOf_mask (b : Bool) (l : List Bool) : polyOf (l.map (b && ·)) = bit b * polyOf l := by
  induction l with
  | nil => simp [polyOf]
  | cons x l ih =>
    rw [List.map_cons, polyOf_cons, polyOf_cons, ih, List.length_map]
    cases b <;> cases x <;> simp [bit]

theorem polyOf_crcZ (x : BitVec 64) (hx : x.toNat < 2^32) :
    polyOf (low32 (crcZ x)) = X * polyOf (low32 x) + bit (x.getLsbD 0) * castagnoli := by
  rw [low32_crcZ x hx, polyOf_zipWith_xor _ _ (by simp [genBits, lsbFirst]), polyOf_snoc, polyOf_mask,
    low32_eq, polyOf_cons, castagnoli_eq]
  simp only [List.length_map, List.length_range]
  have h := two_zero (X^32 * bit (x.getLsbD 0))
  have h0 : bit false = 0 := rfl
  rw [h0]
  linear_combination -h

theorem polyOf_crcBit (x : BitVec 64) (hx : x.toNat < 2^32) (m : Bool) :
    ∃ q, polyOf (low32 (crcBit x m)) = X * polyOf (low32 x) + X^32 * bit m + castagnoli * q := by
  have hm : (x ^^^ if m then 1#64 else 0#64).toNat < 2^32 := by
    rw [BitVec.toNat_xor]
    apply Nat.xor_lt_two_pow hx
    cases m <;> decide
  refine ⟨bit ((x ^^^ if m then 1#64 else 0#64).getLsbD 0), ?_⟩
  unfold crcBit
  rw [polyOf_crcZ _ hm]
  have h1 : low32 (x ^^^ if m then 1#64 else 0#64) =
      List.zipWith (· ^^ ·) (low32 x) (m :: List.replicate 31 false) := by
    have e : m :: List.replicate 31 false =
        (List.range 32).map (if m then 1#64 else 0#64).getLsbD := by
      cases m <;> decide
    rw [e]
    unfold low32
    rw [List.zipWith_map, List.zipWith_self]
    apply List.map_congr_left
    intro i _
    rw [BitVec.getLsbD_xor]
  have hz : polyOf (List.replicate 31 false) = 0 := by
    have : ∀ n, polyOf (List.replicate n false) = 0 := by
      intro n
      induction n with
      | zero => rfl
      | succ n ih => rw [List.replicate_succ, polyOf_cons, ih]; simp [bit]
    exact this 31
  rw [h1, polyOf_zipWith_xor _ _ (by simp [low32]), polyOf_cons, hz, List.length_replicate]
  ring

theorem crcBit_lt (x : BitVec 64) (m : Bool) (hx : x.toNat < 2^32) : (crcBit x m).toNat < 2^32 := by
  apply crcZ_lt
  rw [BitVec.toNat_xor]
  apply Nat.xor_lt_two_pow hx
  cases m <;> decide

theorem polyOf_serial (ms : List Bool) : ∀ x : BitVec 64, x.toNat < 2^32 →
    (ms.foldl crcBit x).toNat < 2^32 ∧
    ∃ q, polyOf (low32 (ms.foldl crcBit x)) =
      X^ms.length * polyOf (low32 x) + X^32 * polyOf ms + castagnoli * q := by
  induction ms with
  | nil => intro x hx; exact ⟨hx, 0, by simp [polyOf_nil]⟩
  | cons m ms ih =>
    intro x hx
    obtain ⟨h1, q, hq⟩ := ih (crcBit x m) (crcBit_lt x m hx)
    obtain ⟨r, hr⟩ := polyOf_crcBit x hx m
    refine ⟨h1, X^ms.length * r + q, ?_⟩
    rw [List.foldl_cons, hq, hr, polyOf_cons, List.length_cons]
    ring

theorem crcZn_serial (n : Nat) : ∀ x v : BitVec 64, v.toNat < 2^n →
    crcZn n (x ^^^ v) = ((List.range n).map v.getLsbD).foldl crcBit x := by
  induction n with
  | zero =>
    intro x v h
    have : v = 0#64 := BitVec.eq_of_toNat_eq (by simp; omega)
    subst this; simp [crcZn]
  | succ n ih =>
    intro x v h
    have hv : crcZ (x ^^^ v) = crcBit x (v.getLsbD 0) ^^^ (v >>> 1) := by
      unfold crcBit
      rw [crcZ_xor, crcZ_xor, BitVec.xor_assoc]
      congr 1
      conv => lhs; unfold crcZ
      cases v.getLsbD 0
      · have : crcZ 0#64 = 0#64 := by decide
        simp [this]
      · have : crcZ 1#64 = 0x82F63B78#64 := by decide
        simp only [if_true, this]
        rw [BitVec.xor_comm]
    have hs : (v >>> 1).toNat < 2^n := by
      rw [BitVec.toNat_ushiftRight, Nat.shiftRight_eq_div_pow]
      rw [Nat.pow_succ] at h; omega
    rw [crcZn, hv, ih _ _ hs, List.range_succ_eq_map, List.map_cons, List.foldl_cons, List.map_map]
    congr 1
    apply List.map_congr_left
    intro i _
    simp [BitVec.getLsbD_ushiftRight, Nat.add_comm]

theorem bits_crcMsg (a d : Word) :
    (List.range 37).map (crcMsg a d).getLsbD = lsbFirst 32 d ++ lsbFirst 5 a := by
  have e : List.range 37 = List.range 32 ++ (List.range 5).map (32 + ·) := by decide
  rw [e, List.map_append, List.map_map]
  unfold lsbFirst crcMsg
  congr 1
  · apply List.map_congr_left
    intro i hi
    have := List.mem_range.1 hi
    simp only [BitVec.getLsbD_or, BitVec.getLsbD_shiftLeft, BitVec.getLsbD_setWidth]
    simp [this]; omega
  · apply List.map_congr_left
    intro i hi
    have := List.mem_range.1 hi
    simp only [Function.comp, BitVec.getLsbD_or, BitVec.getLsbD_shiftLeft, BitVec.getLsbD_setWidth]
    rw [BitVec.getLsbD_of_ge d _ (by omega)]
    have h1 : 32 + i < 64 := by omega
    have h2 : ¬ 32 + i < 32 := by omega
    have h3 : 32 + i - 32 < 64 := by omega
    simp [h1]; omega

theorem low32_setWidth (p : Word) : low32 (p.setWidth 64) = lsbFirst 32 p := by
  apply List.map_congr_left
  intro i hi
  have := List.mem_range.1 hi
  rw [BitVec.getLsbD_setWidth]
  simp; omega

theorem lsbFirst_setWidth (x : BitVec 64) : lsbFirst 32 (x.setWidth 32) = low32 x := by
  apply List.map_congr_left
  intro i hi
  have := List.mem_range.1 hi
  rw [BitVec.getLsbD_setWidth]
  simp [this]

/-- One write. -/
theorem polyOf_icapCRC (a d p : Word) (ha : a.toNat < 32) :
    ∃ q, polyOf (lsbFirst 32 (icapCRC a d p)) =
      X^37 * polyOf (lsbFirst 32 p) + X^32 * polyOf (lsbFirst 32 d ++ lsbFirst 5 a) + castagnoli * q := by
  have hlt : (p.setWidth 64 : BitVec 64).toNat < 2^32 := by
    have := p.isLt; simp only [BitVec.toNat_setWidth]; omega
  rw [icapCRC_eq a d p ha, lsbFirst_setWidth, crcZn_serial 37 _ _ (by
    rw [crcMsg_toNat a d ha]; have := d.isLt; omega), bits_crcMsg]
  obtain ⟨_, q, hq⟩ := polyOf_serial (lsbFirst 32 d ++ lsbFirst 5 a) _ hlt
  refine ⟨q, ?_⟩
  rw [hq, low32_setWidth]
  simp [lsbFirst]

/-- Different registers are different polynomials. -/
theorem polyOf_inj : ∀ a b : List Bool, a.length = b.length → polyOf a = polyOf b → a = b := by
  intro a
  induction a with
  | nil => intro b h _; cases b <;> simp_all
  | cons x xs ih =>
    intro b h he
    cases b with
    | nil => simp at h
    | cons y ys =>
      simp only [List.length_cons, Nat.add_right_cancel_iff] at h
      have hxy : x = y := by
        have hc := congrArg (fun p => p.coeff xs.length) he
        simp only [polyOf_cons, h, coeff_add] at hc
        have hx0 : (polyOf xs).coeff ys.length = 0 :=
          coeff_eq_zero_of_degree_lt (by have := degree_polyOf xs; rwa [h] at this)
        have hy0 : (polyOf ys).coeff ys.length = 0 := coeff_eq_zero_of_degree_lt (degree_polyOf ys)
        rw [hx0, hy0] at hc
        cases x <;> cases y <;> simp [bit] at hc <;> rfl
      subst hxy
      rw [polyOf_cons, polyOf_cons, h] at he
      rw [ih ys h (add_left_cancel he)]

theorem lsbFirst_inj (a b : Word) (h : lsbFirst 32 a = lsbFirst 32 b) : a = b := by
  apply BitVec.eq_of_getLsbD_eq
  intro i hi
  have := congrArg (fun l => l[i]?) h
  simpa [lsbFirst, hi] using this

end Verif.Xc7
