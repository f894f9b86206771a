import Verif.Proofs.EccCode
import Verif.Proofs.Crc
/-! # C20, C21 frame ECC; C22 configuration CRC -/
namespace Verif.Props
open Verif.Xc7 Verif.Spec

/-- The stored ECC field agrees with the ECC the code recomputes over the frame. -/
def EccConsistent (f : List Word) : Prop := storedECC f = calculateECC f &&& 0x1FFF#32

instance (f : List Word) : Decidable (EccConsistent f) := by unfold EccConsistent; infer_instance

/-! ## C20 -/

private theorem updateECC_def (f : List Word) : updateECC f =
    (if f.length < 50 then .abort
     else match f[50]? with
      | none => .ub
      | some w => .ok ((f.set 50 (w &&& 0xFFFFE000#32)).set 50
          ((w &&& 0xFFFFE000#32) ||| (calculateECC (f.set 50 (w &&& 0xFFFFE000#32)) &&& 0x1FFF#32)))) :=
  rfl

private theorem and_or_masks (a b : Word) :
    ((a &&& 0xFFFFE000#32) ||| (b &&& 0x1FFF#32)) &&& 0x1FFF#32 = b &&& 0x1FFF#32 ∧
    ((a &&& 0xFFFFE000#32) ||| (b &&& 0x1FFF#32)) &&& 0xFFFFE000#32 = a &&& 0xFFFFE000#32 := by
  have hm : ∀ i, (0xFFFFE000#32 : Word).getLsbD i = (decide (13 ≤ i) && decide (i < 32)) := by
    intro i
    by_cases h : i < 32
    · revert h; revert i; decide
    · rw [BitVec.getLsbD_of_ge _ _ (by omega)]; simp [h]
  have hl : ∀ i, (0x1FFF#32 : Word).getLsbD i = decide (i < 13) := by
    intro i
    by_cases h : i < 32
    · revert h; revert i; decide
    · rw [BitVec.getLsbD_of_ge _ _ (by omega)]; simp; omega
  constructor <;>
  · apply BitVec.eq_of_getLsbD_eq
    intro i hi
    simp only [BitVec.getLsbD_and, BitVec.getLsbD_or, hm, hl]
    by_cases h13 : i < 13
    · have : ¬ 13 ≤ i := by omega
      simp [h13, this]
    · have : 13 ≤ i := by omega
      simp [h13, this, hi]

/-- `UpdateECC` succeeds on every frame of at least 51 words (all architectures) and the result is
the same frame except for the low 13 bits of word 50. -/
theorem C20_update_local (f : List Word) (h : 50 < f.length) :
    ∃ g, updateECC f = .ok g ∧ g.length = f.length ∧
      (∀ i, i ≠ 50 → g[i]? = f[i]?) ∧
      (∀ x y, f[50]? = some x → g[50]? = some y → ∀ b, 13 ≤ b → y.getLsbD b = x.getLsbD b) := by
  have h50 : f[50]? = some f[50] := by simp [h]
  refine ⟨_, by rw [updateECC_def, if_neg (by omega), h50], ?_, ?_, ?_⟩
  · simp
  · intro i hi
    rw [List.getElem?_set_ne (by omega), List.getElem?_set_ne (by omega)]
  · intro x y hx hy b hb
    rw [h50] at hx
    simp only [Option.some.injEq] at hx
    subst hx
    simp only [List.getElem?_set, List.length_set, h, if_true] at hy
    simp only [Option.some.injEq] at hy
    subst hy
    have hm : ∀ i, (0xFFFFE000#32 : Word).getLsbD i = (decide (13 ≤ i) && decide (i < 32)) := by
      intro i
      by_cases h : i < 32
      · revert h; revert i; decide
      · rw [BitVec.getLsbD_of_ge _ _ (by omega)]; simp [h]
    have hl : ∀ i, (0x1FFF#32 : Word).getLsbD i = decide (i < 13) := by
      intro i
      by_cases h : i < 32
      · revert h; revert i; decide
      · rw [BitVec.getLsbD_of_ge _ _ (by omega)]; simp; omega
    simp only [BitVec.getLsbD_or, BitVec.getLsbD_and, hm, hl]
    by_cases hb32 : b < 32
    · have : ¬ b < 13 := by omega
      simp [hb, hb32, this]
    · rw [BitVec.getLsbD_of_ge _ _ (by omega)]; simp; omega

/-- Value of `UpdateECC`. -/
theorem updateECC_ok (f : List Word) (h : 50 < f.length) :
    updateECC f = .ok (f.set 50 ((f[50] &&& 0xFFFFE000#32) ||| (calculateECC f &&& 0x1FFF#32))) := by
  have h50 : f[50]? = some f[50] := by simp [h]
  rw [updateECC_def, if_neg (by omega), h50]
  have : calculateECC (f.set 50 (f[50] &&& 0xFFFFE000#32)) = calculateECC f := by
    unfold calculateECC
    apply calculateECCFrom_set _ 0 50 _ _ (by omega)
    intro _
    rw [BitVec.and_assoc, BitVec.and_self]
  simp [this]

/-- After `UpdateECC` the stored ECC equals the recomputed ECC. -/
theorem C20_update_consistent (f g : List Word) (h : 50 < f.length) (hg : updateECC f = .ok g) :
    EccConsistent g := by
  rw [updateECC_ok f h] at hg
  simp only [Outcome.ok.injEq] at hg
  have hc : calculateECC g = calculateECC f := by
    rw [← hg]
    unfold calculateECC
    apply calculateECCFrom_set _ 0 50 _ _ (by omega)
    intro _
    exact (and_or_masks _ _).2
  unfold EccConsistent
  rw [hc]
  unfold storedECC
  rw [← hg]
  simp [h, (and_or_masks _ _).1]

/-- A second update changes nothing. -/
theorem C20_update_idempotent (f g : List Word) (h : 50 < f.length) (hg : updateECC f = .ok g) :
    updateECC g = .ok g := by
  have hcons := C20_update_consistent f g h hg
  have hlen : 50 < g.length := by
    rw [updateECC_ok f h] at hg
    simp only [Outcome.ok.injEq] at hg
    rw [← hg]; simpa using h
  rw [updateECC_ok g hlen]
  congr 1
  unfold EccConsistent storedECC at hcons
  have h50 : g[50]? = some g[50] := by simp [hlen]
  rw [h50] at hcons
  simp only [Option.getD_some] at hcons
  rw [← hcons]
  have : (g[50] &&& 0xFFFFE000#32) ||| (g[50] &&& 0x1FFF#32) = g[50] := by
    rw [← BitVec.and_or_distrib_left]
    have : (0xFFFFE000#32 : Word) ||| 0x1FFF#32 = BitVec.allOnes 32 := by decide
    rw [this, BitVec.and_allOnes]
  rw [this]
  simp

/-- Non-vacuity: a 101-word frame with data whose ECC is not yet right, and the update of it. -/
example : 50 < (List.replicate 101 0xDEADBEEF#32).length ∧
    ¬ EccConsistent (List.replicate 101 0xDEADBEEF#32) := by decide +kernel

/-- Finding: for a 50-word frame the guard of `UpdateECC` passes and word 50 is out of range. -/
theorem C20_guard_off_by_one (f : List Word) (h : f.length = 50) : updateECC f = .ub := by
  rw [updateECC_def, if_neg (by omega), List.getElem?_eq_none (by omega)]

/-! ## C21 -/

theorem eccConsistent_iff (f : List Word) : EccConsistent f ↔ syndrome f = 0#32 := by
  unfold EccConsistent syndrome
  constructor
  · intro h; rw [h]; simp
  · intro h
    have := congrArg (· ^^^ (calculateECC f &&& 0x1FFF#32)) h
    simpa [BitVec.xor_assoc] using this

/-- Any odd number of flipped bits (anywhere in the frame, ECC field included) is detected. -/
theorem C21_odd_errors_detected (f : List Word) (hf : f.length = 101) (hc : EccConsistent f)
    (ps : List (Nat × Nat)) (hp : ∀ p ∈ ps, IsFrameBit p) (hodd : ps.length % 2 = 1) :
    ¬ EccConsistent (flipBits f ps) := by
  rw [eccConsistent_iff] at hc ⊢
  intro h
  have := phi_flipBits ps hp f hf
  rw [h, hc, hodd] at this
  revert this; decide

/-- A single flipped bit is detected. -/
theorem C21_single_error_detected (f : List Word) (hf : f.length = 101) (hc : EccConsistent f)
    (p : Nat × Nat) (hp : IsFrameBit p) : ¬ EccConsistent (flipBit f p) :=
  C21_odd_errors_detected f hf hc [p] (by simpa using hp) rfl

/-- Two flipped bits at different positions are detected. -/
theorem C21_double_error_detected (f : List Word) (hf : f.length = 101) (hc : EccConsistent f)
    (p q : Nat × Nat) (hp : IsFrameBit p) (hq : IsFrameBit q) (hpq : p ≠ q) :
    ¬ EccConsistent (flipBit (flipBit f p) q) := by
  rw [eccConsistent_iff] at hc ⊢
  rw [syndrome_flipBit _ _ (by rw [length_flipBit, hf]), syndrome_flipBit _ _ hf, hc]
  intro h
  apply hpq
  apply col_injective p q hp hq
  have := congrArg (· ^^^ col q) h
  simpa [BitVec.xor_assoc] using this

/-- The XOR of stored and recomputed ECC identifies the flipped bit: single errors in any two
consistent frames with the same XOR are at the same position. -/
theorem C21_single_error_located (f g : List Word) (hf : f.length = 101) (hg : g.length = 101)
    (hcf : EccConsistent f) (hcg : EccConsistent g) (p q : Nat × Nat)
    (hp : IsFrameBit p) (hq : IsFrameBit q)
    (h : storedECC (flipBit f p) ^^^ (calculateECC (flipBit f p) &&& 0x1FFF#32)
       = storedECC (flipBit g q) ^^^ (calculateECC (flipBit g q) &&& 0x1FFF#32)) : p = q := by
  rw [eccConsistent_iff] at hcf hcg
  change syndrome (flipBit f p) = syndrome (flipBit g q) at h
  rw [syndrome_flipBit _ _ hf, syndrome_flipBit _ _ hg, hcf, hcg] at h
  exact col_injective p q hp hq (by simpa using h)

/-- Non-vacuity: a consistent frame and two distinct positions. -/
example : (List.replicate 101 0#32).length = 101 ∧ EccConsistent (List.replicate 101 0#32) ∧
    IsFrameBit (3, 7) ∧ IsFrameBit (50, 12) ∧ ((3, 7) : Nat × Nat) ≠ (50, 12) := by decide +kernel

/-! ## C22 -/

/-- CRC of a history of (register address, data) writes, starting from `prev`. -/
def crcHistory (prev : Word) (h : List (Word × Word)) : Word :=
  h.foldl (fun c x => icapCRC x.1 x.2 c) prev

private theorem setWidth_inj (x y : BitVec 64) (hx : x.toNat < 2^32) (hy : y.toNat < 2^32)
    (h : x.setWidth 32 = y.setWidth 32) : x = y := by
  have := congrArg BitVec.toNat h
  simp only [BitVec.toNat_setWidth] at this
  apply BitVec.eq_of_toNat_eq; omega

private theorem crc_diff (a d p a' d' p' : Word) (ha : a.toNat < 32) (ha' : a'.toNat < 32)
    (h : icapCRC a d p = icapCRC a' d' p') :
    crcZn 37 ((p.setWidth 64 ^^^ crcMsg a d) ^^^ (p'.setWidth 64 ^^^ crcMsg a' d')) = 0#64 := by
  rw [icapCRC_eq _ _ _ ha, icapCRC_eq _ _ _ ha'] at h
  have hb : ∀ (a d p : Word), a.toNat < 32 → (p.setWidth 64 ^^^ crcMsg a d).toNat < 2^37 := by
    intro a d p ha
    rw [BitVec.toNat_xor, crcMsg_toNat _ _ ha]
    apply Nat.xor_lt_two_pow
    · have := p.isLt; simp only [BitVec.toNat_setWidth]; omega
    · have := d.isLt; omega
  have := setWidth_inj _ _ (crcZn37_lt _ (hb a d p ha)) (crcZn37_lt _ (hb a' d' p' ha')) h
  rw [crcZn_xor, this]; simp

/-- For a fixed written word the CRC step is injective in the previous CRC. -/
theorem C22_injective_in_prev (a d p p' : Word) (ha : a.toNat < 32)
    (h : icapCRC a d p = icapCRC a d p') : p = p' := by
  have h1 := crc_diff a d p a d p' ha ha h
  have e : (p.setWidth 64 ^^^ crcMsg a d) ^^^ (p'.setWidth 64 ^^^ crcMsg a d) =
      (p.setWidth 64 ^^^ p'.setWidth 64) := by
    have : (p.setWidth 64 ^^^ crcMsg a d) ^^^ (p'.setWidth 64 ^^^ crcMsg a d) =
      (p.setWidth 64 ^^^ p'.setWidth 64) ^^^ (crcMsg a d ^^^ crcMsg a d) := by ac_rfl
    rw [this]; simp
  rw [e] at h1
  have hlt : (p.setWidth 64 ^^^ p'.setWidth 64 : BitVec 64).toNat < 2^32 := by
    rw [BitVec.toNat_xor]
    apply Nat.xor_lt_two_pow
    · have := p.isLt; simp only [BitVec.toNat_setWidth]; omega
    · have := p'.isLt; simp only [BitVec.toNat_setWidth]; omega
  have h2 := crcZn_eq_zero 37 _ hlt h1
  have h3 : (p.setWidth 64 : BitVec 64) = p'.setWidth 64 := by
    have := congrArg (· ^^^ (p'.setWidth 64 : BitVec 64)) h2
    simpa [BitVec.xor_assoc] using this
  have h4 := congrArg BitVec.toNat h3
  apply BitVec.eq_of_toNat_eq
  have := p.isLt
  have := p'.isLt
  simp only [BitVec.toNat_setWidth] at h4
  omega

/-- The same address and previous CRC with different data always give different CRCs. -/
theorem C22_data_change_detected (a d d' p : Word) (ha : a.toNat < 32) (hd : d ≠ d') :
    icapCRC a d p ≠ icapCRC a d' p := by
  intro h
  apply hd
  have h1 := crc_diff a d p a d' p ha ha h
  have hm : crcMsg a d ^^^ crcMsg a d' = d.setWidth 64 ^^^ d'.setWidth 64 := by
    unfold crcMsg
    apply BitVec.eq_of_getLsbD_eq
    intro i hi
    simp only [BitVec.getLsbD_xor, BitVec.getLsbD_or, BitVec.getLsbD_shiftLeft,
      BitVec.getLsbD_setWidth]
    by_cases h32 : i < 32
    · simp [h32]
    · rw [BitVec.getLsbD_of_ge d i (by omega), BitVec.getLsbD_of_ge d' i (by omega)]; simp
  have e : (p.setWidth 64 ^^^ crcMsg a d) ^^^ (p.setWidth 64 ^^^ crcMsg a d') =
      (d.setWidth 64 ^^^ d'.setWidth 64) := by
    have : (p.setWidth 64 ^^^ crcMsg a d) ^^^ (p.setWidth 64 ^^^ crcMsg a d') =
      (p.setWidth 64 ^^^ p.setWidth 64) ^^^ (crcMsg a d ^^^ crcMsg a d') := by ac_rfl
    rw [this, hm]; simp
  rw [e] at h1
  have hlt : (d.setWidth 64 ^^^ d'.setWidth 64 : BitVec 64).toNat < 2^32 := by
    rw [BitVec.toNat_xor]
    apply Nat.xor_lt_two_pow
    · have := d.isLt; simp only [BitVec.toNat_setWidth]; omega
    · have := d'.isLt; simp only [BitVec.toNat_setWidth]; omega
  have h2 := crcZn_eq_zero 37 _ hlt h1
  have h3 : (d.setWidth 64 : BitVec 64) = d'.setWidth 64 := by
    have := congrArg (· ^^^ (d'.setWidth 64 : BitVec 64)) h2
    simpa [BitVec.xor_assoc] using this
  have h4 := congrArg BitVec.toNat h3
  apply BitVec.eq_of_toNat_eq
  have := d.isLt
  have := d'.isLt
  simp only [BitVec.toNat_setWidth] at h4
  omega

/-- Writing the same data to a different 5-bit register address changes the CRC. -/
theorem C22_address_change_detected (a a' d p : Word) (ha : a.toNat < 32) (ha' : a'.toNat < 32)
    (hne : a ≠ a') : icapCRC a d p ≠ icapCRC a' d p := by
  intro h
  apply hne
  have h1 := crc_diff a d p a' d p ha ha' h
  have hm : crcMsg a d ^^^ crcMsg a' d = (a.setWidth 64 ^^^ a'.setWidth 64) <<< 32 := by
    unfold crcMsg
    apply BitVec.eq_of_getLsbD_eq
    intro i hi
    simp only [BitVec.getLsbD_xor, BitVec.getLsbD_or, BitVec.getLsbD_shiftLeft,
      BitVec.getLsbD_setWidth]
    by_cases h32 : i < 32
    · simp [h32]
    · rw [BitVec.getLsbD_of_ge d i (by omega)]; simp [h32, hi]
  have e : (p.setWidth 64 ^^^ crcMsg a d) ^^^ (p.setWidth 64 ^^^ crcMsg a' d) =
      (a.setWidth 64 ^^^ a'.setWidth 64) <<< 32 := by
    have : (p.setWidth 64 ^^^ crcMsg a d) ^^^ (p.setWidth 64 ^^^ crcMsg a' d) =
      (p.setWidth 64 ^^^ p.setWidth 64) ^^^ (crcMsg a d ^^^ crcMsg a' d) := by ac_rfl
    rw [this, hm]; simp
  rw [e, crcZn_add 32 5] at h1
  have hlt : (a.setWidth 64 ^^^ a'.setWidth 64 : BitVec 64).toNat < 2^5 := by
    rw [BitVec.toNat_xor]
    apply Nat.xor_lt_two_pow
    · simp only [BitVec.toNat_setWidth]; omega
    · simp only [BitVec.toNat_setWidth]; omega
  rw [crcZn_shift 32 _ (by omega)] at h1
  have h2 := crcZn_eq_zero 5 _ (by omega) h1
  have h3 : (a.setWidth 64 : BitVec 64) = a'.setWidth 64 := by
    have := congrArg (· ^^^ (a'.setWidth 64 : BitVec 64)) h2
    simpa [BitVec.xor_assoc] using this
  have h4 := congrArg BitVec.toNat h3
  apply BitVec.eq_of_toNat_eq
  simp only [BitVec.toNat_setWidth] at h4
  omega

/-- A difference in the CRC survives any later history of writes. -/
theorem C22_difference_persists (h : List (Word × Word)) (hh : ∀ x ∈ h, x.1.toNat < 32)
    (p p' : Word) (hp : p ≠ p') : crcHistory p h ≠ crcHistory p' h := by
  induction h generalizing p p' with
  | nil => exact hp
  | cons x xs ih =>
    simp only [crcHistory, List.foldl_cons]
    apply ih (fun y hy => hh y (by simp [hy]))
    intro he
    exact hp (C22_injective_in_prev _ _ _ _ (hh x (by simp)) he)

/-- Corrupting exactly one written word anywhere in a history (its data, or its register) changes
the final CRC, whatever comes before and after. -/
theorem C22_single_write_corruption_detected (pre post : List (Word × Word)) (p a d a' d' : Word)
    (hpost : ∀ x ∈ post, x.1.toNat < 32) (ha : a.toNat < 32) (ha' : a'.toNat < 32)
    (hne : (a = a' ∧ d ≠ d') ∨ (a ≠ a' ∧ d = d')) :
    crcHistory p (pre ++ (a, d) :: post) ≠ crcHistory p (pre ++ (a', d') :: post) := by
  simp only [crcHistory, List.foldl_append, List.foldl_cons]
  apply C22_difference_persists post hpost
  rcases hne with ⟨h1, h2⟩ | ⟨h1, h2⟩
  · subst h1; exact C22_data_change_detected a d d' _ ha h2
  · subst h2; exact C22_address_change_detected a a' d _ ha ha' h1

/-- The CRC step is linear: XOR of inputs gives XOR of outputs. -/
theorem C22_linear (a d p a' d' p' : Word) (ha : a.toNat < 32) (ha' : a'.toNat < 32) :
    icapCRC (a ^^^ a') (d ^^^ d') (p ^^^ p') = icapCRC a d p ^^^ icapCRC a' d' p' := by
  have hx : (a ^^^ a').toNat < 32 := by
    rw [BitVec.toNat_xor]; exact Nat.xor_lt_two_pow (n := 5) ha ha'
  rw [icapCRC_eq _ _ _ hx, icapCRC_eq _ _ _ ha, icapCRC_eq _ _ _ ha']
  rw [← BitVec.setWidth_xor, ← crcZn_xor]
  congr 2
  have hm : crcMsg (a ^^^ a') (d ^^^ d') = crcMsg a d ^^^ crcMsg a' d' := by
    unfold crcMsg
    apply BitVec.eq_of_getLsbD_eq
    intro i hi
    simp only [BitVec.getLsbD_xor, BitVec.getLsbD_or, BitVec.getLsbD_shiftLeft,
      BitVec.getLsbD_setWidth]
    by_cases h32 : i < 32
    · simp [h32, hi]
    · rw [BitVec.getLsbD_of_ge d i (by omega), BitVec.getLsbD_of_ge d' i (by omega)]
      have : i - 32 < 64 := by omega
      simp [h32, hi, this]
  rw [hm, BitVec.setWidth_xor]
  ac_rfl

/-- Non-vacuity, and the value of the project's own unit test (`ICAPCRC` of an arbitrary word). -/
example : (2#32).toNat < 32 ∧ (0x12345678#32 ≠ 0x12345679#32) ∧
    icapCRC 2#32 0x12345678#32 0#32 ≠ icapCRC 2#32 0x12345679#32 0#32 := by decide +kernel

end Verif.Props
