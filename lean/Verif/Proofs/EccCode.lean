import Verif.Proofs.Ecc
import Verif.Spec.Frame
/-! The syndrome of a frame and its value on single-bit errors. -/
namespace Verif.Xc7
open Verif.Spec

/-- Stored xor recomputed ECC (13 bits). -/
def syndrome (f : List Word) : Word := storedECC f ^^^ (calculateECC f &&& 0x1FFF#32)

theorem getD_xorFrame (a b : List Word) (h : a.length = b.length) (i : Nat) :
    (xorFrame a b)[i]?.getD 0#32 = (a[i]?.getD 0#32) ^^^ (b[i]?.getD 0#32) := by
  unfold xorFrame
  by_cases hi : i < a.length
  · have hi' : i < b.length := by omega
    simp [List.getElem?_zipWith, hi, hi']
  · have hi' : ¬ i < b.length := by omega
    simp [List.getElem?_zipWith, hi, hi']

theorem syndrome_xor (a b : List Word) (h : a.length = b.length) :
    syndrome (xorFrame a b) = syndrome a ^^^ syndrome b := by
  simp only [syndrome, storedECC, getD_xorFrame a b h, calculateECC_xor a b h, xor_and_distrib]
  ac_rfl

theorem flipBit_eq (f : List Word) (p : Nat × Nat) :
    flipBit f p = xorFrame f (unitFrame f.length p.1 p.2) := by
  apply List.ext_getElem
  · simp [flipBit, xorFrame, unitFrame]
  · intro i h1 h2
    simp only [flipBit, xorFrame, unitFrame, List.getElem_modify, List.getElem_zipWith,
      List.getElem_set, List.getElem_replicate]
    by_cases h : p.1 = i <;> simp [h]

theorem length_flipBit (f : List Word) (p : Nat × Nat) : (flipBit f p).length = f.length := by
  simp [flipBit]

theorem length_flipBits (f : List Word) (ps : List (Nat × Nat)) :
    (flipBits f ps).length = f.length := by
  unfold flipBits
  induction ps generalizing f with
  | nil => rfl
  | cons p ps ih => simp [ih, length_flipBit]

/-- Syndrome contribution of one bit position. -/
def col (p : Nat × Nat) : Word := syndrome (unitFrame 101 p.1 p.2)

theorem syndrome_flipBit (f : List Word) (p : Nat × Nat) (hf : f.length = 101) :
    syndrome (flipBit f p) = syndrome f ^^^ col p := by
  rw [flipBit_eq, syndrome_xor _ _ (by simp [unitFrame]), hf, col]

theorem and_1FFF_lt (x : Word) : (x &&& 0x1FFF#32).toNat = x.toNat % 2^13 := by
  rw [BitVec.toNat_and]
  exact Nat.and_two_pow_sub_one_eq_mod x.toNat 13

theorem par12_lt (e : Word) : (par12 e).toNat < 2 := by
  rw [par12, BitVec.toNat_and]
  exact Nat.lt_of_le_of_lt Nat.and_le_right (by decide)

theorem shl12_mod (e : Word) : (par12 e <<< 12).toNat % 2^12 = 0 := by
  have := par12_lt e
  rw [BitVec.toNat_shiftLeft, Nat.shiftLeft_eq]; omega

theorem eccParity_low12 (e : Word) : (eccParity e).toNat % 2^12 = e.toNat % 2^12 := by
  rw [eccParity_eq, BitVec.toNat_xor, Nat.xor_mod_two_pow, shl12_mod]; simp

/-- Low 12 bits of the column of a data bit. -/
theorem col_data (k b : Nat) (hk : k < 101) (hb : b < 32) (h : ¬ (k = 50 ∧ b < 13)) :
    (col (k, b)).toNat % 2^12 =
      k * 32 + (if 0x25 < k then 0x360 else if 0x6 < k then 0x340 else 0x320) + b := by
  have hst : storedECC (unitFrame 101 k b) = 0#32 := by
    unfold storedECC unitFrame
    by_cases h50 : k = 50
    · subst h50
      have : 13 ≤ b := by omega
      simp only [List.getElem?_set, List.length_replicate]
      simp
      revert hb this; clear h hk
      revert b; decide
    · simp [h50]
  unfold col syndrome
  rw [hst, calculateECC_unit k b hk hb, if_neg h]
  have := toNat_eccCode k b hk hb
  simp only [BitVec.zero_xor, and_1FFF_lt]
  have e := eccParity_low12 (eccVal (BitVec.ofNat 32 k) + BitVec.ofNat 32 b)
  have e2 : ∀ x : Nat, x % 2^13 % 2^12 = x % 2^12 := by omega
  rw [e2, e, this]
  split
  · omega
  · split <;> omega

theorem col_ecc (b : Nat) (hb : b < 13) : col (50, b) = 1#32 <<< b := by
  have hst : storedECC (unitFrame 101 50 b) = 1#32 <<< b := by
    unfold storedECC unitFrame
    simp only [List.getElem?_set, List.length_replicate]
    simp
    revert hb; revert b; decide
  unfold col syndrome
  rw [hst, calculateECC_unit 50 b (by omega) (by omega), if_pos ⟨rfl, hb⟩]
  simp

/-- 13-bit parity functional. -/
def phi (x : Word) : Word := par12 x ^^^ ((x >>> 12) &&& 1#32)

theorem phi_xor (a b : Word) : phi (a ^^^ b) = phi a ^^^ phi b := by
  simp only [phi, par12_xor, BitVec.ushiftRight_xor_distrib, xor_and_distrib]
  ac_rfl

theorem par12_and (x : Word) : par12 (x &&& 0x1FFF#32) = par12 x := by
  unfold par12
  rw [BitVec.and_assoc]
  rfl

theorem phi_and (x : Word) : phi (x &&& 0x1FFF#32) = phi x := by
  unfold phi
  rw [par12_and]
  congr 1
  apply BitVec.eq_of_toNat_eq
  have h1 : ∀ y : Word, (y &&& 1#32).toNat = y.toNat % 2 := by
    intro y; rw [BitVec.toNat_and]; exact Nat.and_two_pow_sub_one_eq_mod y.toNat 1
  rw [h1, h1, BitVec.toNat_ushiftRight, BitVec.toNat_ushiftRight, and_1FFF_lt,
    Nat.shiftRight_eq_div_pow, Nat.shiftRight_eq_div_pow]
  omega

theorem par12_shl12 (e : Word) : par12 (par12 e <<< 12) = 0#32 := by
  have h : par12 e = 0#32 ∨ par12 e = 1#32 := by
    have := par12_lt e
    have : (par12 e).toNat = 0 ∨ (par12 e).toNat = 1 := by omega
    rcases this with h | h
    · left; exact BitVec.eq_of_toNat_eq h
    · right; exact BitVec.eq_of_toNat_eq h
  rcases h with h | h <;> rw [h] <;> decide

theorem phi_eccParity (e : Word) : phi (eccParity e) = (e >>> 12) &&& 1#32 := by
  rw [eccParity_eq, phi_xor]
  have h : phi (par12 e <<< 12) = par12 e := by
    have h : par12 e = 0#32 ∨ par12 e = 1#32 := by
      have := par12_lt e
      have : (par12 e).toNat = 0 ∨ (par12 e).toNat = 1 := by omega
      rcases this with h | h
      · left; exact BitVec.eq_of_toNat_eq h
      · right; exact BitVec.eq_of_toNat_eq h
    rcases h with h | h <;> rw [h] <;> decide
  rw [h]
  unfold phi
  generalize par12 e = q
  rw [BitVec.xor_comm, ← BitVec.xor_assoc]; simp

theorem phi_col (p : Nat × Nat) (hp : IsFrameBit p) : phi (col p) = 1#32 := by
  obtain ⟨k, b⟩ := p
  obtain ⟨hk, hb⟩ := hp
  simp only at hk hb
  by_cases h : k = 50 ∧ b < 13
  · obtain ⟨h1, h2⟩ := h
    subst h1
    rw [col_ecc b h2]
    revert h2; clear hb hk; revert b; decide
  · have hst : storedECC (unitFrame 101 k b) = 0#32 := by
      unfold storedECC unitFrame
      by_cases h50 : k = 50
      · subst h50
        have : 13 ≤ b := by omega
        simp only [List.getElem?_set, List.length_replicate]
        simp
        revert hb this; clear h hk
        revert b; decide
      · simp [h50]
    unfold col syndrome
    rw [hst, calculateECC_unit k b hk hb, if_neg h]
    simp only [BitVec.zero_xor, phi_and, phi_eccParity]
    apply BitVec.eq_of_toNat_eq
    have h1 : ∀ y : Word, (y &&& 1#32).toNat = y.toNat % 2 := by
      intro y; rw [BitVec.toNat_and]; exact Nat.and_two_pow_sub_one_eq_mod y.toNat 1
    rw [h1, BitVec.toNat_ushiftRight, toNat_eccCode k b hk hb, Nat.shiftRight_eq_div_pow]
    simp
    split
    · omega
    · split <;> omega

theorem col_injective (p q : Nat × Nat) (hp : IsFrameBit p) (hq : IsFrameBit q)
    (h : col p = col q) : p = q := by
  obtain ⟨k, b⟩ := p
  obtain ⟨k', b'⟩ := q
  obtain ⟨hk, hb⟩ := hp
  obtain ⟨hk', hb'⟩ := hq
  simp only at hk hb hk' hb'
  have hpow : ∀ b < 13, (1#32 <<< b).toNat % 2^12 < 0x320 ∨ (1#32 <<< b).toNat % 2^12 = 0x400 ∨
      (1#32 <<< b).toNat % 2^12 = 0x800 := by decide
  by_cases c1 : k = 50 ∧ b < 13 <;> by_cases c2 : k' = 50 ∧ b' < 13
  · obtain ⟨e1, e2⟩ := c1
    obtain ⟨e3, e4⟩ := c2
    subst e1 e3
    rw [col_ecc b e2, col_ecc b' e4] at h
    have : ∀ b < 13, ∀ b' < 13, (1#32 <<< b) = (1#32 <<< b') → b = b' := by decide
    rw [this b e2 b' e4 h]
  · exfalso
    obtain ⟨e1, e2⟩ := c1
    subst e1
    have h2 := col_data k' b' hk' hb' c2
    rw [← h, col_ecc b e2] at h2
    have h3 := hpow b e2
    rw [h2] at h3
    split at h3
    · omega
    · split at h3 <;> omega
  · exfalso
    obtain ⟨e1, e2⟩ := c2
    subst e1
    have h2 := col_data k b hk hb c1
    rw [h, col_ecc b' e2] at h2
    have h3 := hpow b' e2
    rw [h2] at h3
    split at h3
    · omega
    · split at h3 <;> omega
  · have h1 := col_data k b hk hb c1
    have h2 := col_data k' b' hk' hb' c2
    rw [h] at h1
    rw [h1] at h2
    have : k = k' ∧ b = b' := by
      split at h2 <;> split at h2 <;> (try split at h2) <;> (try split at h2) <;> omega
    rw [this.1, this.2]

theorem phi_flipBits (ps : List (Nat × Nat)) (hp : ∀ p ∈ ps, IsFrameBit p) :
    ∀ f : List Word, f.length = 101 →
    phi (syndrome (flipBits f ps)) = phi (syndrome f) ^^^ BitVec.ofNat 32 (ps.length % 2) := by
  induction ps with
  | nil => intro f _; simp [flipBits]
  | cons p ps ih =>
    intro f hf
    have hf' : (flipBit f p).length = 101 := by rw [length_flipBit, hf]
    have := ih (fun q hq => hp q (by simp [hq])) (flipBit f p) hf'
    simp only [flipBits, List.foldl_cons] at this ⊢
    rw [this, syndrome_flipBit f p hf, phi_xor, phi_col p (hp p (by simp)), BitVec.xor_assoc]
    congr 1
    simp only [List.length_cons]
    have : ps.length % 2 = 0 ∨ ps.length % 2 = 1 := by omega
    rcases this with h | h
    · have : (ps.length + 1) % 2 = 1 := by omega
      rw [h, this]; rfl
    · have : (ps.length + 1) % 2 = 0 := by omega
      rw [h, this]; rfl

/-- The ECC does not depend on the 13 stored ECC bits. -/
theorem calculateECCFrom_set : ∀ (l : List Word) (i j : Nat) (e w' : Word), i + j = 50 →
    (∀ h : j < l.length, w' &&& 0xFFFFE000#32 = l[j] &&& 0xFFFFE000#32) →
    calculateECCFrom i e (l.set j w') = calculateECCFrom i e l := by
  intro l
  induction l with
  | nil => intros; rfl
  | cons x xs ih =>
    intro i j e w' hij hw
    cases j with
    | zero =>
      have hi : i = 50 := by omega
      subst hi
      simp only [List.set_cons_zero, calculateECCFrom]
      congr 1
      have := hw (by simp)
      simp only [List.getElem_cons_zero] at this
      unfold icapECC
      simp [this]
    | succ j =>
      simp only [List.set_cons_succ, calculateECCFrom]
      apply ih (i + 1) j _ _ (by omega)
      intro h
      have := hw (by simp; omega)
      simpa using this

end Verif.Xc7
