import Verif.Props.C20_C22
/-! # C76: the frame ECC is the extended Hamming code of the frame -/
namespace Verif.Props
open Verif.Xc7 Verif.Spec

/-! ## A frame is the sum of its set bits -/

private theorem getLsbD_one_shl (b i : Nat) (hb : b < 32) :
    (1#32 <<< b).getLsbD i = decide (i = b) := by
  by_cases hi : i < 32
  · have : ∀ b : Fin 32, ∀ i : Fin 32, (1#32 <<< b.val).getLsbD i.val = decide (i.val = b.val) := by
      decide
    exact this ⟨b, hb⟩ ⟨i, hi⟩
  · rw [BitVec.getLsbD_of_ge _ _ (by omega)]
    have : i ≠ b := by omega
    simp [this]

private theorem bitSet_flipBit (f : List Word) (p q : Nat × Nat) (hf : f.length = 101)
    (hq : IsFrameBit q) : bitSet (flipBit f q) p = (bitSet f p ^^ decide (p = q)) := by
  obtain ⟨k, b⟩ := p
  obtain ⟨k', b'⟩ := q
  obtain ⟨h1, h2⟩ := hq
  simp only at h1 h2
  unfold bitSet flipBit
  simp only [List.getElem?_modify]
  by_cases hk : k' = k
  · subst hk
    have : k' < f.length := by omega
    simp only [if_true, List.getElem?_eq_getElem this, Option.map_some, Option.getD_some,
      BitVec.getLsbD_xor, getLsbD_one_shl b' b h2, Prod.mk.injEq, true_and, Option.map_eq_map]
  · have h3 : k ≠ k' := fun e => hk e.symm
    simp [hk, h3]

private theorem bitSet_flipBits (ps : List (Nat × Nat)) (hps : ∀ p ∈ ps, IsFrameBit p) :
    ∀ (f : List Word), f.length = 101 → ∀ p,
      bitSet (flipBits f ps) p = (bitSet f p ^^ decide (ps.count p % 2 = 1)) := by
  induction ps with
  | nil => intro f _ p; simp [flipBits]
  | cons q ps ih =>
    intro f hf p
    have h := ih (fun r hr => hps r (by simp [hr])) (flipBit f q) (by rw [length_flipBit, hf]) p
    simp only [flipBits, List.foldl_cons] at h ⊢
    rw [h, bitSet_flipBit f p q hf (hps q (by simp)), List.count_cons]
    by_cases hpq : p = q
    · subst hpq
      have : ps.count p % 2 = 0 ∨ ps.count p % 2 = 1 := by omega
      rcases this with e | e
      · have e' : (ps.count p + 1) % 2 = 1 := by omega
        simp [e, e']
      · have e' : (ps.count p + 1) % 2 = 0 := by omega
        simp [e, e']
    · have : (q == p) = false := by simpa using fun e => hpq e.symm
      simp [hpq, this]

private theorem mem_frameBits (p : Nat × Nat) : p ∈ frameBits ↔ IsFrameBit p := by
  obtain ⟨k, b⟩ := p
  simp [frameBits, IsFrameBit]

private theorem nodup_frameBits : frameBits.Nodup := by
  unfold frameBits
  rw [List.flatMap_def, List.Nodup, List.pairwise_flatten]
  constructor
  · intro l hl
    simp only [List.mem_map] at hl
    obtain ⟨k, _, rfl⟩ := hl
    rw [List.pairwise_map]
    exact List.nodup_range.imp (fun h e => h (Prod.mk.inj e).2)
  · rw [List.pairwise_map]
    refine List.nodup_range.imp (fun {a b} h x hx y hy e => ?_)
    simp only [List.mem_map] at hx hy
    obtain ⟨i, _, rfl⟩ := hx
    obtain ⟨j, _, rfl⟩ := hy
    exact h (Prod.mk.inj e).1

private theorem isFrameBit_setBits (f : List Word) : ∀ p ∈ setBits f, IsFrameBit p := by
  intro p hp
  exact (mem_frameBits p).1 (List.mem_filter.1 hp).1

private theorem count_setBits (f : List Word) (p : Nat × Nat) (hp : IsFrameBit p) :
    (setBits f).count p = if bitSet f p then 1 else 0 := by
  have hn : (setBits f).Nodup := nodup_frameBits.filter _
  rw [hn.count]
  congr 1
  simp [setBits, mem_frameBits, hp]

private theorem bitSet_zero (p : Nat × Nat) : bitSet (List.replicate 101 0#32) p = false := by
  unfold bitSet
  rw [List.getElem?_replicate]
  split <;> simp

private theorem frame_ext (f g : List Word) (hf : f.length = 101) (hg : g.length = 101)
    (h : ∀ p, IsFrameBit p → bitSet f p = bitSet g p) : f = g := by
  apply List.ext_getElem (by omega)
  intro i h1 h2
  apply BitVec.eq_of_getLsbD_eq
  intro b hb
  have := h (i, b) ⟨by simp; omega, hb⟩
  simpa [bitSet, h1, h2] using this

/-- Every frame is the zero frame with its set bits flipped. -/
theorem frame_eq_flipBits (f : List Word) (hf : f.length = 101) :
    f = flipBits (List.replicate 101 0#32) (setBits f) := by
  apply frame_ext _ _ hf (by rw [length_flipBits]; simp)
  intro p hp
  rw [bitSet_flipBits _ (isFrameBit_setBits f) _ (by simp), bitSet_zero, count_setBits f p hp]
  cases bitSet f p <;> simp

/-! ## The ECC of a frame, bit by bit -/

private theorem calculateECC_flipBit (f : List Word) (p : Nat × Nat) (hf : f.length = 101) :
    calculateECC (flipBit f p) = calculateECC f ^^^ calculateECC (unitFrame 101 p.1 p.2) := by
  rw [flipBit_eq, calculateECC_xor _ _ (by simp [unitFrame]), hf]

private theorem eccParity_bit (e : Word) (j : Nat) (hj : j < 12) :
    (eccParity e).getLsbD j = e.getLsbD j := by
  have := eccParity_low12 e
  have h1 : (eccParity e).toNat.testBit j = ((eccParity e).toNat % 2^12).testBit j := by
    rw [Nat.testBit_mod_two_pow]; simp [hj]
  have h2 : e.toNat.testBit j = (e.toNat % 2^12).testBit j := by
    rw [Nat.testBit_mod_two_pow]; simp [hj]
  show (eccParity e).toNat.testBit j = e.toNat.testBit j
  rw [h1, h2, this]

private theorem hamming_code (p : Nat × Nat) (hp : IsFrameBit p) :
    (eccVal (BitVec.ofNat 32 p.1) + BitVec.ofNat 32 p.2).toNat = 2^12 + hammingPosition p := by
  obtain ⟨k, b⟩ := p
  obtain ⟨hk, hb⟩ := hp
  simp only at hk hb
  rw [toNat_eccCode k b hk hb]
  unfold hammingPosition
  dsimp only
  split <;> split <;> (try split) <;> (try split) <;> omega

private theorem unit_bit (p : Nat × Nat) (hp : IsFrameBit p) (j : Nat) (hj : j < 12) :
    (calculateECC (unitFrame 101 p.1 p.2)).getLsbD j =
      (!isCheckBit p && (hammingPosition p).testBit j) := by
  rw [calculateECC_unit p.1 p.2 hp.1 hp.2]
  unfold isCheckBit
  split
  · rename_i h
    simp [h.1, h.2]
  · rename_i h
    have hc : (p.1 == 50 && decide (p.2 < 13)) = false := by
      simpa using h
    rw [hc, eccParity_bit _ j hj]
    show (eccVal (BitVec.ofNat 32 p.1) + BitVec.ofNat 32 p.2).toNat.testBit j = _
    rw [hamming_code p hp, Nat.testBit_two_pow_add_gt hj]
    simp

private theorem flipBits_bit (j : Nat) (hj : j < 12) (ps : List (Nat × Nat))
    (hps : ∀ p ∈ ps, IsFrameBit p) : ∀ f : List Word, f.length = 101 →
    (calculateECC (flipBits f ps)).getLsbD j = ((calculateECC f).getLsbD j ^^
      decide ((ps.filter fun p => !isCheckBit p && (hammingPosition p).testBit j).length % 2 = 1)) := by
  induction ps with
  | nil => intro f _; simp [flipBits]
  | cons q ps ih =>
    intro f hf
    have h := ih (fun r hr => hps r (by simp [hr])) (flipBit f q) (by rw [length_flipBit, hf])
    simp only [flipBits, List.foldl_cons] at h ⊢
    rw [h, calculateECC_flipBit f q hf, BitVec.getLsbD_xor, unit_bit q (hps q (by simp)) j hj,
      List.filter_cons]
    cases hc : (!isCheckBit q && (hammingPosition q).testBit j)
    · simp
    · simp only [if_true, List.length_cons]
      generalize (ps.filter fun p => !isCheckBit p && (hammingPosition p).testBit j).length = n
      have : n % 2 = 0 ∨ n % 2 = 1 := by omega
      rcases this with e | e
      · have e' : (n + 1) % 2 = 1 := by omega
        simp [e, e']
      · have e' : (n + 1) % 2 = 0 := by omega
        simp [e, e']

private theorem zero_ecc : calculateECC (List.replicate 101 0#32) = 0#32 := by
  rw [calculateECC, calculateECCFrom_zeros _ _ _ (by omega)]; simp [eccParity_zero]

private theorem calculateECC_bit (f : List Word) (hf : f.length = 101) (j : Nat) (hj : j < 12) :
    (calculateECC f).getLsbD j =
      decide (((setBits f).filter
        fun p => !isCheckBit p && (hammingPosition p).testBit j).length % 2 = 1) := by
  conv => lhs; rw [frame_eq_flipBits f hf]
  rw [flipBits_bit j hj _ (isFrameBit_setBits f) _ (by simp), zero_ecc]
  simp

/-- A frame is consistent exactly when its check bits are those of the extended Hamming code:
check bit `j` (of 12) is the parity of the set data bits whose Hamming position has bit `j`, and the
whole frame, check bits included, has an even number of set bits. -/
theorem C76_consistent_iff (f : List Word) (hf : f.length = 101) :
    EccConsistent f ↔
      (∀ j, j < 12 → bitSet f (50, j) = decide (((setBits f).filter
        fun p => !isCheckBit p && (hammingPosition p).testBit j).length % 2 = 1)) ∧
      (setBits f).length % 2 = 0 := by
  have hphi : phi (syndrome f) = BitVec.ofNat 32 ((setBits f).length % 2) := by
    conv => lhs; rw [frame_eq_flipBits f hf]
    rw [phi_flipBits _ (isFrameBit_setBits f) _ (by simp)]
    have : syndrome (List.replicate 101 0#32) = 0#32 := by
      unfold syndrome storedECC
      rw [zero_ecc, List.getElem?_replicate]; simp
    rw [this]
    have : phi 0#32 = 0#32 := by decide
    rw [this, BitVec.zero_xor]
  have hbit : ∀ j, j < 12 → (syndrome f).getLsbD j = (bitSet f (50, j) ^^
      decide (((setBits f).filter
        fun p => !isCheckBit p && (hammingPosition p).testBit j).length % 2 = 1)) := by
    intro j hj
    have hm : (0x1FFF#32 : Word).getLsbD j = true := by revert hj; revert j; decide
    unfold syndrome storedECC bitSet
    rw [BitVec.getLsbD_xor, BitVec.getLsbD_and, BitVec.getLsbD_and, hm, calculateECC_bit f hf j hj]
    simp
  rw [eccConsistent_iff]
  constructor
  · intro h
    constructor
    · intro j hj
      have := hbit j hj
      rw [h] at this
      simpa using this
    · rw [h] at hphi
      have h2 : (setBits f).length % 2 = 0 ∨ (setBits f).length % 2 = 1 := by omega
      rcases h2 with e | e
      · exact e
      · rw [e] at hphi; exact absurd hphi (by decide)
  · rintro ⟨h1, h2⟩
    rw [h2] at hphi
    have hlow : ∀ j, j < 12 → (syndrome f).getLsbD j = false := by
      intro j hj; rw [hbit j hj, h1 j hj]; simp
    have hhigh : ∀ j, 13 ≤ j → (syndrome f).getLsbD j = false := by
      intro j hj
      have hm : (0x1FFF#32 : Word).getLsbD j = false := by
        by_cases h : j < 32
        · have hk : ∀ j, j < 32 → 13 ≤ j → (0x1FFF#32 : Word).getLsbD j = false := by decide
          exact hk j h hj
        · rw [BitVec.getLsbD_of_ge _ _ (by omega)]
      unfold syndrome storedECC
      rw [BitVec.getLsbD_xor, BitVec.getLsbD_and, BitVec.getLsbD_and, hm]
      simp
    generalize syndrome f = s at *
    have hs : s = 0#32 ∨ s = 0x1000#32 := by
      cases h12 : s.getLsbD 12
      · left
        apply BitVec.eq_of_getLsbD_eq
        intro i hi
        rw [BitVec.getLsbD_zero]
        by_cases h : i < 12
        · exact hlow i h
        · by_cases h' : i = 12
          · rw [h']; exact h12
          · exact hhigh i (by omega)
      · right
        apply BitVec.eq_of_getLsbD_eq
        intro i hi
        have hk : ∀ i, i < 32 → (0x1000#32 : Word).getLsbD i = decide (i = 12) := by decide
        rw [hk i hi]
        by_cases h : i < 12
        · rw [hlow i h]; simp; omega
        · by_cases h' : i = 12
          · rw [h', h12]; rfl
          · rw [hhigh i (by omega)]; simp [h']
    rcases hs with e | e
    · exact e
    · rw [e] at hphi; exact absurd hphi (by decide)

/-- The frame `UpdateECC` returns: every bit but the 13 check bits is that of the given frame, check
bit `j < 12` is the parity of the data bits of the *given* frame whose Hamming position has bit `j`,
and the number of set bits of the returned frame is even. -/
theorem C76_update (f : List Word) (hf : f.length = 101) :
    ∃ g, updateECC f = .ok g ∧ g.length = 101 ∧
      (∀ p, isCheckBit p = false → bitSet g p = bitSet f p) ∧
      (∀ j, j < 12 → bitSet g (50, j) = decide (((setBits f).filter
        fun p => !isCheckBit p && (hammingPosition p).testBit j).length % 2 = 1)) ∧
      (setBits g).length % 2 = 0 := by
  obtain ⟨g, hg, hlen, hne, h50⟩ := C20_update_local f (by omega)
  have hcons := C20_update_consistent f g (by omega) hg
  have hglen : g.length = 101 := by omega
  obtain ⟨hc, hev⟩ := (C76_consistent_iff g hglen).1 hcons
  have hsame : ∀ p, isCheckBit p = false → bitSet g p = bitSet f p := by
    rintro ⟨k, b⟩ hp
    unfold bitSet
    by_cases hk : k = 50
    · subst hk
      have hb : 13 ≤ b := by
        simp only [isCheckBit, Bool.and_eq_false_iff, decide_eq_false_iff_not] at hp
        rcases hp with h | h
        · simp at h
        · omega
      have h1 : f[50]? = some f[50] := by simp [hf]
      have h2 : g[50]? = some g[50] := by simp [hglen]
      simp only [h1, h2, Option.getD_some]
      exact h50 _ _ h1 h2 b hb
    · simp only [hne k hk]
  refine ⟨g, hg, hglen, hsame, ?_, hev⟩
  intro j hj
  rw [hc j hj]
  have : ((setBits g).filter fun p => !isCheckBit p && (hammingPosition p).testBit j) =
      ((setBits f).filter fun p => !isCheckBit p && (hammingPosition p).testBit j) := by
    unfold setBits
    rw [List.filter_filter, List.filter_filter]
    apply List.filter_congr
    intro p _
    cases hp : isCheckBit p
    · rw [hsame p hp]
    · simp
  rw [this]

/-- Distinct data bits have distinct Hamming positions, none of them a power of two, all of them
below 4096: the code can locate any single error. -/
theorem C76_positions (p q : Nat × Nat) (hp : IsFrameBit p) (hq : IsFrameBit q) :
    (hammingPosition p = hammingPosition q → p = q) ∧ hammingPosition p < 2^12 ∧
      ∀ n, hammingPosition p ≠ 2^n := by
  obtain ⟨k, b⟩ := p
  obtain ⟨k', b'⟩ := q
  obtain ⟨h1, h2⟩ := hp
  obtain ⟨h3, h4⟩ := hq
  simp only at h1 h2 h3 h4
  unfold hammingPosition
  dsimp only
  refine ⟨fun h => ?_, ?_, fun n hn => ?_⟩
  · have : k = k' ∧ b = b' := by
      split at h <;> split at h <;> (try split at h) <;> (try split at h) <;> omega
    rw [this.1, this.2]
  · split
    · omega
    · split <;> omega
  · by_cases h : n ≤ 12
    · have : n = 0 ∨ n = 1 ∨ n = 2 ∨ n = 3 ∨ n = 4 ∨ n = 5 ∨ n = 6 ∨ n = 7 ∨ n = 8 ∨ n = 9 ∨ n = 10 ∨
        n = 11 ∨ n = 12 := by omega
      rcases this with e|e|e|e|e|e|e|e|e|e|e|e|e <;> subst e <;> simp only [Nat.reducePow] at hn <;>
        split at hn <;> (try split at hn) <;> omega
    · have : 2^13 ≤ 2^n := Nat.pow_le_pow_right (by omega) (by omega)
      rw [← hn] at this
      split at this
      · omega
      · split at this <;> omega

/-- Error location: in a consistent frame whose data bit `p` is flipped, the XOR of the stored and
the recomputed ECC has the Hamming position of `p` in its low 12 bits. -/
theorem C76_locate (f : List Word) (hf : f.length = 101) (hc : EccConsistent f) (p : Nat × Nat)
    (hp : IsFrameBit p) (hd : isCheckBit p = false) :
    (storedECC (flipBit f p) ^^^ (calculateECC (flipBit f p) &&& 0x1FFF#32)).toNat % 2^12 =
      hammingPosition p := by
  change (syndrome (flipBit f p)).toNat % 2^12 = _
  rw [syndrome_flipBit f p hf, (eccConsistent_iff f).1 hc, BitVec.zero_xor]
  have h := col_data p.1 p.2 hp.1 hp.2 (by
    intro ⟨h1, h2⟩
    simp [isCheckBit, h1, h2] at hd)
  rw [h]
  obtain ⟨h1, h2⟩ := hp
  unfold hammingPosition
  dsimp only
  split <;> split <;> (try split) <;> (try split) <;> omega

/-- Non-vacuity: a frame with three data bits set, whose ECC field is not yet right; two of the
positions have bit 5. -/
example : let f := flipBits (List.replicate 101 0#32) [(0, 0), (1, 3), (100, 31)]
    f.length = 101 ∧ setBits f = [(0, 0), (1, 3), (100, 31)] ∧
      (setBits f).map hammingPosition = [0x320, 0x343, 0xFFF] ∧ ¬ EccConsistent f ∧
      isCheckBit (100, 31) = false := by
  decide +kernel

end Verif.Props
