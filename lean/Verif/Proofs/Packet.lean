import Verif.Model.Packet
import Verif.Proofs.BitOps
/-! # Packet header lemmas -/
namespace Verif.BitOps

theorem get_set_same {w : Nat} (r f : BitVec w) (t b : Nat) (hbt : b ≤ t) (ht : t < w)
    (hf : f.toNat < 2 ^ (t - b + 1)) : bitFieldGet (bitFieldSet r t b f) t b = f := by
  apply BitVec.eq_of_getLsbD_eq
  intro i hi
  rw [getLsbD_bitFieldGet _ _ _ _ hbt ht, getLsbD_bitFieldSet _ _ _ _ _ hbt ht]
  by_cases h : i ≤ t - b
  · have h4 : b + i ≤ t := by omega
    simp [h, h4]
  · have : f.getLsbD i = false := by
      apply Nat.testBit_lt_two_pow
      exact Nat.lt_of_lt_of_le hf (Nat.pow_le_pow_right (by decide) (by omega))
    simp [h, this]

theorem get_set_other {w : Nat} (r f : BitVec w) (t b t' b' : Nat) (hbt : b ≤ t) (ht : t < w)
    (hbt' : b' ≤ t') (ht' : t' < w) (hd : t < b' ∨ t' < b) :
    bitFieldGet (bitFieldSet r t b f) t' b' = bitFieldGet r t' b' := by
  apply BitVec.eq_of_getLsbD_eq
  intro i hi
  rw [getLsbD_bitFieldGet _ _ _ _ hbt' ht', getLsbD_bitFieldGet _ _ _ _ hbt' ht',
    getLsbD_bitFieldSet _ _ _ _ _ hbt ht]
  by_cases h : i ≤ t' - b'
  · rw [if_neg (by omega)]
  · simp [h]

end Verif.BitOps

namespace Verif.Xc7.Packet
open Verif.BitOps

theorem header_type1 (p : Packet) (h : p.headerType = kTYPE1) (ho : p.opcode.toNat < 4)
    (ha : p.address.toNat < 2^14) (hl : p.data.length < 2^11) :
    bitFieldGet p.header 31 29 = kTYPE1 ∧ bitFieldGet p.header 28 27 = p.opcode ∧
    bitFieldGet p.header 26 13 = p.address ∧ (bitFieldGet p.header 10 0).toNat = p.data.length := by
  have hlen : (BitVec.ofNat 32 p.data.length).toNat = p.data.length := by
    rw [BitVec.toNat_ofNat]; exact Nat.mod_eq_of_lt (by omega)
  simp only [header, h, if_true]
  refine ⟨?_, ?_, ?_, ?_⟩
  · rw [get_set_other _ _ 10 0 31 29 (by decide) (by decide) (by decide) (by decide) (by decide),
      get_set_other _ _ 26 13 31 29 (by decide) (by decide) (by decide) (by decide) (by decide),
      get_set_other _ _ 28 27 31 29 (by decide) (by decide) (by decide) (by decide) (by decide),
      get_set_same _ _ 31 29 (by decide) (by decide) (by decide)]
  · rw [get_set_other _ _ 10 0 28 27 (by decide) (by decide) (by decide) (by decide) (by decide),
      get_set_other _ _ 26 13 28 27 (by decide) (by decide) (by decide) (by decide) (by decide),
      get_set_same _ _ 28 27 (by decide) (by decide) ho]
  · rw [get_set_other _ _ 10 0 26 13 (by decide) (by decide) (by decide) (by decide) (by decide),
      get_set_same _ _ 26 13 (by decide) (by decide) ha]
  · rw [get_set_same _ _ 10 0 (by decide) (by decide) (by rw [hlen]; exact hl), hlen]

theorem header_type2 (p : Packet) (h : p.headerType = kTYPE2) (ho : p.opcode.toNat < 4)
    (hl : p.data.length < 2^27) :
    bitFieldGet p.header 31 29 = kTYPE2 ∧ bitFieldGet p.header 28 27 = p.opcode ∧
    (bitFieldGet p.header 26 0).toNat = p.data.length := by
  have hlen : (BitVec.ofNat 32 p.data.length).toNat = p.data.length := by
    rw [BitVec.toNat_ofNat]; exact Nat.mod_eq_of_lt (by omega)
  have h1 : ¬ (kTYPE2 = kTYPE1) := by decide
  simp only [header, h, h1, if_true, if_false]
  refine ⟨?_, ?_, ?_⟩
  · rw [get_set_other _ _ 26 0 31 29 (by decide) (by decide) (by decide) (by decide) (by decide),
      get_set_other _ _ 28 27 31 29 (by decide) (by decide) (by decide) (by decide) (by decide),
      get_set_same _ _ 31 29 (by decide) (by decide) (by decide)]
  · rw [get_set_other _ _ 26 0 28 27 (by decide) (by decide) (by decide) (by decide) (by decide),
      get_set_same _ _ 28 27 (by decide) (by decide) ho]
  · rw [get_set_same _ _ 26 0 (by decide) (by decide) (by rw [hlen]; exact hl), hlen]

theorem header_type0 (p : Packet) (h : p.headerType = kNONE) : p.header = 0#32 := by
  have h1 : ¬ (kNONE = kTYPE1) := by decide
  have h2 : ¬ (kNONE = kTYPE2) := by decide
  simp only [header, h, h1, h2, if_false]
  decide

/-- What the decoder needs to return the same packet: the fields fit their places. -/
def Encodable (p : Packet) : Prop :=
  (p.headerType = kNONE ∧ p.opcode = opNOP ∧ p.address = regCRC ∧ p.data = []) ∨
  (p.headerType = kTYPE1 ∧ p.opcode.toNat < 4 ∧ p.address.toNat < 2^14 ∧ p.data.length < 2^11) ∨
  (p.headerType = kTYPE2 ∧ p.opcode.toNat < 4 ∧ p.data.length < 2^27)

theorem decode_encode (p : Packet) (he : Encodable p) (prev : Option Packet)
    (hprev : p.headerType = kTYPE2 → ∃ q, prev = some q ∧ q.address = p.address)
    (rest : List Word) :
    initWithWords (p.header :: (p.data ++ rest)) prev = (rest, some p) := by
  rcases he with ⟨h, h1, h2, h3⟩ | ⟨h, ho, ha, hl⟩ | ⟨h, ho, hl⟩
  · rw [header_type0 p h]
    obtain ⟨t, o, a, d⟩ := p
    simp only at h h1 h2 h3
    subst h h1 h2 h3
    simp only [initWithWords]
    rw [show bitFieldGet 0#32 31 29 = kNONE by decide]
    simp
  · obtain ⟨e1, e2, e3, e4⟩ := header_type1 p h ho ha hl
    simp only [initWithWords, e1, e2, e3, e4]
    rw [if_neg (by decide), if_pos trivial, if_neg (by simp)]
    simp [← h]
  · obtain ⟨e1, e2, e3⟩ := header_type2 p h ho hl
    simp only [initWithWords, e1, e2, e3]
    rw [if_neg (by decide), if_neg (by decide), if_pos trivial, if_neg (by simp)]
    obtain ⟨q, rfl, hq⟩ := hprev h
    simp [← h, hq]

end Verif.Xc7.Packet
