import Verif.Props.C20_C22
import Verif.Proofs.CrcPoly
/-! # C77: the configuration CRC is a CRC-32C -/
namespace Verif.Props
open Verif.Xc7 Verif.Spec Polynomial

private theorem history_poly (h : List (Word × Word)) (hh : ∀ x ∈ h, x.1.toNat < 32) : ∀ prev : Word,
    ∃ q, polyOf (lsbFirst 32 (crcHistory prev h)) =
      X^(37 * h.length) * polyOf (lsbFirst 32 prev) + X^32 * polyOf (crcInput h) + castagnoli * q := by
  induction h with
  | nil => intro prev; exact ⟨0, by simp [crcHistory, crcInput, polyOf_nil]⟩
  | cons x xs ih =>
    intro prev
    obtain ⟨q, hq⟩ := ih (fun y hy => hh y (by simp [hy])) (icapCRC x.1 x.2 prev)
    obtain ⟨r, hr⟩ := polyOf_icapCRC x.1 x.2 prev (hh x (by simp))
    have hlen : (crcInput xs).length = 37 * xs.length := by
      clear ih hh hq hr
      induction xs with
      | nil => rfl
      | cons y ys ih =>
        have : crcInput (y :: ys) = (lsbFirst 32 y.2 ++ lsbFirst 5 y.1) ++ crcInput ys := rfl
        rw [this, List.length_append, ih]
        simp [lsbFirst]; omega
    refine ⟨X^(37 * xs.length) * r + q, ?_⟩
    have e1 : crcHistory prev (x :: xs) = crcHistory (icapCRC x.1 x.2 prev) xs := rfl
    have e2 : crcInput (x :: xs) = (lsbFirst 32 x.2 ++ lsbFirst 5 x.1) ++ crcInput xs := rfl
    rw [e1, e2, hq, hr, polyOf_append _ (crcInput xs), hlen, List.length_cons, Nat.mul_add, pow_add]
    ring

/-- Starting from any register value, the CRC after any history of writes to 5-bit register
addresses is the remainder, modulo the Castagnoli polynomial over GF(2), of the previous value
shifted past the new bits plus the new bits shifted by 32. -/
theorem C77_remainder (prev : Word) (h : List (Word × Word)) (hh : ∀ x ∈ h, x.1.toNat < 32) :
    polyOf (lsbFirst 32 (crcHistory prev h)) =
      (X^(37 * h.length) * polyOf (lsbFirst 32 prev) + X^32 * polyOf (crcInput h)) %ₘ castagnoli := by
  obtain ⟨q, hq⟩ := history_poly h hh prev
  refine ((div_modByMonic_unique (q := -q) (r := polyOf (lsbFirst 32 (crcHistory prev h)))
    castagnoli_monic ⟨?_, ?_⟩).2).symm
  · rw [hq]; ring
  · rw [degree_castagnoli]
    have := degree_polyOf (lsbFirst 32 (crcHistory prev h))
    simpa [lsbFirst] using this

/-- After a reset of the CRC register (value 0), the CRC of a history of writes is the CRC-32C
remainder of the bits written, and no other value has that remainder. -/
theorem C77_crc32c (h : List (Word × Word)) (hh : ∀ x ∈ h, x.1.toNat < 32) (c : Word) :
    crcHistory 0#32 h = c ↔
      polyOf (lsbFirst 32 c) = (X^32 * polyOf (crcInput h)) %ₘ castagnoli := by
  have hz : polyOf (lsbFirst 32 0#32) = 0 := by
    have e : lsbFirst 32 0#32 = List.replicate 32 false := by decide
    rw [e]
    have : ∀ n, polyOf (List.replicate n false) = 0 := by
      intro n
      induction n with
      | zero => rfl
      | succ n ih => rw [List.replicate_succ, polyOf_cons, ih]; simp [bit]
    exact this 32
  have := C77_remainder 0#32 h hh
  rw [hz, mul_zero, zero_add] at this
  rw [← this]
  constructor
  · rintro rfl; rfl
  · intro he
    exact lsbFirst_inj _ _ (polyOf_inj _ _ (by simp [lsbFirst]) he.symm)

/-- Non-vacuity: two writes, to FDRI (2) and CMD (4), with the value the register takes. -/
example : (∀ x ∈ [(2#32, 0xDEADBEEF#32), (4#32, 0x7#32)], x.1.toNat < 32) ∧
    crcHistory 0#32 [(2#32, 0xDEADBEEF#32), (4#32, 0x7#32)] ≠ 0#32 := by
  decide +kernel

end Verif.Props
