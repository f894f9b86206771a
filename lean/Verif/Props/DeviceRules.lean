import Verif.Props.C63
/-! # The rules of the device, for C63: what MASK protects -/
namespace Verif.Props
open Verif.Spec Verif.Xc7

/-- A write to CTL0 changes the bits that MASK says and no others. -/
theorem C63_mask (id : BitVec 32) (s : Device) (w : BitVec 32) (hm : s.mask < 2 ^ 32) (b : Nat) (hb : b < 32) :
    (Device.write id s 5 w).ctl0.testBit b = if s.mask.testBit b then w.toNat.testBit b else s.ctl0.testBit b := by
  have e : (Device.write id s 5 w).ctl0 = (s.ctl0 &&& (2 ^ 32 - (s.mask + 1))) ||| (w.toNat &&& s.mask) := by
    rw [Nat.add_comm, ← Nat.sub_sub]
    rfl
  rw [e, Nat.testBit_or, Nat.testBit_and, Nat.testBit_and, Nat.testBit_two_pow_sub_succ hm, decide_eq_true hb]
  cases s.mask.testBit b <;> simp

theorem write_mask (id : BitVec 32) (s : Device) (reg : Nat) (w : BitVec 32) (hm : s.mask < 2 ^ 32) : (Device.write id s reg w).mask < 2 ^ 32 := by
  unfold Device.write
  repeat' split
  all_goals first
    | exact hm
    | exact w.isLt

theorem words_mask (id : BitVec 32) (reg : Nat) : ∀ (ws : List (BitVec 32)) (s : Device), s.mask < 2 ^ 32 → (ws.foldl (fun s w => s.write id reg w) s).mask < 2 ^ 32
  | [], _, h => h
  | w :: ws, s, h => words_mask id reg ws _ (write_mask id s reg w h)

/-- MASK fits in 32 bits whatever the device was sent. -/
theorem C63_mask_fits (id : BitVec 32) (words : List (BitVec 32)) : (Device.run id words).mask < 2 ^ 32 := by
  unfold Device.run
  have key : ∀ (ps : List Packet) (s : Device), s.mask < 2 ^ 32 → (ps.foldl (Device.packet id) s).mask < 2 ^ 32 := by
    intro ps
    induction ps with
    | nil => exact fun s h => h
    | cons p ps ih =>
      intro s h
      refine ih _ ?_
      unfold Device.packet
      split
      · exact h
      · split
        · split
          · exact h
          · split <;> exact h
        · exact words_mask id _ _ _ h
  exact key _ _ (by decide)

/-- MASK 1: of a word with all bits 0 only bit 0 is taken over. -/
example : (Device.write 0#32 { mask := 1, ctl0 := 0x403 } 5 0#32).ctl0 = 0x402 := rfl

end Verif.Props
