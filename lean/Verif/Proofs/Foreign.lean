import Verif.Spec.Foreign
import Verif.Proofs.Readback
import Verif.Proofs.File
/-! # Frame data with frames the part does not have -/
namespace Verif.Xc7
open Verif.Spec Verif.Xc7.Packet Verif.Props

theorem reachedFrom_walkAt (p : Part) (a : FrameAddress) : ∀ i b, walkAt p a i = some b → ReachedFrom p a b
  | 0, b, h => by cases h; exact .start
  | i + 1, b, h => by
    rw [walkAt] at h
    obtain ⟨c, hc, hn⟩ := Option.bind_eq_some_iff.1 h
    exact .step (reachedFrom_walkAt p a i c hc) hn

theorem placed_succ {n : Nat} {p : Part} {a nx : FrameAddress} (h : p.next a = some nx) (pre data : List Word)
    (hpre : pre.length = n + (if endsRow p a then 2 * n else 0)) {k : Nat} {ws : List Word} (hpl : Placed n p nx data k ws) :
    Placed n p a (pre ++ data) k ws := by
  obtain ⟨i, b, h1, h2, h3, h4⟩ := hpl
  refine ⟨i + 1, b, by rw [walkAt_succ p a nx h]; exact h1, h2, ?_, ?_⟩
  · rw [blockOffset_succ n p a nx h, List.length_append, hpre]; omega
  · rw [blockOffset_succ n p a nx h, ← hpre, List.drop_append, List.drop_eq_nil_of_le (by omega), List.nil_append,
      show pre.length + blockOffset n p nx i - pre.length = blockOffset n p nx i by omega]
    exact h4

theorem framePayload_take {n : Nat} (p : Part) (a : FrameAddress) (f : FrameWords n) (rest : List Word) :
    (framePayload p a f ++ rest).take n = f.toList := by
  have : f.toList.length = n := Vector.length_toList
  unfold framePayload
  rw [List.append_assoc, List.take_append, List.take_of_length_le (by omega), this, Nat.sub_self, List.take_zero, List.append_nil]

/-- The payload of a frame map, read along the walk: the frames before the first foreign one are found at their
addresses, and the foreign one at the address behind it. -/
theorem foreign_placed {n : Nat} (hn : 0 < n) (p : Part) (hp : Fits p) (k0 : Nat) (f0 : FrameWords n) :
    ∀ (m : BMap (FrameWords n)) (a : FrameAddress), m.Sorted → a.toNat < 2 ^ 26 →
    (∀ k f, (k, f) ∈ m → a.toNat ≤ k) → (∀ b, ReachedFrom p a b → ∃ f, (b.toNat, f) ∈ m) → (k0, f0) ∈ m →
    (∀ k f, (k, f) ∈ m → k < k0 → ∃ b, ReachedFrom p a b ∧ b.toNat = k) → (∀ b, ReachedFrom p a b → b.toNat ≠ k0) →
    (∀ k f, (k, f) ∈ m → k < k0 → Placed n p a (type2Payload p m) k f.toList) ∧
    (∀ b, ReachedFrom p a b → k0 < b.toNat → (∀ c, ReachedFrom p a c → k0 < c.toNat → b.toNat ≤ c.toNat) →
      Placed n p a (type2Payload p m) b.toNat f0.toList) := by
  intro m
  induction m with
  | nil => intro a _ _ _ h; obtain ⟨_, h⟩ := h a .start; cases h
  | cons kv m ih =>
    obtain ⟨k, f⟩ := kv
    intro a hs ha hge hall h0 hbelow hfor
    obtain ⟨hlt, hs'⟩ := List.pairwise_cons.mp hs
    have hka : k = a.toNat := by
      obtain ⟨g, hg⟩ := hall a .start
      rcases List.mem_cons.mp hg with h1 | h1
      · exact (Prod.mk.inj h1).1.symm
      · have := hlt _ h1
        have := hge k f List.mem_cons_self
        simp only at *
        omega
    have hk0 : (k0, f0) ∈ m := by
      rcases List.mem_cons.mp h0 with h1 | h1
      · exact absurd ((Prod.mk.inj h1).1.trans hka).symm (hfor a .start)
      · exact h1
    have hak0 : a.toNat < k0 := by have := hlt _ hk0; simp only at this; omega
    have hofNat : BitVec.ofNat 32 k = a := by rw [hka, BitVec.ofNat_toNat, BitVec.setWidth_eq]
    have hpay : type2Payload p ((k, f) :: m) = framePayload p a f ++ type2Payload p m := by rw [type2Payload, hofNat]
    have hflen : (framePayload p a f).length = n + (if endsRow p a then 2 * n else 0) := by
      rw [framePayload_length, Nat.mul_comm n 2]
    have hself : Placed n p a (type2Payload p ((k, f) :: m)) k f.toList := by
      refine ⟨0, a, rfl, hka.symm, ?_, ?_⟩
      · rw [hpay, List.length_append, hflen, blockOffset]; omega
      · rw [hpay, blockOffset, List.drop_zero, framePayload_take]
    cases hnx : p.next a with
    | none =>
      have honly : ∀ b, ReachedFrom p a b → b = a := by
        intro b hb
        rcases reachedFrom_inv hb with rfl | ⟨x, h1, _⟩
        · rfl
        · rw [hnx] at h1; cases h1
      constructor
      · intro j g hj hjk
        obtain ⟨b, hb, hbj⟩ := hbelow j g hj hjk
        rw [honly b hb] at hbj
        rcases List.mem_cons.mp hj with h1 | h1
        · obtain ⟨e1, e2⟩ := Prod.mk.inj h1
          rw [e1, e2]; exact hself
        · have := hlt _ h1
          simp only at this
          omega
      · intro b hb hkb
        rw [honly b hb] at hkb
        omega
    | some nx =>
      obtain ⟨_, hlt2, hnx26⟩ := next_sound p hp a nx ha hnx
      have hlt2 : a.toNat < nx.toNat := hlt2
      have hstep : ∀ b, ReachedFrom p a b → a.toNat < b.toNat → ReachedFrom p nx b := by
        intro b hb hab
        rcases reachedFrom_inv hb with rfl | ⟨x, h1, h2⟩
        · omega
        · rw [hnx] at h1; cases h1; exact h2
      have hnxr : ReachedFrom p a nx := .step .start hnx
      by_cases hc : k0 < nx.toNat
      · -- the foreign frame comes next
        have hm : ∃ m', m = (k0, f0) :: m' := by
          cases m with
          | nil => cases hk0
          | cons kv2 m2 =>
            rcases List.mem_cons.mp hk0 with h1 | h1
            · exact ⟨m2, by rw [← h1]⟩
            · exfalso
              have h2 : kv2.1 < k0 := (List.pairwise_cons.mp hs').1 _ h1
              obtain ⟨b, hb, hbk⟩ := hbelow kv2.1 kv2.2 (List.mem_cons_of_mem _ List.mem_cons_self) h2
              have h3 : k < kv2.1 := hlt _ List.mem_cons_self
              have := (reachedFrom_ge p hp nx b hnx26 (hstep b hb (by omega))).1
              omega
        obtain ⟨m', rfl⟩ := hm
        constructor
        · intro j g hj hjk
          rcases List.mem_cons.mp hj with h1 | h1
          · obtain ⟨e1, e2⟩ := Prod.mk.inj h1
            rw [e1, e2]; exact hself
          · exfalso
            rcases List.mem_cons.mp h1 with h2 | h2
            · have := (Prod.mk.inj h2).1; omega
            · have : k0 < j := (List.pairwise_cons.mp hs').1 _ h2
              omega
        · intro b hb hkb hfirst
          have hbn : b = nx := by
            apply BitVec.eq_of_toNat_eq
            have h1 := hfirst nx hnxr hc
            have h2 := (reachedFrom_ge p hp nx b hnx26 (hstep b hb (by omega))).1
            omega
          subst hbn
          rw [hpay]
          refine placed_succ hnx _ _ hflen ⟨0, b, rfl, rfl, ?_, ?_⟩
          · rw [type2Payload, blockOffset, List.length_append, framePayload_length]; omega
          · rw [type2Payload, blockOffset, List.drop_zero, framePayload_take]
      · have hne := hfor nx hnxr
        have hnk : nx.toNat < k0 := by omega
        obtain ⟨r1, r2⟩ := ih nx hs' hnx26
          (by
            intro j g hj
            by_cases hjk : j < k0
            · obtain ⟨b, hb, hbj⟩ := hbelow j g (List.mem_cons_of_mem _ hj) hjk
              have h1 : k < j := hlt _ hj
              have := (reachedFrom_ge p hp nx b hnx26 (hstep b hb (by omega))).1
              omega
            · omega)
          (by
            intro b hb
            obtain ⟨g, hg⟩ := hall b (reachedFrom_head hnx hb)
            rcases List.mem_cons.mp hg with h1 | h1
            · have h2 := (Prod.mk.inj h1).1
              have := (reachedFrom_ge p hp nx b hnx26 hb).1
              omega
            · exact ⟨g, h1⟩)
          hk0
          (by
            intro j g hj hjk
            obtain ⟨b, hb, hbj⟩ := hbelow j g (List.mem_cons_of_mem _ hj) hjk
            have h1 : k < j := hlt _ hj
            exact ⟨b, hstep b hb (by omega), hbj⟩)
          (fun b hb => hfor b (reachedFrom_head hnx hb))
        constructor
        · intro j g hj hjk
          rcases List.mem_cons.mp hj with h1 | h1
          · obtain ⟨e1, e2⟩ := Prod.mk.inj h1
            rw [e1, e2]; exact hself
          · rw [hpay]; exact placed_succ hnx _ _ hflen (r1 j g h1 hjk)
        · intro b hb hkb hfirst
          rw [hpay]
          exact placed_succ hnx _ _ hflen (r2 b (hstep b hb (by omega)) hkb fun c hc => hfirst c (reachedFrom_head hnx hc))

/-- Decoding the programming sequence of a part with any frame data. -/
theorem decode_any {n : Nat} (hn : 0 < n) (p : Part) (hp : Fits p) (data : List Word) :
    ∃ c, initWithPackets n p (configurationPackage data p.idcode) = some c ∧ c.part = p ∧ c.frames.Sorted ∧
      ∀ k ws, c.frames.get? k = some ws ↔ Placed n p 0#32 data k ws := by
  obtain ⟨h1, h2, _⟩ := fdriLoop_spec hn p hp data.length data 0#32 [] (Nat.le_refl _) (by decide) List.Pairwise.nil
  rw [initWithPackets, configurationPackage, decodePackets_append, decodePackets_append, decode_prefix]
  simp only [Option.bind_some]
  have : decodePackets n p { cmd := 1#32 } [⟨kTYPE2, opWrite, regFDRI, data⟩] =
      some { cmd := 1#32, frames := (fdriLoop n p data.length data 0#32 []).1, cur := (fdriLoop n p data.length data 0#32 []).2 } := rfl
  rw [this]
  simp only [Option.bind_some]
  obtain ⟨s', e1, e2⟩ := decodePackets_other n p packageSuffix
    { cmd := 1#32, frames := (fdriLoop n p data.length data 0#32 []).1, cur := (fdriLoop n p data.length data 0#32 []).2 } suffix_other
  rw [e1]
  refine ⟨⟨p, s'.frames⟩, rfl, rfl, by rw [e2]; exact h1, fun k ws => ?_⟩
  rw [e2]
  show (fdriLoop n p data.length data 0#32 []).1.get? k = some ws ↔ _
  rw [h2]
  constructor
  · rintro (h | ⟨_, h⟩)
    · exact h
    · cases h
  · exact Or.inl

end Verif.Xc7
