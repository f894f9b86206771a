import Verif.Proofs.Readback
/-! # C64: reading back arbitrary configuration sequences

Registers: 1 FAR, 2 FDRI, 4 CMD (1 = WCFG), 6 MASK, 12 IDCODE, 24 CTL1. -/
namespace Verif.Props
open Verif.Xc7 Verif.Xc7.Packet Verif.Spec Verif.BitOps

theorem fdriLoop_sorted (n : Nat) (p : Part) : ∀ (fuel : Nat) (data : List Word) (cur : FrameAddress)
    (frames : BMap (List Word)), frames.Sorted → (fdriLoop n p fuel data cur frames).1.Sorted := by
  intro fuel
  induction fuel with
  | zero => intro data cur frames h; exact h
  | succ fuel ih =>
    intro data cur frames h
    rw [fdriLoop]
    split
    · exact h
    · have h2 := (sorted_assign h cur.toNat (data.take n)).1
      dsimp only
      split
      · exact h2
      · exact ih _ _ _ h2

theorem decodePacket_sorted (n : Nat) (p : Part) (s s' : DecState) (x : Packet) (hs : s.frames.Sorted)
    (h : decodePacket n p s x = some s') : s'.frames.Sorted := by
  unfold decodePacket at h
  split at h
  · cases h; exact hs
  split at h
  · split at h <;> cases h <;> exact hs
  split at h
  · split at h <;> cases h <;> exact hs
  split at h
  · split at h <;> cases h <;> exact hs
  split at h
  · split at h
    · cases h; exact hs
    · split at h <;> cases h; exact hs
  split at h
  · split at h <;> cases h <;> exact hs
  split at h
  · cases h; exact fdriLoop_sorted _ _ _ _ _ _ hs
  · cases h; exact hs

theorem decodePackets_sorted (n : Nat) (p : Part) : ∀ (l : List Packet) (s s' : DecState), s.frames.Sorted →
    decodePackets n p s l = some s' → s'.frames.Sorted := by
  intro l
  induction l with
  | nil => intro s s' hs h; cases h; exact hs
  | cons x xs ih =>
    intro s s' hs h
    rw [decodePackets] at h
    cases hx : decodePacket n p s x with
    | none => rw [hx] at h; cases h
    | some s1 =>
      rw [hx] at h
      exact ih s1 s' (decodePacket_sorted n p s s1 x hs hx) h

/-- The decoder state after a sequence that decodes. -/
theorem init_state {n : Nat} {p : Part} {l : List Packet} {c : Configuration} (h : initWithPackets n p l = some c) :
    ∃ s, decodePackets n p {} l = some s ∧ c = ⟨p, s.frames⟩ ∧ s.frames.Sorted := by
  obtain ⟨s, hs, hc⟩ := Option.map_eq_some_iff.1 h
  exact ⟨s, hs, hc.symm, decodePackets_sorted n p l {} s List.Pairwise.nil hs⟩

theorem dec_cmd (n : Nat) (p : Part) (s : DecState) (t : BitVec 32) (w : Word) : decodePacket n p s (writes t 4 [w]) =
    some { s with cmd := w, start := s.start || w == 1#32 } := rfl
theorem dec_far (n : Nat) (p : Part) (s : DecState) (t : BitVec 32) (w : Word) : decodePacket n p s (writes t 1 [w]) =
    some { s with far := w, start := s.start || (bitFieldGet s.ctl1 21 21 == 0#32 && s.cmd == 1#32) } := rfl
theorem dec_mask (n : Nat) (p : Part) (s : DecState) (t : BitVec 32) (w : Word) : decodePacket n p s (writes t 6 [w]) =
    some { s with mask := w } := rfl
theorem dec_ctl1 (n : Nat) (p : Part) (s : DecState) (t : BitVec 32) (w : Word) : decodePacket n p s (writes t 24 [w]) =
    some { s with ctl1 := w &&& s.mask } := rfl
theorem dec_fdri (n : Nat) (p : Part) (s : DecState) (t : BitVec 32) (data : List Word) : decodePacket n p s (writes t 2 data) =
    some { s with start := false,
                  frames := (fdriLoop n p data.length data (if s.start then s.far else s.cur) s.frames).1,
                  cur := (fdriLoop n p data.length data (if s.start then s.far else s.cur) s.frames).2 } := rfl

theorem decodePackets_one (n : Nat) (p : Part) (s : DecState) (x : Packet) : decodePackets n p s [x] = decodePacket n p s x := by
  rw [decodePackets]
  cases decodePacket n p s x <;> rfl

/-- One more FDRI packet. -/
theorem step_fdri {n : Nat} (hn : 0 < n) (p : Part) (hp : Fits p) (l : List Packet) (s : DecState)
    (hl : decodePackets n p {} l = some s) (a : FrameAddress) (ha : (if s.start then s.far else s.cur) = a) (ha2 : a.toNat < 2 ^ 26)
    (t : BitVec 32) (data : List Word) :
    ∃ s', decodePackets n p {} (l ++ [writes t 2 data]) = some s' ∧
      (∀ k ws, s'.frames.get? k = some ws ↔ Over (Placed n p a data) s.frames k ws) ∧
      Resume n p a data s'.cur ∧ s'.start = false ∧ s'.cmd = s.cmd ∧ s'.ctl1 = s.ctl1 := by
  obtain ⟨_, h2, h3⟩ := fdriLoop_spec hn p hp data.length data a s.frames (Nat.le_refl _) ha2
    (decodePackets_sorted n p l {} s List.Pairwise.nil hl)
  refine ⟨{ s with start := false, frames := (fdriLoop n p data.length data a s.frames).1,
                   cur := (fdriLoop n p data.length data a s.frames).2 }, ?_, h2, h3, rfl, rfl, rfl⟩
  rw [decodePackets_append, hl, Option.bind_some, decodePackets_one, dec_fdri, ha]

/-- The state after `CMD WCFG; FAR a; FDRI data`, after any sequence that decodes. -/
theorem step_block {n : Nat} (hn : 0 < n) (p : Part) (hp : Fits p) (l : List Packet) (s : DecState)
    (hl : decodePackets n p {} l = some s) (a : FrameAddress) (ha : a.toNat < 2 ^ 26) (t1 t2 t3 : BitVec 32) (data : List Word) :
    ∃ s', decodePackets n p {} (l ++ [writes t1 4 [1#32], writes t2 1 [a], writes t3 2 data]) = some s' ∧
      (∀ k ws, s'.frames.get? k = some ws ↔ Over (Placed n p a data) s.frames k ws) ∧
      Resume n p a data s'.cur ∧ s'.start = false ∧ s'.cmd = 1#32 ∧ s'.ctl1 = s.ctl1 := by
  have h1 : decodePackets n p {} (l ++ [writes t1 4 [1#32], writes t2 1 [a]]) =
      some { s with cmd := 1#32, far := a, start := true } := by
    rw [decodePackets_append, hl, Option.bind_some, decodePackets, dec_cmd]
    dsimp only
    rw [decodePackets_one, dec_far]
    simp
  obtain ⟨s', e1, e2, e3, e4, e5, e6⟩ := step_fdri hn p hp _ _ h1 a rfl ha t3 data
  refine ⟨s', ?_, e2, e3, e4, e5, e6⟩
  rw [← e1, List.append_assoc]; rfl

/-- Reading: after any sequence, `CMD WCFG; FAR a; FDRI data` puts the words into the frames of the walk from `a`; the
other frames keep what they had. -/
theorem C64_block {n : Nat} (hn : 0 < n) (p : Part) (hp : Fits p) (l : List Packet) (c0 : Configuration)
    (h0 : initWithPackets n p l = some c0) (a : FrameAddress) (ha : a.toNat < 2 ^ 26) (t1 t2 t3 : BitVec 32) (data : List Word) :
    ∃ c, initWithPackets n p (l ++ [writes t1 4 [1#32], writes t2 1 [a], writes t3 2 data]) = some c ∧
      ∀ k ws, c.frames.get? k = some ws ↔ Over (Placed n p a data) c0.frames k ws := by
  obtain ⟨s, hs, rfl, _⟩ := init_state h0
  obtain ⟨s', e1, e2, _⟩ := step_block hn p hp l s hs a ha t1 t2 t3 data
  exact ⟨⟨p, s'.frames⟩, by rw [initWithPackets, e1]; rfl, e2⟩

/-- Packets that are no writes to FAR, FDRI, CMD keep the place where the next block begins. -/
theorem noise_state (n : Nat) (p : Part) : ∀ (l : List Packet) (s s' : DecState),
    (∀ x ∈ l, x.opcode.toNat = 2 → x.address.toNat ≠ 1 ∧ x.address.toNat ≠ 2 ∧ x.address.toNat ≠ 4) →
    decodePackets n p s l = some s' →
    s'.start = s.start ∧ s'.cur = s.cur ∧ s'.far = s.far ∧ s'.cmd = s.cmd ∧ s'.frames = s.frames := by
  intro l
  induction l with
  | nil => intro s s' _ h; cases h; exact ⟨rfl, rfl, rfl, rfl, rfl⟩
  | cons x xs ih =>
    intro s s' hno h
    rw [decodePackets] at h
    cases hx : decodePacket n p s x with
    | none => rw [hx] at h; cases h
    | some s1 =>
      rw [hx] at h
      obtain ⟨e1, e2, e3, e4, e5⟩ := ih s1 s' (fun y hy => hno y (List.mem_cons_of_mem _ hy)) h
      have h1 : s1.start = s.start ∧ s1.cur = s.cur ∧ s1.far = s.far ∧ s1.cmd = s.cmd ∧ s1.frames = s.frames := by
        have hn := hno x List.mem_cons_self
        unfold decodePacket at hx
        split at hx
        · cases hx; exact ⟨rfl, rfl, rfl, rfl, rfl⟩
        rename_i ho
        have ho : x.opcode = opWrite := by simpa using ho
        obtain ⟨n1, n2, n4⟩ := hn (by rw [ho]; rfl)
        split at hx
        · split at hx <;> cases hx <;> exact ⟨rfl, rfl, rfl, rfl, rfl⟩
        split at hx
        · split at hx <;> cases hx <;> exact ⟨rfl, rfl, rfl, rfl, rfl⟩
        split at hx
        · rename_i h4; rw [h4] at n4; exact absurd rfl n4
        split at hx
        · split at hx
          · cases hx; exact ⟨rfl, rfl, rfl, rfl, rfl⟩
          · split at hx <;> cases hx; exact ⟨rfl, rfl, rfl, rfl, rfl⟩
        split at hx
        · rename_i h4; rw [h4] at n1; exact absurd rfl n1
        split at hx
        · rename_i h4; rw [h4] at n2; exact absurd rfl n2
        · cases hx; exact ⟨rfl, rfl, rfl, rfl, rfl⟩
      obtain ⟨f1, f2, f3, f4, f5⟩ := h1
      exact ⟨e1.trans f1, e2.trans f2, e3.trans f3, e4.trans f4, e5.trans f5⟩

theorem resume_unique {n : Nat} {p : Part} {a b b' : FrameAddress} {data : List Word} (h : Resume n p a data b)
    (h' : Resume n p a data b') : b = b' := by
  have key : ∀ {b b'} i i', i ≤ i' → walkAt p a i = some b → walkAt p a i' = some b' →
      (∀ j < i', blockOffset n p a j < data.length) → (data.length ≤ blockOffset n p a i ∨ p.next b = none) → b = b' := by
    intro b b' i i' hle hw hw' hall hor
    by_cases he : i = i'
    · subst he; rw [hw] at hw'; exact Option.some.inj hw'
    · exfalso
      rcases hor with h | h
      · have := hall i (by omega); omega
      · have hno : ∀ d, walkAt p a (i + d + 1) = none := by
          intro d
          induction d with
          | zero => rw [Nat.add_zero, walkAt, hw, Option.bind_some, h]
          | succ d ihd => rw [walkAt, show i + (d + 1) = i + d + 1 by omega, ihd]; rfl
        have := hno (i' - i - 1)
        rw [show i + (i' - i - 1) + 1 = i' by omega, hw'] at this
        cases this
  obtain ⟨i, h1, h2, h3⟩ := h
  obtain ⟨i', h1', h2', h3'⟩ := h'
  rcases Nat.le_total i i' with hle | hle
  · exact key i i' hle h1 h1' h2' h3
  · exact (key i' i hle h1' h1 h2 h3').symm

/-- A second FDRI packet — with anything in between but writes to FAR, CMD and FDRI — continues where the first ended. -/
theorem C64_continue {n : Nat} (hn : 0 < n) (p : Part) (hp : Fits p) (l noise : List Packet) (a b : FrameAddress)
    (ha : a.toNat < 2 ^ 26) (t1 t2 t3 t4 : BitVec 32) (d1 d2 : List Word) (c1 : Configuration)
    (hnoise : ∀ x ∈ noise, x.opcode.toNat = 2 → x.address.toNat ≠ 1 ∧ x.address.toNat ≠ 2 ∧ x.address.toNat ≠ 4)
    (h1 : initWithPackets n p (l ++ [writes t1 4 [1#32], writes t2 1 [a], writes t3 2 d1] ++ noise) = some c1)
    (hb : Resume n p a d1 b) :
    ∃ c, initWithPackets n p (l ++ [writes t1 4 [1#32], writes t2 1 [a], writes t3 2 d1] ++ noise ++ [writes t4 2 d2]) = some c ∧
      ∀ k ws, c.frames.get? k = some ws ↔ Over (Placed n p b d2) c1.frames k ws := by
  obtain ⟨s1, hs1, rfl, _⟩ := init_state h1
  have hs1' := hs1
  rw [decodePackets_append] at hs1
  obtain ⟨s0, hs0, hnz⟩ := Option.bind_eq_some_iff.1 hs1
  have hs0' := hs0
  rw [decodePackets_append] at hs0
  obtain ⟨s, hs, _⟩ := Option.bind_eq_some_iff.1 hs0
  obtain ⟨s', e1, _, e3, e4, _⟩ := step_block hn p hp l s hs a ha t1 t2 t3 d1
  rw [hs0'] at e1
  cases e1
  obtain ⟨f1, f2, f3, f4, f5⟩ := noise_state n p noise s0 s1 hnoise hnz
  have hcur : (if s1.start then s1.far else s1.cur) = b := by
    rw [f1, e4, if_neg Bool.false_ne_true, f2]
    exact resume_unique e3 hb
  obtain ⟨s', g1, g2, _⟩ := step_fdri hn p hp _ s1 hs1' b hcur (resume_range p hp a b d1 ha hb) t4 d2
  exact ⟨⟨p, s'.frames⟩, by rw [initWithPackets, g1]; rfl, g2⟩

theorem bit21 (x : Word) : (bitFieldGet x 21 21 == 0#32) = !x.getLsbD 21 := by
  have h := toNat_bitFieldGet x 21 21 (by decide) (by decide)
  rw [Bool.eq_iff_iff, beq_iff_eq, ← BitVec.toNat_inj, h, BitVec.getLsbD, Nat.testBit_eq_decide_div_mod_eq]
  have : x.toNat / 2 ^ 21 % 2 < 2 := Nat.mod_lt _ (by decide)
  show x.toNat / 2 ^ 21 % 2 = 0 ↔ _
  rw [Bool.not_eq_true', decide_eq_false_iff_not]
  omega

/-- Writing FAR alone while the command is WCFG begins a new block there exactly when bit 21 of CTL1 (written under the
mask) is clear; otherwise the next block continues where the last ended. -/
theorem C64_far (n : Nat) (hn : 0 < n) (p : Part) (hp : Fits p) (l : List Packet) (a b r : FrameAddress) (mask ctl1 : Word)
    (ha : a.toNat < 2 ^ 26) (hb : b.toNat < 2 ^ 26) (t1 t2 t3 t4 t5 t6 t7 : BitVec 32) (d1 d2 : List Word) (c1 : Configuration)
    (h1 : initWithPackets n p (l ++ [writes t1 6 [mask], writes t2 24 [ctl1]] ++
      [writes t3 4 [1#32], writes t4 1 [a], writes t5 2 d1]) = some c1)
    (hr : Resume n p a d1 r) :
    ∃ c, initWithPackets n p (l ++ [writes t1 6 [mask], writes t2 24 [ctl1]] ++
        [writes t3 4 [1#32], writes t4 1 [a], writes t5 2 d1] ++ [writes t6 1 [b], writes t7 2 d2]) = some c ∧
      ∀ k ws, c.frames.get? k = some ws ↔
        Over (Placed n p (if ctl1.getLsbD 21 = true ∧ mask.getLsbD 21 = true then r else b) d2) c1.frames k ws := by
  obtain ⟨s1, hs1, rfl, _⟩ := init_state h1
  have hs1' := hs1
  rw [decodePackets_append] at hs1
  obtain ⟨s0, hs0, _⟩ := Option.bind_eq_some_iff.1 hs1
  have hctl : s0.ctl1 = ctl1 &&& mask := by
    have := hs0
    rw [decodePackets_append] at this
    obtain ⟨s, _, h⟩ := Option.bind_eq_some_iff.1 this
    rw [decodePackets, dec_mask] at h
    dsimp only at h
    rw [decodePackets_one, dec_ctl1] at h
    cases h; rfl
  obtain ⟨s', e1, _, e3, e4, e5, e6⟩ := step_block hn p hp _ s0 hs0 a ha t3 t4 t5 d1
  rw [hs1'] at e1
  cases e1
  have h2 : decodePackets n p {} (l ++ [writes t1 6 [mask], writes t2 24 [ctl1]] ++
        [writes t3 4 [1#32], writes t4 1 [a], writes t5 2 d1] ++ [writes t6 1 [b]]) =
      some { s1 with far := b, start := !(ctl1.getLsbD 21 && mask.getLsbD 21) } := by
    rw [decodePackets_append, hs1', Option.bind_some, decodePackets_one, dec_far, e4, e5, e6, hctl, bit21, BitVec.getLsbD_and]
    simp
  have hcur : (if (!(ctl1.getLsbD 21 && mask.getLsbD 21)) = true then b else s1.cur) =
      if ctl1.getLsbD 21 = true ∧ mask.getLsbD 21 = true then r else b := by
    rw [resume_unique e3 hr]
    cases ctl1.getLsbD 21 <;> cases mask.getLsbD 21 <;> rfl
  obtain ⟨s', g1, g2, _⟩ := step_fdri hn p hp _ _ h2 _ hcur
    (by split; exact resume_range p hp a r d1 ha hr; exact hb) t7 d2
  refine ⟨⟨p, s'.frames⟩, ?_, g2⟩
  rw [initWithPackets, show [writes t6 1 [b], writes t7 2 d2] = [writes t6 1 [b]] ++ [writes t7 2 d2] from rfl,
    ← List.append_assoc, g1]; rfl

/-- Under another command FAR does not begin a new block. -/
theorem C64_far_needs_wcfg (n : Nat) (hn : 0 < n) (p : Part) (hp : Fits p) (l : List Packet) (a b r : FrameAddress) (cmd : Word)
    (hcmd : cmd ≠ 1#32) (ha : a.toNat < 2 ^ 26) (t1 t2 t3 t4 t5 t6 : BitVec 32) (d1 d2 : List Word) (c1 : Configuration)
    (h1 : initWithPackets n p (l ++ [writes t1 4 [1#32], writes t2 1 [a], writes t3 2 d1]) = some c1)
    (hr : Resume n p a d1 r) :
    ∃ c, initWithPackets n p (l ++ [writes t1 4 [1#32], writes t2 1 [a], writes t3 2 d1] ++
        [writes t4 4 [cmd], writes t5 1 [b], writes t6 2 d2]) = some c ∧
      ∀ k ws, c.frames.get? k = some ws ↔ Over (Placed n p r d2) c1.frames k ws := by
  obtain ⟨s1, hs1, rfl, _⟩ := init_state h1
  have hs1' := hs1
  rw [decodePackets_append] at hs1
  obtain ⟨s0, hs0, _⟩ := Option.bind_eq_some_iff.1 hs1
  obtain ⟨s', e1, _, e3, e4, _⟩ := step_block hn p hp _ s0 hs0 a ha t1 t2 t3 d1
  rw [hs1'] at e1
  cases e1
  have hbeq : (cmd == 1#32) = false := by simpa using hcmd
  have h2 : decodePackets n p {} (l ++ [writes t1 4 [1#32], writes t2 1 [a], writes t3 2 d1] ++ [writes t4 4 [cmd], writes t5 1 [b]]) =
      some { s1 with cmd := cmd, far := b, start := false } := by
    rw [decodePackets_append, hs1', Option.bind_some, decodePackets, dec_cmd]
    dsimp only
    rw [decodePackets_one, dec_far, e4]
    simp [hcmd]
  obtain ⟨s', g1, g2, _⟩ := step_fdri hn p hp _ _ h2 r (by rw [if_neg Bool.false_ne_true]; exact resume_unique e3 hr)
    (resume_range p hp a r d1 ha hr) t6 d2
  refine ⟨⟨p, s'.frames⟩, ?_, g2⟩
  rw [initWithPackets, show [writes t4 4 [cmd], writes t5 1 [b], writes t6 2 d2] = [writes t4 4 [cmd], writes t5 1 [b]] ++ [writes t6 2 d2] from rfl,
    ← List.append_assoc, g1]; rfl

/-- Frame data before any address begins at address 0. -/
theorem C64_start {n : Nat} (hn : 0 < n) (p : Part) (hp : Fits p) (t : BitVec 32) (data : List Word) :
    ∃ c, initWithPackets n p [writes t 2 data] = some c ∧ ∀ k ws, c.frames.get? k = some ws ↔ Placed n p 0#32 data k ws := by
  obtain ⟨s', g1, g2, _⟩ := step_fdri hn p hp [] {} rfl 0#32 rfl (by decide) t data
  refine ⟨⟨p, s'.frames⟩, by rw [List.nil_append] at g1; rw [initWithPackets, g1]; rfl, fun k ws => ?_⟩
  rw [g2]
  constructor
  · rintro (h | ⟨_, h⟩)
    · exact h
    · cases h
  · exact Or.inl

/-- Packets that do not write to one of the six registers never matter, wherever they are; neither do empty writes to
registers other than FDRI. -/
theorem C64_noise (n : Nat) (p : Part) (l1 l2 : List Packet) (x : Packet)
    (hx : x.opcode.toNat = 2 → x.address.toNat ∉ [1, 2, 4, 6, 12, 24] ∨ (x.address.toNat ≠ 2 ∧ x.data = [])) :
    initWithPackets n p (l1 ++ x :: l2) = initWithPackets n p (l1 ++ l2) := by
  have key : ∀ s, decodePacket n p s x = some s := by
    intro s
    unfold decodePacket
    by_cases ho : x.opcode = opWrite
    · rw [if_neg (by simpa using ho)]
      have hx := hx (by rw [ho]; rfl)
      rcases hx with hx | ⟨h2, hd⟩
      · have h : ∀ r : BitVec 32, r.toNat ∈ [1, 2, 4, 6, 12, 24] → x.address ≠ r := fun r hr e => hx (e ▸ hr)
        rw [if_neg (h _ (by decide)), if_neg (h _ (by decide)), if_neg (h _ (by decide)), if_neg (h _ (by decide)),
          if_neg (h _ (by decide)), if_neg (h _ (by decide))]
      · rw [hd]
        dsimp only
        have h2 : x.address ≠ regFDRI := fun e => h2 (by rw [e]; rfl)
        rw [if_neg h2]
        simp
    · rw [if_pos ho]
  rw [initWithPackets, initWithPackets, decodePackets_append, decodePackets_append]
  congr 2
  funext s
  rw [decodePackets, key]

/-- Non-vacuity: two frames of two words from address 128 of the two-row part (frame 129 ends the row), then one word
more, which goes to the next row. -/
example : ∃ p, Part.fromPart tinyDesc = .ok p ∧ Fits p ∧
    Resume 2 p 128#32 [1#32, 2#32, 3#32, 4#32] (2 ^ 17 : Nat) ∧
    initWithPackets 2 p [writes 1#32 4 [1#32], writes 1#32 1 [128#32], writes 1#32 2 [1#32, 2#32, 3#32, 4#32], nop, writes 1#32 2 [5#32]] =
      some ⟨p, [(128, [1#32, 2#32]), (129, [3#32, 4#32]), (2 ^ 17, [5#32])]⟩ := by
  refine ⟨_, rfl, ?_, ⟨2, by decide, by decide, Or.inl (by decide)⟩, by decide⟩
  exact fits_fromPart tinyDesc (by intro half h; rcases h with rfl | rfl <;> decide) _ rfl

/-- With bit 21 of CTL1 written and unmasked, an address written between two blocks is not taken over; with the mask clear it is; and it is
not after a command other than WCFG. -/
example : ∃ p, Part.fromPart tinyDesc = .ok p ∧ Resume 2 p 128#32 [1#32, 2#32] 129#32 ∧
    initWithPackets 2 p ([writes 1#32 6 [0x200000#32], writes 1#32 24 [0x200000#32]] ++
      [writes 1#32 4 [1#32], writes 1#32 1 [128#32], writes 1#32 2 [1#32, 2#32]] ++ [writes 1#32 1 [(2 ^ 17 : Nat)], writes 1#32 2 [3#32]]) =
      some ⟨p, [(128, [1#32, 2#32]), (129, [3#32])]⟩ ∧
    initWithPackets 2 p ([writes 1#32 6 [0#32], writes 1#32 24 [0x200000#32]] ++
      [writes 1#32 4 [1#32], writes 1#32 1 [128#32], writes 1#32 2 [1#32, 2#32]] ++ [writes 1#32 1 [(2 ^ 17 : Nat)], writes 1#32 2 [3#32]]) =
      some ⟨p, [(128, [1#32, 2#32]), (2 ^ 17, [3#32])]⟩ ∧
    initWithPackets 2 p ([writes 1#32 4 [1#32], writes 1#32 1 [128#32], writes 1#32 2 [1#32, 2#32]] ++
      [writes 1#32 4 [7#32], writes 1#32 1 [(2 ^ 17 : Nat)], writes 1#32 2 [3#32]]) =
      some ⟨p, [(128, [1#32, 2#32]), (129, [3#32])]⟩ :=
  ⟨_, rfl, ⟨1, by decide, by decide, Or.inl (by decide)⟩, by decide, by decide, by decide⟩

end Verif.Props
