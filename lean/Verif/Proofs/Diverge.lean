import Verif.Proofs.FromPart
import Verif.Proofs.Missing
/-! # Parts too large for the address fields: the walk goes round in circles -/
namespace Verif.Xc7
open Verif.Spec Verif.Props FrameAddress

/-- Every map is ordered, and every column has between 1 and 128 frames. -/
def Plain (p : Part) : Prop :=
  ∀ h, (p.region h).Sorted ∧ ∀ r ∈ p.region h, r.2.Sorted ∧
    ∀ b ∈ r.2, b.2.Sorted ∧ ∀ c ∈ b.2, 0 < c.2.frameCount ∧ c.2.frameCount ≤ 128

/-- Not behind the row of `c`. -/
def Before (a c : Coord) : Prop :=
  a.block < c.block ∨ (a.block = c.block ∧ (a.bottom.toNat < c.bottom.toNat ∨ (a.bottom = c.bottom ∧ a.row ≤ c.row)))

theorem coordOf_make (blk : BlockType) (hb : blk.toNat < 8) (bot : Bool) (r : BitVec 8) (c : BitVec 16) :
    coordOf (make blk bot r c 0#8) = ⟨blk.toNat, bot, r.toNat % 32, c.toNat % 1024, 0⟩ := by
  rw [C02_accessors_truncate blk bot _ _ _ hb]
  rfl

theorem make_lt (blk : BlockType) (hb : blk.toNat < 8) (bot : Bool) (r : BitVec 8) (c : BitVec 16) :
    (make blk bot r c 0#8).toNat < 2^26 := by
  have e := FrameAddress.toNat_make blk bot r c 0#8 hb
  have hh : bot.toNat < 2 := Bool.toNat_lt _
  rw [e]
  simp
  omega

theorem ofNat8_mod (k : Nat) : (BitVec.ofNat 8 k).toNat % 32 = k % 32 := by
  rw [BitVec.toNat_ofNat]; omega

theorem ofNat16_mod (k : Nat) : (BitVec.ofNat 16 k).toNat % 1024 = k % 1024 := by
  rw [BitVec.toNat_ofNat]; omega

/-- The three lookups of an address with a frame. -/
theorem lookups (p : Part) (a : FrameAddress) (hv : HasFrame p (coordOf a)) :
    ∃ r b c rest rest', (p.region (coordOf a).bottom).find (row a).toNat = ((row a).toNat, r) :: rest ∧
      r.get? (blockType a).toNat = some b ∧ b.find (column a).toNat = ((column a).toNat, c) :: rest' ∧
      (minor a).toNat < c.frameCount := by
  obtain ⟨r, b, c, h1, h2, h3, h4⟩ := (hasFrame_iff p _).1 hv
  obtain ⟨rest, hr⟩ := BMap.find_of_get? h1
  obtain ⟨rest', hc⟩ := BMap.find_of_get? h3
  exact ⟨r, b, c, rest, rest', hr, h2, hc, h4⟩

/-- One step within a half: on in the row, to the next row, or to the end of the half. -/
theorem region_step (p : Part) (hp : Plain p) (hd : Dense p) (a : FrameAddress) (ha : a.toNat < 2^26)
    (hv : HasFrame p (coordOf a)) :
    (∃ n, regionNext (p.region (coordOf a).bottom) a = some n ∧ n.toNat < 2^26 ∧ HasFrame p (coordOf n) ∧
      (coordOf n).block = (coordOf a).block ∧ (coordOf n).bottom = (coordOf a).bottom ∧ (coordOf n).row = (coordOf a).row) ∨
    ((∀ k, (coordOf a).column < k → ∀ m, ¬ HasFrame p ⟨(coordOf a).block, (coordOf a).bottom, (coordOf a).row, k, m⟩) ∧
      ((HasFrame p ⟨(coordOf a).block, (coordOf a).bottom, (coordOf a).row + 1, 0, 0⟩ ∧
          ∃ n, regionNext (p.region (coordOf a).bottom) a = some n ∧ n.toNat < 2^26 ∧
            coordOf n = ⟨(coordOf a).block, (coordOf a).bottom, ((coordOf a).row + 1) % 32, 0, 0⟩) ∨
        (¬ HasFrame p ⟨(coordOf a).block, (coordOf a).bottom, (coordOf a).row + 1, 0, 0⟩ ∧
          regionNext (p.region (coordOf a).bottom) a = none))) := by
  have hra := C02_coordOf_inRange a
  obtain ⟨hs, hr⟩ := hp (coordOf a).bottom
  obtain ⟨r, b, c, rest, rest', hf, hb, hc, hm⟩ := lookups p a hv
  have hgr := BMap.get?_of_find hf
  obtain ⟨hrs, hrb⟩ := hr _ (BMap.mem_of_get? hgr)
  obtain ⟨hbs, hbc⟩ := hrb _ (BMap.mem_of_get? hb)
  obtain ⟨restb, hfb⟩ := BMap.find_of_get? hb
  have hgc := BMap.get?_of_find hc
  have hcc := hbc _ (BMap.mem_of_get? hgc)
  simp only at hcc
  have hrow : rowNext r a = busNext b a := by unfold rowNext; rw [hfb]
  have hreg : regionNext (p.region (coordOf a).bottom) a = match busNext b a with
      | some n => some n
      | none => match rest with
        | [] => none
        | (k, r') :: _ =>
          if rowIsValid r' (make (blockType a) (isBottom a) (BitVec.ofNat 8 k) 0#16 0#8) then
            some (make (blockType a) (isBottom a) (BitVec.ofNat 8 k) 0#16 0#8) else none := by
    simp only [regionNext, hf, hrow]
    cases busNext b a with
    | some n => rfl
    | none => cases rest <;> rfl
  by_cases hlast : (minor a).toNat + 1 < c.frameCount
  · -- the same column
    have hbn : busNext b a = some (a + 1#32) := by
      unfold busNext Column.next
      rw [hc]
      simp only [Column.isValid, hm, decide_true, not_true, if_false, hlast, if_true]
    obtain ⟨e1, e2⟩ := coordOf_succ a ha (by omega)
    refine Or.inl ⟨a + 1#32, by rw [hreg, hbn], ?_, ?_, by rw [e2], by rw [e2], by rw [e2]⟩
    · have hma : (minor a).toNat + 1 < 128 := by omega
      have hme : (minor a).toNat = a.toNat % 128 := by rw [FrameAddress.toNat_minor]
      rw [e1]; omega
    · rw [e2, hasFrame_iff]
      exact ⟨r, b, c, hgr, hb, hgc, hlast⟩
  · have hcn : c.next a = none := by
      unfold Column.next
      simp only [Column.isValid, hm, decide_true, not_true, if_false, hlast]
    obtain ⟨g1, g2, _, g4⟩ := BMap.find_next hbs hc
    cases rest' with
    | cons x xs =>
      -- the next column
      obtain ⟨k, c'⟩ := x
      have hgk := g4 (k, c') (by simp)
      have hck := hbc _ (BMap.mem_of_get? hgk)
      simp only at hck hgk
      have hco := coordOf_make (blockType a) hra.1 (isBottom a) (row a) (BitVec.ofNat 16 k)
      rw [ofNat16_mod] at hco
      have hrr : (row a).toNat % 32 = (row a).toNat := Nat.mod_eq_of_lt hra.2.1
      rw [hrr] at hco
      have hval : c'.isValid (make (blockType a) (isBottom a) (row a) (BitVec.ofNat 16 k) 0#8) = true := by
        have : (minor (make (blockType a) (isBottom a) (row a) (BitVec.ofNat 16 k) 0#8)).toNat = 0 := congrArg Coord.minor hco
        simp only [Column.isValid, this, decide_eq_true_eq]
        exact hck.1
      have hbn : busNext b a = some (make (blockType a) (isBottom a) (row a) (BitVec.ofNat 16 k) 0#8) := by
        unfold busNext
        rw [hc]
        simp only [hcn, hval, if_true]
      refine Or.inl ⟨_, by rw [hreg, hbn], make_lt _ hra.1 _ _ _, ?_, by rw [hco]; rfl, by rw [hco]; rfl, by rw [hco]; rfl⟩
      rw [hco]
      have hk : HasFrame p ⟨(blockType a).toNat, isBottom a, (row a).toNat, k, 0⟩ :=
        (hasFrame_iff p _).2 ⟨r, b, c', hgr, hb, hgk, hck.1⟩
      exact hd.columns _ hk (k % 1024) (Nat.mod_le _ _)
    | nil =>
      have hbn : busNext b a = none := by
        unfold busNext
        rw [hc]
        simp only [hcn]
      refine Or.inr ⟨?_, ?_⟩
      · intro k hk m hf2
        obtain ⟨r2, b2, c2, q1, q2, q3, _⟩ := (hasFrame_iff p _).1 hf2
        simp only at q1 q2 q3
        have e1 : r2 = r := by
          have : (p.region (coordOf a).bottom).get? (coordOf a).row = some r := hgr
          rw [this] at q1; exact (Option.some.inj q1).symm
        subst e1
        have e2 : b2 = b := by
          have : r2.get? (coordOf a).block = some b := hb
          rw [this] at q2; exact (Option.some.inj q2).symm
        subst e2
        have := g2 _ (BMap.mem_of_get? q3) hk
        simp at this
      · obtain ⟨f1, f2, f3, f4⟩ := BMap.find_next hs hf
        rw [hreg, hbn]
        simp only
        -- the row after this one, if it has frames
        have hrv : ∀ k r', (p.region (coordOf a).bottom).get? k = some r' →
            (rowIsValid r' (make (blockType a) (isBottom a) (BitVec.ofNat 8 k) 0#16 0#8) = true ↔
              HasFrame p ⟨(coordOf a).block, (coordOf a).bottom, k, 0, 0⟩) := by
          intro k r' hk
          have hco := coordOf_make (blockType a) hra.1 (isBottom a) (BitVec.ofNat 8 k) 0#16
          have e1 : (blockType (make (blockType a) (isBottom a) (BitVec.ofNat 8 k) 0#16 0#8)).toNat = (blockType a).toNat :=
            congrArg Coord.block hco
          have e2 : (column (make (blockType a) (isBottom a) (BitVec.ofNat 8 k) 0#16 0#8)).toNat = 0 := by
            have := congrArg Coord.column hco; simpa [coordOf] using this
          have e3 : (minor (make (blockType a) (isBottom a) (BitVec.ofNat 8 k) 0#16 0#8)).toNat = 0 := congrArg Coord.minor hco
          rw [rowIsValid_iff, hasFrame_iff]
          simp only [busIsValid_iff, e1, e2, e3]
          constructor
          · rintro ⟨b', h1, c', h2, h3⟩
            exact ⟨r', b', c', hk, h1, h2, h3⟩
          · rintro ⟨r2, b', c', h0, h1, h2, h3⟩
            rw [hk] at h0
            cases h0
            exact ⟨b', h1, c', h2, h3⟩
        by_cases hnext : HasFrame p ⟨(coordOf a).block, (coordOf a).bottom, (coordOf a).row + 1, 0, 0⟩
        · refine Or.inl ⟨hnext, ?_⟩
          obtain ⟨r2, _, _, q1, _, _, _⟩ := (hasFrame_iff p _).1 hnext
          simp only at q1
          have hin := f2 _ (BMap.mem_of_get? q1) (Nat.lt_succ_self _)
          cases rest with
          | nil => simp at hin
          | cons x xs =>
            obtain ⟨k, r'⟩ := x
            have hk : k = (coordOf a).row + 1 := by
              have h1 := f1 (k, r') (by simp)
              simp only at h1
              have h1' : (coordOf a).row < k := h1
              rcases List.mem_cons.1 hin with h2 | h2
              · exact (congrArg Prod.fst h2).symm
              · have := (List.pairwise_cons.1 f3).1 _ h2
                simp only at this
                omega
            subst hk
            have hv2 := (hrv _ r' (f4 (_, r') (by simp))).2 hnext
            refine ⟨make (blockType a) (isBottom a) (BitVec.ofNat 8 ((coordOf a).row + 1)) 0#16 0#8, if_pos hv2, make_lt _ hra.1 _ _ _, ?_⟩
            rw [coordOf_make _ hra.1, ofNat8_mod]
            rfl
        · refine Or.inr ⟨hnext, ?_⟩
          cases rest with
          | nil => rfl
          | cons x xs =>
            obtain ⟨k, r'⟩ := x
            have hnv : ¬ rowIsValid r' (make (blockType a) (isBottom a) (BitVec.ofNat 8 k) 0#16 0#8) = true := by
              intro h
              have h2 := (hrv k r' (f4 (k, r') (by simp))).1 h
              exact hnext (hd.rows _ h2 _ (f1 (k, r') (by simp)))
            exact if_neg hnv

/-- The addresses the walk cannot leave: those with frames, not behind the row of `c`. -/
def Inside (p : Part) (c : Coord) (a : FrameAddress) : Prop :=
  a.toNat < 2^26 ∧ HasFrame p (coordOf a) ∧ Before (coordOf a) c

theorem bottom_start (p : Part) (a : FrameAddress) : regionIsValid p.bottom (make (blockType a) true 0#8 0#16 0#8) = true ↔
    HasFrame p ⟨(coordOf a).block, true, 0, 0, 0⟩ := by
  have hra := C02_coordOf_inRange a
  have hco := coordOf_make (blockType a) hra.1 true 0#8 0#16
  have hb : isBottom (make (blockType a) true 0#8 0#16 0#8) = true := congrArg Coord.bottom hco
  have := isValid_iff p (make (blockType a) true 0#8 0#16 0#8)
  rw [isValid_eq_region, hb, hco] at this
  exact this

theorem block_start (p : Part) (b : BlockType) (hb : b.toNat < 8) : p.isValid (make b false 0#8 0#16 0#8) = true ↔
    HasFrame p ⟨b.toNat, false, 0, 0, 0⟩ := by
  rw [isValid_iff, coordOf_make b hb]
  rfl

/-- From the last address of a half to the next half or block. -/
theorem part_step (p : Part) (hd : Dense p) (c : Coord) (hc : HasFrame p c) (a : FrameAddress)
    (hn : regionNext (p.region (coordOf a).bottom) a = none)
    (hlt : (coordOf a).block < c.block ∨ ((coordOf a).block = c.block ∧ (coordOf a).bottom = false ∧ c.bottom = true)) :
    ∃ n, p.next a = some n ∧ Inside p c n := by
  have hra := C02_coordOf_inRange a
  have hc3 := hd.blocks c hc
  unfold Part.next
  rw [part_next_region, hn]
  simp only
  by_cases hbot : isBottom a = false ∧ regionIsValid p.bottom (make (blockType a) true 0#8 0#16 0#8) = true
  · rw [if_pos hbot]
    have hco := coordOf_make (blockType a) hra.1 true 0#8 0#16
    refine ⟨_, rfl, make_lt _ hra.1 _ _ _, ?_, ?_⟩
    · rw [hco]; exact (bottom_start p a).1 hbot.2
    · rw [hco]
      rcases hlt with h | ⟨h1, h2, h3⟩
      · exact Or.inl h
      · exact Or.inr ⟨h1, Or.inr ⟨h3.symm, Nat.zero_le _⟩⟩
  · rw [if_neg hbot]
    have hblk : (coordOf a).block < c.block := by
      rcases hlt with h | ⟨h1, h2, h3⟩
      · exact h
      · refine absurd ⟨h2, (bottom_start p a).2 ?_⟩ hbot
        have := hd.rows c hc 0 (Nat.zero_le _)
        rw [h3, ← h1] at this
        exact this
    have hblk' : (blockType a).toNat < c.block := hblk
    have hstart := hd.halves c hc
    unfold Part.nextBlock
    simp only
    by_cases h1 : blockType a < kBlockRam ∧ p.isValid (make kBlockRam false 0#8 0#16 0#8) = true
    · rw [if_pos h1]
      have hco := coordOf_make kBlockRam (by decide) false 0#8 0#16
      refine ⟨_, rfl, make_lt _ (by decide) _ _ _, ?_, ?_⟩
      · rw [hco]; exact (block_start p kBlockRam (by decide)).1 h1.2
      · rw [hco]
        have e : kBlockRam.toNat = 1 := rfl
        unfold Before
        simp only [e]
        by_cases h2 : c.block = 1
        · refine Or.inr ⟨h2.symm, ?_⟩
          cases hb : c.bottom with
          | true => exact Or.inl (by decide)
          | false => exact Or.inr ⟨rfl, Nat.zero_le _⟩
        · exact Or.inl (by omega)
    · rw [if_neg h1]
      have hc2 : c.block = 2 := by
        apply Classical.byContradiction
        intro h2
        have hc1 : c.block = 1 := by omega
        refine h1 ⟨?_, (block_start p kBlockRam (by decide)).2 ?_⟩
        · rw [BitVec.lt_def, show kBlockRam.toNat = 1 from rfl]; omega
        · rw [hc1] at hstart; exact hstart
      have h2 : blockType a < kCFGCLB ∧ p.isValid (make kCFGCLB false 0#8 0#16 0#8) = true := by
        refine ⟨?_, (block_start p kCFGCLB (by decide)).2 ?_⟩
        · rw [BitVec.lt_def, show kCFGCLB.toNat = 2 from rfl]; omega
        · rw [hc2] at hstart; exact hstart
      rw [if_pos h2]
      have hco := coordOf_make kCFGCLB (by decide) false 0#8 0#16
      refine ⟨_, rfl, make_lt _ (by decide) _ _ _, ?_, ?_⟩
      · rw [hco]; exact (block_start p kCFGCLB (by decide)).1 h2.2
      · rw [hco]
        have e : kCFGCLB.toNat = 2 := rfl
        unfold Before
        simp only [e]
        refine Or.inr ⟨hc2.symm, ?_⟩
        cases hb : c.bottom with
        | true => exact Or.inl (by decide)
        | false => exact Or.inr ⟨rfl, Nat.zero_le _⟩

/-- The walk never leaves, and never ends. -/
theorem inside_step (p : Part) (hp : Plain p) (hd : Dense p) (c : Coord) (hc : HasFrame p c)
    (hbig : 32 ≤ c.row ∨ 1024 ≤ c.column) (a : FrameAddress) (h : Inside p c a) : ∃ n, p.next a = some n ∧ Inside p c n := by
  obtain ⟨ha, hv, hbef⟩ := h
  have hra := C02_coordOf_inRange a
  have hsome : ∀ n, regionNext (p.region (coordOf a).bottom) a = some n → p.next a = some n := by
    intro n hn
    unfold Part.next
    rw [part_next_region, hn]
  rcases region_step p hp hd a ha hv with ⟨n, h1, h2, h3, h4, h5, h6⟩ | ⟨hno, h⟩
  · refine ⟨n, hsome n h1, h2, h3, ?_⟩
    unfold Before at hbef ⊢
    rw [h4, h5, h6]
    exact hbef
  · -- the row of `c` is not finished before its last column
    have hrow : (coordOf a).block = c.block → (coordOf a).bottom = c.bottom → (coordOf a).row < c.row := by
      intro e1 e2
      rcases hbef with hb | ⟨_, hb | ⟨_, hb⟩⟩
      · omega
      · rw [e2] at hb; omega
      · rcases hbig with h32 | h1024
        · have := hra.2.1; omega
        · apply Classical.byContradiction
          intro hge
          have e3 : (coordOf a).row = c.row := by omega
          refine hno c.column (by have := hra.2.2.1; omega) c.minor ?_
          rw [e1, e2, e3]
          exact hc
    have hrow' : (coordOf a).block = c.block → (coordOf a).bottom = c.bottom →
        HasFrame p ⟨(coordOf a).block, (coordOf a).bottom, (coordOf a).row + 1, 0, 0⟩ := by
      intro e1 e2
      have := hd.rows c hc ((coordOf a).row + 1) (hrow e1 e2)
      rw [e1, e2]
      exact this
    rcases h with ⟨h1, n, h2, h3, h4⟩ | ⟨h1, h2⟩
    · refine ⟨n, hsome n h2, h3, ?_, ?_⟩
      · rw [h4]; exact hd.rows _ h1 _ (Nat.mod_le _ _)
      · rw [h4]
        unfold Before at hbef ⊢
        simp only
        rcases hbef with hb | ⟨e1, hb | ⟨e2, hb⟩⟩
        · exact Or.inl hb
        · exact Or.inr ⟨e1, Or.inl hb⟩
        · have := hrow e1 e2
          have := Nat.mod_le ((coordOf a).row + 1) 32
          exact Or.inr ⟨e1, Or.inr ⟨e2, by omega⟩⟩
    · apply part_step p hd c hc a h2
      rcases hbef with hb | ⟨e1, hb | ⟨e2, hb⟩⟩
      · exact Or.inl hb
      · refine Or.inr ⟨e1, ?_, ?_⟩
        · cases hx : (coordOf a).bottom with
          | false => rfl
          | true => rw [hx] at hb; have := Bool.toNat_lt c.bottom; simp at hb; omega
        · cases hx : c.bottom with
          | true => rfl
          | false => rw [hx] at hb; simp at hb
      · exact absurd (hrow' e1 e2) h1

/-- From address 0 the walk gets there. -/
theorem inside_start (p : Part) (hp : Plain p) (hd : Dense p) (c : Coord) (hc : HasFrame p c) :
    Inside p c 0#32 ∨ ∃ n, p.next 0#32 = some n ∧ Inside p c n := by
  have e0 : coordOf 0#32 = ⟨0, false, 0, 0, 0⟩ := by decide
  by_cases h0 : HasFrame p ⟨0, false, 0, 0, 0⟩
  · refine Or.inl ⟨by decide, by rw [e0]; exact h0, ?_⟩
    rw [e0]
    unfold Before
    simp only
    by_cases hb : c.block = 0
    · refine Or.inr ⟨hb.symm, ?_⟩
      cases hx : c.bottom with
      | true => exact Or.inl (by decide)
      | false => exact Or.inr ⟨rfl, Nat.zero_le _⟩
    · exact Or.inl (by omega)
  · refine Or.inr ?_
    have hno : ∀ x : Coord, x.block = 0 → ¬ HasFrame p x := by
      intro x hx hf
      have := hd.halves x hf
      rw [hx] at this
      exact h0 this
    have hcb : 0 < c.block := by
      rcases Nat.eq_zero_or_pos c.block with h | h
      · exact absurd hc (hno c h)
      · exact h
    have hreg : regionNext (p.region (coordOf 0#32).bottom) 0#32 = none := by
      rw [e0]
      obtain ⟨hs, hr⟩ := hp false
      have hget : ∀ k r b, (p.region false).get? k = some r → r.get? 0 = some b → b = [] := by
        intro k r b h1 h2
        cases b with
        | nil => rfl
        | cons x xs =>
          have hmem := (hr _ (BMap.mem_of_get? h1)).2 _ (BMap.mem_of_get? h2)
          refine absurd ?_ (hno ⟨0, false, k, x.1, 0⟩ rfl)
          exact (hasFrame_iff p _).2 ⟨r, _, x.2, h1, h2, BMap.get?_of_mem hmem.1 (by simp), (hmem.2 x (by simp)).1⟩
      have ez : (row 0#32).toNat = 0 := by decide
      have eb : (blockType 0#32).toNat = 0 := by decide
      unfold regionNext
      cases hf : (p.region false).find (row 0#32).toNat with
      | nil => rfl
      | cons x rest =>
        obtain ⟨k, r⟩ := x
        simp only
        have hg := BMap.get?_of_find hf
        have hrn : rowNext r 0#32 = none := by
          unfold rowNext
          cases hb : r.find (blockType 0#32).toNat with
          | nil => rfl
          | cons y ys =>
            obtain ⟨kb, b⟩ := y
            have hgb := BMap.get?_of_find hb
            rw [eb] at hgb
            have := hget _ r b hg hgb
            subst this
            rfl
        rw [hrn]
        simp only
        cases rest with
        | nil => rfl
        | cons y ys =>
          obtain ⟨k', r'⟩ := y
          simp only
          have hg' := (BMap.find_next hs hf).2.2.2 (k', r') (by simp)
          refine if_neg ?_
          intro hv
          rw [rowIsValid_iff] at hv
          obtain ⟨b, h1, h2⟩ := hv
          have hco := coordOf_make (blockType 0#32) (by decide) (isBottom 0#32) (BitVec.ofNat 8 k') 0#16
          have e1 : (blockType (make (blockType 0#32) (isBottom 0#32) (BitVec.ofNat 8 k') 0#16 0#8)).toNat = 0 :=
            congrArg Coord.block hco
          rw [e1] at h1
          have := hget _ r' b hg' h1
          subst this
          rw [busIsValid_iff] at h2
          obtain ⟨_, h3, _⟩ := h2
          cases h3
    exact part_step p hd c hc 0#32 hreg (Or.inl (by rw [e0]; exact hcb))

/-- Completion of a part with a frame outside the address fields does not terminate. -/
theorem diverges (p : Part) (hp : Plain p) (hd : Dense p) (c : Coord) (hc : HasFrame p c)
    (hbig : 32 ≤ c.row ∨ 1024 ≤ c.column) {β : Type} (zero : β) (fuel : Nat) (data : BMap β) :
    addMissingFrames p zero fuel data = none := by
  have key : ∀ (fuel : Nat) (a : FrameAddress) (data : BMap β), Inside p c a → addMissingLoop p zero fuel a data = none := by
    intro fuel
    induction fuel with
    | zero => intros; rfl
    | succ fuel ih =>
      intro a data h
      obtain ⟨n, h1, h2⟩ := inside_step p hp hd c hc hbig a h
      simp only [addMissingLoop, h1]
      exact ih n _ h2
  unfold addMissingFrames
  rcases inside_start p hp hd c hc with h | ⟨n, h1, h2⟩
  · exact key _ _ _ h
  · cases fuel with
    | zero => rfl
    | succ fuel =>
      simp only [addMissingLoop, h1]
      exact key _ _ _ h2

end Verif.Xc7
