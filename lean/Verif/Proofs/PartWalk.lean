import Verif.Proofs.Part
/-! Soundness and completeness of the address walk of a part. -/
namespace Verif.Xc7
open Verif.Spec Verif.Props FrameAddress

theorem hasFrame_iff (p : Part) (c : Coord) : HasFrame p c ↔
    ∃ r b col, (p.region c.bottom).get? c.row = some r ∧ r.get? c.block = some b ∧
      b.get? c.column = some col ∧ c.minor < col.frameCount := by
  simp only [HasFrame, frameCountAt, Option.map_eq_some_iff, Option.bind_eq_some_iff, Part.region]
  constructor
  · rintro ⟨n, ⟨c, ⟨b, ⟨r, h1, h2⟩, h3⟩, h5⟩, h4⟩
    exact ⟨r, b, c, h1, h2, h3, by omega⟩
  · rintro ⟨r, b, c, h1, h2, h3, h4⟩
    exact ⟨c.frameCount, ⟨c, ⟨b, ⟨r, h1, h2⟩, h3⟩, rfl⟩, h4⟩

theorem hasFrame_inRange {p : Part} (hp : Fits p) {c : Coord} (h : HasFrame p c) (hb : c.block < 8) :
    c.InRange := by
  rw [hasFrame_iff] at h
  obtain ⟨r, b, col, h1, h2, h3, h4⟩ := h
  obtain ⟨_, hr⟩ := Fits.region hp c.bottom
  have q1 := hr _ (BMap.mem_of_get? h1)
  have q2 := q1.2.2 _ (BMap.mem_of_get? h2)
  have q3 := q2.2 _ (BMap.mem_of_get? h3)
  simp only at q1 q2 q3
  exact ⟨hb, q1.1, q3.1, by omega⟩

theorem isValid_addressOf (p : Part) (c : Coord) (h : c.InRange) :
    p.isValid (addressOf c) = true ↔ HasFrame p c := by
  rw [isValid_iff, C02_coord_round_trip c h]

/-- Soundness of one step of the walk. -/
theorem next_sound (p : Part) (hp : Fits p) (a n : FrameAddress) (ha : a.toNat < 2^26)
    (h : p.next a = some n) : p.isValid n = true ∧ a.toNat < n.toNat ∧ n.toNat < 2^26 := by
  unfold Part.next at h
  rw [part_next_region] at h
  cases hr : regionNext (p.region (coordOf a).bottom) a with
  | some n' =>
    simp only [hr, Option.some.injEq] at h
    subst h
    obtain ⟨s1, s2, s3, s4, s5, _⟩ := regionNext_sound _ (Fits.region hp _) a n' ha hr
    refine ⟨?_, s2, s3⟩
    rw [isValid_eq_region]
    have e5 : isBottom n' = (coordOf a).bottom := s5
    rw [e5]; exact s1
  | none =>
    simp only [hr, make_block] at h
    have hra := C02_coordOf_inRange a
    split at h
    · rename_i hc
      simp only [Option.some.injEq] at h
      have hin : (⟨(blockType a).toNat, true, 0, 0, 0⟩ : Coord).InRange :=
        ⟨hra.1, Nat.zero_lt_succ _, Nat.zero_lt_succ _, Nat.zero_lt_succ _⟩
      have hco := C02_coord_round_trip _ hin
      rw [h] at hco hc
      refine ⟨?_, ?_, ?_⟩
      · rw [isValid_eq_region]
        have : isBottom n = true := by have := congrArg Coord.bottom hco; simpa [coordOf] using this
        rw [this]; exact hc.2
      · have h2 := (C03_order _ _ hra hin).mpr (by
          simp only [Coord.lt]
          refine Or.inr ⟨rfl, Or.inl ?_⟩
          have : (coordOf a).bottom = false := hc.1
          simp [this])
        rw [addressOf_coordOf a ha, h] at h2
        exact h2
      · rw [← h]; exact addressOf_lt _ hin
    · unfold Part.nextBlock at h
      simp only [make_block] at h
      have key : ∀ b : BlockType, b.toNat < 8 → blockType a < b →
          p.isValid (addressOf ⟨b.toNat, false, 0, 0, 0⟩) = true →
          addressOf ⟨b.toNat, false, 0, 0, 0⟩ = n →
          p.isValid n = true ∧ a.toNat < n.toNat ∧ n.toNat < 2^26 := by
        intro b hb hlt hv he
        have hin : (⟨b.toNat, false, 0, 0, 0⟩ : Coord).InRange :=
          ⟨hb, Nat.zero_lt_succ _, Nat.zero_lt_succ _, Nat.zero_lt_succ _⟩
        refine ⟨by rw [← he]; exact hv, ?_, by rw [← he]; exact addressOf_lt _ hin⟩
        have h2 := (C03_order _ _ hra hin).mpr (by
          simp only [Coord.lt]
          exact Or.inl (BitVec.lt_def.mp hlt))
        rw [addressOf_coordOf a ha, he] at h2
        exact h2
      split at h
      · rename_i hc
        simp only [Option.some.injEq] at h
        exact key kBlockRam (by decide) hc.1 hc.2 h
      · split at h
        · rename_i hc
          simp only [Option.some.injEq] at h
          exact key kCFGCLB (by decide) hc.1 hc.2 h
        · simp at h

/-- Nothing later on the same bus when the bus reports no next address. -/
theorem bus_no_more (p : Part) (hp : Fits p) (hd : Dense p) (a : FrameAddress)
    (hv : p.isValid a = true) (r : Row) (hget : (p.region (coordOf a).bottom).get? (coordOf a).row = some r)
    (hn : rowNext r a = none) (y : Coord) (hy : HasFrame p y)
    (h1 : y.block = (coordOf a).block) (h2 : y.bottom = (coordOf a).bottom)
    (h3 : y.row = (coordOf a).row)
    (h4 : (coordOf a).column < y.column ∨ ((coordOf a).column = y.column ∧ (coordOf a).minor < y.minor)) :
    False := by
  rw [isValid_iff] at hv
  have hv' := (hasFrame_iff p _).mp hv
  obtain ⟨r', b, col, q1, q2, q3, q4⟩ := hv'
  rw [hget] at q1
  simp only [Option.some.injEq] at q1
  subst q1
  obtain ⟨_, hr⟩ := Fits.region hp (coordOf a).bottom
  have t1 := hr _ (BMap.mem_of_get? hget)
  have t2 := t1.2.2 _ (BMap.mem_of_get? q2)
  simp only at t1 t2
  have hbn : busNext b a = none := by
    unfold rowNext at hn
    obtain ⟨rest, hf⟩ := BMap.find_of_get? q2
    have hf' : r.find (blockType a).toNat = ((coordOf a).block, b) :: rest := hf
    simp only [hf'] at hn
    exact hn
  obtain ⟨s1, s2⟩ := busNext_none b t2.1 t2.2 a hbn (by
    rw [busIsValid_iff]; exact ⟨col, q3, q4⟩)
  have onBus : ∀ z : Coord, HasFrame p z → z.block = (coordOf a).block →
      z.bottom = (coordOf a).bottom → z.row = (coordOf a).row →
      ∃ c, b.get? z.column = some c ∧ z.minor < c.frameCount := by
    intro z hz z1 z2 z3
    obtain ⟨r2, b2, c2, u1, u2, u3, u4⟩ := (hasFrame_iff p z).mp hz
    rw [z2, z3, hget] at u1
    simp only [Option.some.injEq] at u1
    subst u1
    rw [z1, q2] at u2
    simp only [Option.some.injEq] at u2
    subst u2
    exact ⟨c2, u3, u4⟩
  obtain ⟨c, w1, w2⟩ := onBus y hy h1 h2 h3
  rcases h4 with h4 | ⟨h4, h5⟩
  · rcases s2 with s2 | ⟨k, c0, e1, e2, e3, e4⟩
    · rw [s2 y.column h4] at w1; simp at w1
    · by_cases hk : y.column < k
      · rw [e4 y.column h4 hk] at w1; simp at w1
      · have hz := hd.columns y hy k (by omega)
        obtain ⟨c3, x1, x2⟩ := onBus _ hz h1 h2 h3
        simp only at x1 x2
        rw [e2] at x1
        simp only [Option.some.injEq] at x1
        subst x1
        omega
  · rw [← h4] at w1
    have := s1 c w1
    omega

/-- Nothing later in the same half and block type when the region reports no next address. -/
theorem region_no_more (p : Part) (hp : Fits p) (hd : Dense p) (a : FrameAddress)
    (hv : p.isValid a = true) (hn : regionNext (p.region (coordOf a).bottom) a = none)
    (y : Coord) (hy : HasFrame p y)
    (h1 : y.block = (coordOf a).block) (h2 : y.bottom = (coordOf a).bottom)
    (h4 : (coordOf a).lt y) : False := by
  have hvf := (isValid_iff p a).mp hv
  obtain ⟨r, b, col, q1, q2, q3, q4⟩ := (hasFrame_iff p _).mp hvf
  obtain ⟨s1, s2⟩ := regionNext_none _ (Fits.region hp _) a hn r q1
  by_cases hrow : (coordOf a).row < y.row
  · obtain ⟨r2, b2, c2, u1, u2, u3, u4⟩ := (hasFrame_iff p y).mp hy
    rw [h2] at u1
    rcases s2 with s2 | ⟨k, e1, e2, e3, e4⟩
    · rw [s2 _ hrow] at u1; simp at u1
    · by_cases hk : y.row < k
      · rw [e4 _ hrow hk] at u1; simp at u1
      · have hz := hd.rows y hy k (by omega)
        rw [h1, h2] at hz
        have hra := C02_coordOf_inRange a
        have hin : (⟨(coordOf a).block, (coordOf a).bottom, k, 0, 0⟩ : Coord).InRange :=
          ⟨hra.1, e2, Nat.zero_lt_succ _, Nat.zero_lt_succ _⟩
        have := (isValid_addressOf p _ hin).mpr hz
        rw [isValid_eq_region] at this
        have hb : isBottom (addressOf ⟨(coordOf a).block, (coordOf a).bottom, k, 0, 0⟩)
            = (coordOf a).bottom := by
          have := congrArg Coord.bottom (C02_coord_round_trip _ hin); simpa [coordOf] using this
        rw [hb, e3] at this
        simp at this
  · have h5 : y.row = (coordOf a).row ∧
        ((coordOf a).column < y.column ∨ ((coordOf a).column = y.column ∧ (coordOf a).minor < y.minor)) := by
      simp only [Coord.lt, h1, h2] at h4
      omega
    exact bus_no_more p hp hd a hv r q1 s1 y hy h1 h2 h5.1 h5.2

/-- Completeness of one step of the walk: no valid coordinate lies strictly between. -/
theorem next_gap (p : Part) (hp : Fits p) (hd : Dense p) (a n : FrameAddress) (ha : a.toNat < 2^26)
    (hv : p.isValid a = true) (h : p.next a = some n) (y : Coord) (hy : HasFrame p y)
    (h1 : (coordOf a).lt y) (h2 : y.lt (coordOf n)) : False := by
  have hra := C02_coordOf_inRange a
  have hin : ∀ b, b < 8 → ∀ h, (⟨b, h, 0, 0, 0⟩ : Coord).InRange := fun b hb h =>
    ⟨hb, Nat.zero_lt_succ _, Nat.zero_lt_succ _, Nat.zero_lt_succ _⟩
  unfold Part.next at h
  rw [part_next_region] at h
  cases hr : regionNext (p.region (coordOf a).bottom) a with
  | some n' =>
    simp only [hr, Option.some.injEq] at h
    subst h
    obtain ⟨s1, s2, s3, s4, s5, s6⟩ := regionNext_sound _ (Fits.region hp _) a n' ha hr
    obtain ⟨ry, by', cy, u1, u2, u3, u4⟩ := (hasFrame_iff p y).mp hy
    have e0 : y.block = (coordOf a).block ∧ y.bottom = (coordOf a).bottom := by
      simp only [Coord.lt, s4, s5] at h1 h2
      refine ⟨by omega, ?_⟩
      cases hb : y.bottom <;> cases hb2 : (coordOf a).bottom <;> simp [hb, hb2] at h1 h2 ⊢ <;> omega
    rcases s6 with ⟨r, b, g1, g2, g3⟩ | ⟨g1, g2, g3, ⟨r, g4, g5⟩, g6⟩
    · have q1 := (Fits.region hp (coordOf a).bottom).2 _ (BMap.mem_of_get? g1)
      have q2 := q1.2.2 _ (BMap.mem_of_get? g2)
      simp only at q1 q2
      obtain ⟨t1, t2, t3, t4, t5, t6, t7⟩ := busNext_sound b q2.1 q2.2 a n' ha g3
      have e1 : y.row = (coordOf a).row := by
        simp only [Coord.lt, e0.1, e0.2, t4, t5, t6] at h1 h2; omega
      rw [e0.2, e1, g1] at u1
      simp only [Option.some.injEq] at u1
      subst u1
      rw [e0.1, g2] at u2
      simp only [Option.some.injEq] at u2
      subst u2
      rcases t7 with t7 | ⟨t8, t9, t10, t11⟩
      · -- consecutive addresses
        have hyb : y.block < 8 := by rw [e0.1]; exact hra.1
        have hyr := hasFrame_inRange hp hy hyb
        have o1 := (C03_order _ _ hra hyr).mpr h1
        have o2 := (C03_order _ _ hyr (C02_coordOf_inRange n')).mpr h2
        rw [addressOf_coordOf a ha] at o1
        rw [addressOf_coordOf n' s3] at o2
        have : n'.toNat = a.toNat + 1 := by
          rw [t7, BitVec.toNat_add]; simp; omega
        omega
      · simp only [Coord.lt, e0.1, e0.2, e1, t4, t5, t6, t8] at h1 h2
        by_cases hc : (coordOf a).column < y.column
        · have := t11 y.column hc (by omega)
          rw [this] at u3; simp at u3
        · have e2 : y.column = (coordOf a).column := by omega
          rw [e2] at u3
          have := t10 _ u3
          omega
    · by_cases hrow : (coordOf a).row < y.row
      · have : y.row < (coordOf n').row := by
          simp only [Coord.lt, e0.1, e0.2, s4, s5, g2, g3] at h1 h2; omega
        have := g6 _ hrow this
        rw [e0.2, this] at u1; simp at u1
      · have h5 : y.row = (coordOf a).row ∧ ((coordOf a).column < y.column ∨
            ((coordOf a).column = y.column ∧ (coordOf a).minor < y.minor)) := by
          simp only [Coord.lt, e0.1, e0.2] at h1; omega
        exact bus_no_more p hp hd a hv r g4 g5 y hy e0.1 e0.2 h5.1 h5.2
  | none =>
    simp only [hr, make_block] at h
    have noSame : y.block = (coordOf a).block → y.bottom = (coordOf a).bottom → False := fun q1 q2 =>
      region_no_more p hp hd a hv hr y hy q1 q2 h1
    split at h
    · rename_i hc
      simp only [Option.some.injEq] at h
      have hco := C02_coord_round_trip _ (hin _ hra.1 true)
      have hco' : coordOf n = ⟨(coordOf a).block, true, 0, 0, 0⟩ := by rw [← h]; exact hco
      have hab : (coordOf a).bottom = false := hc.1
      rw [hco'] at h2
      apply noSame
      · simp only [Coord.lt, hab] at h1 h2; omega
      · simp only [Coord.lt, hab] at h1 h2 ⊢
        cases hb : y.bottom <;> simp [hb] at h1 h2 ⊢
        omega
    · rename_i hc
      have noBlock : y.block ≠ (coordOf a).block := by
        intro q1
        cases hb : y.bottom <;> cases hab : (coordOf a).bottom
        · exact noSame q1 (by rw [hb, hab])
        · simp [Coord.lt, q1, hab, hb] at h1
        · apply hc
          refine ⟨hab, ?_⟩
          have hz := hd.rows y hy 0 (by omega)
          rw [q1, hb] at hz
          have := (isValid_addressOf p _ (hin _ hra.1 true)).mpr hz
          rw [isValid_eq_region] at this
          have hb2 : isBottom (addressOf ⟨(coordOf a).block, true, 0, 0, 0⟩) = true := by
            have := congrArg Coord.bottom (C02_coord_round_trip _ (hin _ hra.1 true))
            simpa [coordOf] using this
          rw [hb2] at this
          exact this
        · exact noSame q1 (by rw [hb, hab])
      have hgt : (coordOf a).block < y.block := by
        simp only [Coord.lt] at h1; omega
      unfold Part.nextBlock at h
      simp only [make_block] at h
      have blockA : (blockType a).toNat = (coordOf a).block := rfl
      split at h
      · rename_i hcb
        simp only [Option.some.injEq] at h
        have hco := C02_coord_round_trip _ (hin kBlockRam.toNat (by decide) false)
        rw [h] at hco
        rw [hco] at h2
        have : (coordOf a).block < 1 := BitVec.lt_def.mp hcb.1
        have e : kBlockRam.toNat = 1 := rfl
        simp only [Coord.lt, e] at h2
        have hb0 : false.toNat = 0 := rfl
        omega
      · rename_i hcb
        split at h
        · rename_i hcc
          simp only [Option.some.injEq] at h
          have hco := C02_coord_round_trip _ (hin kCFGCLB.toNat (by decide) false)
          rw [h] at hco
          rw [hco] at h2
          have e : kCFGCLB.toNat = 2 := rfl
          simp only [Coord.lt, e] at h2
          have hb0 : false.toNat = 0 := rfl
          have hy1 : y.block = 1 := by
            have : (coordOf a).block < 2 := BitVec.lt_def.mp hcc.1
            omega
          apply hcb
          refine ⟨BitVec.lt_def.mpr (by rw [blockA]; show _ < 1; omega), ?_⟩
          have hz := hd.halves y hy
          rw [hy1] at hz
          exact (isValid_addressOf p _ (hin 1 (by decide) false)).mpr hz
        · simp at h

/-- When there is no next address the walk has reached the last frame. -/
theorem next_none_last (p : Part) (hp : Fits p) (hd : Dense p) (a : FrameAddress)
    (hv : p.isValid a = true) (h : p.next a = none) (y : Coord) (hy : HasFrame p y)
    (h1 : (coordOf a).lt y) : False := by
  have hra := C02_coordOf_inRange a
  have hin : ∀ b, b < 8 → ∀ h, (⟨b, h, 0, 0, 0⟩ : Coord).InRange := fun b hb h =>
    ⟨hb, Nat.zero_lt_succ _, Nat.zero_lt_succ _, Nat.zero_lt_succ _⟩
  unfold Part.next at h
  rw [part_next_region] at h
  cases hr : regionNext (p.region (coordOf a).bottom) a with
  | some n' => simp [hr] at h
  | none =>
    simp only [hr, make_block] at h
    split at h
    · simp at h
    · rename_i hc
      have noBlock : y.block ≠ (coordOf a).block := by
        intro q1
        cases hb : y.bottom <;> cases hab : (coordOf a).bottom
        · exact region_no_more p hp hd a hv hr y hy q1 (by rw [hb, hab]) h1
        · simp [Coord.lt, q1, hab, hb] at h1
        · apply hc
          refine ⟨hab, ?_⟩
          have hz := hd.rows y hy 0 (by omega)
          rw [q1, hb] at hz
          have := (isValid_addressOf p _ (hin _ hra.1 true)).mpr hz
          rw [isValid_eq_region] at this
          have hb2 : isBottom (addressOf ⟨(coordOf a).block, true, 0, 0, 0⟩) = true := by
            have := congrArg Coord.bottom (C02_coord_round_trip _ (hin _ hra.1 true))
            simpa [coordOf] using this
          rw [hb2] at this
          exact this
        · exact region_no_more p hp hd a hv hr y hy q1 (by rw [hb, hab]) h1
      have hgt : (coordOf a).block < y.block := by
        simp only [Coord.lt] at h1; omega
      have hy3 := hd.blocks y hy
      have hz := hd.halves y hy
      have hval := (isValid_addressOf p _ (hin y.block (by omega) false)).mpr hz
      unfold Part.nextBlock at h
      simp only [make_block] at h
      have blockA : (blockType a).toNat = (coordOf a).block := rfl
      split at h
      · simp at h
      · rename_i hcb
        split at h
        · simp at h
        · rename_i hcc
          have : y.block = 1 ∨ y.block = 2 := by omega
          rcases this with e | e
          · apply hcb
            refine ⟨BitVec.lt_def.mpr (by rw [blockA]; show _ < 1; omega), ?_⟩
            rw [e] at hval; exact hval
          · apply hcc
            refine ⟨BitVec.lt_def.mpr (by rw [blockA]; show _ < 2; omega), ?_⟩
            rw [e] at hval; exact hval

end Verif.Xc7
