import Verif.Proofs.BMap
import Verif.Props.C01_C03
import Verif.Spec.Geometry
/-! Lemmas about the address walk. -/
namespace Verif.Xc7
open Verif.Spec Verif.Props FrameAddress

theorem busIsValid_iff (b : Bus) (a : FrameAddress) :
    busIsValid b a = true ↔ ∃ c, b.get? (column a).toNat = some c ∧ (minor a).toNat < c.frameCount := by
  unfold busIsValid
  cases h : b.find (column a).toNat with
  | nil => simp [BMap.get?_eq_none.mpr h]
  | cons x xs =>
    obtain ⟨k, c⟩ := x
    simp [BMap.get?_of_find h, Column.isValid]

theorem rowIsValid_iff (r : Row) (a : FrameAddress) :
    rowIsValid r a = true ↔ ∃ b, r.get? (blockType a).toNat = some b ∧ busIsValid b a = true := by
  unfold rowIsValid
  cases h : r.find (blockType a).toNat with
  | nil => simp [BMap.get?_eq_none.mpr h]
  | cons x xs =>
    obtain ⟨k, c⟩ := x
    simp [BMap.get?_of_find h]

theorem regionIsValid_iff (g : Region) (a : FrameAddress) :
    regionIsValid g a = true ↔ ∃ r, g.get? (row a).toNat = some r ∧ rowIsValid r a = true := by
  unfold regionIsValid
  cases h : g.find (row a).toNat with
  | nil => simp [BMap.get?_eq_none.mpr h]
  | cons x xs =>
    obtain ⟨k, c⟩ := x
    simp [BMap.get?_of_find h]

/-- The region of a half. -/
def Part.region (p : Part) (h : Bool) : Region := if h then p.bottom else p.top

theorem isValid_eq_region (p : Part) (a : FrameAddress) :
    p.isValid a = regionIsValid (p.region (isBottom a)) a := by
  unfold Part.isValid Part.region
  cases isBottom a <;> rfl

/-- Validity of an address is having a frame at its coordinate. -/
theorem isValid_iff (p : Part) (a : FrameAddress) : p.isValid a = true ↔ HasFrame p (coordOf a) := by
  rw [isValid_eq_region, regionIsValid_iff]
  simp only [rowIsValid_iff, busIsValid_iff, HasFrame, frameCountAt, coordOf, Part.region]
  simp only [Option.map_eq_some_iff, Option.bind_eq_some_iff]
  constructor
  · rintro ⟨r, h1, b, h2, c, h3, h4⟩
    exact ⟨c.frameCount, ⟨c, ⟨b, ⟨r, h1, h2⟩, h3⟩, rfl⟩, h4⟩
  · rintro ⟨n, ⟨c, ⟨b, ⟨r, h1, h2⟩, h3⟩, h5⟩, h4⟩
    exact ⟨r, h1, b, h2, c, h3, by omega⟩

theorem addressOf_lt (c : Coord) (h : c.InRange) : (addressOf c).toNat < 2^26 := by
  rw [toNat_addressOf c h]
  obtain ⟨h1, h2, h3, h4⟩ := h
  have : c.bottom.toNat < 2 := Bool.toNat_lt _
  omega

theorem addressOf_coordOf (a : FrameAddress) (h : a.toNat < 2^26) : addressOf (coordOf a) = a := by
  apply BitVec.eq_of_toNat_eq
  rw [C02_address_round_trip, Nat.mod_eq_of_lt h]

theorem make_eq_addressOf (b : BlockType) (h : Bool) (r : BitVec 8) (c : BitVec 16) (m : BitVec 8) :
    make b h r c m = addressOf ⟨b.toNat, h, r.toNat, c.toNat, m.toNat⟩ := by
  simp [addressOf]

theorem make_eq (a : FrameAddress) (h : Bool) (k : Nat) :
    make (blockType a) h (row a) (BitVec.ofNat 16 k) 0#8 =
      addressOf ⟨(coordOf a).block, h, (coordOf a).row, k, 0⟩ := by
  simp [addressOf, coordOf]

theorem make_eq_row (a : FrameAddress) (h : Bool) (k : Nat) :
    make (blockType a) h (BitVec.ofNat 8 k) 0#16 0#8 =
      addressOf ⟨(coordOf a).block, h, k, 0, 0⟩ := by
  simp [addressOf, coordOf]

theorem coordOf_succ (a : FrameAddress) (ha : a.toNat < 2^26) (hm : (minor a).toNat + 1 < 128) :
    (a + 1#32).toNat = a.toNat + 1 ∧
    coordOf (a + 1#32) = { coordOf a with minor := (coordOf a).minor + 1 } := by
  have e : (a + 1#32).toNat = a.toNat + 1 := by
    rw [BitVec.toNat_add]; simp; omega
  refine ⟨e, ?_⟩
  rw [toNat_minor] at hm
  simp only [coordOf, toNat_blockType, toNat_row, toNat_column, toNat_minor, isBottom_eq, e]
  congr 1
  · omega
  · have : (a.toNat + 1) / 2^22 = a.toNat / 2^22 := by omega
    rw [this]
  · omega
  · omega
  · omega

/-- What each candidate of the walk looks like in coordinates. -/
theorem busNext_sound (b : Bus) (hs : b.Sorted)
    (hc : ∀ c ∈ b, c.1 < 1024 ∧ c.2.frameCount ≤ 128) (a n : FrameAddress)
    (ha : a.toNat < 2^26) (h : busNext b a = some n) :
    busIsValid b n = true ∧ a.toNat < n.toNat ∧ n.toNat < 2^26 ∧
      (coordOf n).block = (coordOf a).block ∧ (coordOf n).bottom = (coordOf a).bottom ∧
      (coordOf n).row = (coordOf a).row ∧
      (n = a + 1#32 ∨ ((coordOf n).minor = 0 ∧ (coordOf a).column < (coordOf n).column ∧
        (∀ c, b.get? (coordOf a).column = some c → c.frameCount ≤ (coordOf a).minor + 1) ∧
        ∀ c, (coordOf a).column < c → c < (coordOf n).column → b.get? c = none)) := by
  unfold busNext at h
  cases hf : b.find (column a).toNat with
  | nil => simp [hf] at h
  | cons x rest =>
    obtain ⟨k, c⟩ := x
    simp only [hf] at h
    have hk := (BMap.find_cons_inv hf).1
    have hget := BMap.get?_of_find hf
    have hmem := BMap.mem_of_get? hget
    have hcnt := (hc _ hmem).2
    simp only at hcnt
    cases hn : c.next a with
    | some n' =>
      simp only [hn, Option.some.injEq] at h
      subst h
      unfold Column.next at hn
      split at hn
      · simp at hn
      · rename_i hv
        split at hn
        · rename_i hlt
          simp only [Option.some.injEq] at hn
          subst hn
          obtain ⟨e1, e2⟩ := coordOf_succ a ha (by omega)
          refine ⟨?_, by omega, ?_, by rw [e2], by rw [e2], by rw [e2], Or.inl rfl⟩
          · rw [busIsValid_iff]
            have e3 : (column (a + 1#32)).toNat = (column a).toNat := by
              have := congrArg Coord.column e2; simpa [coordOf] using this
            have e4 : (minor (a + 1#32)).toNat = (minor a).toNat + 1 := by
              have := congrArg Coord.minor e2; simpa [coordOf] using this
            rw [e3, e4]
            exact ⟨c, hget, hlt⟩
          · rw [toNat_minor] at hlt
            omega
        · simp at hn
    | none =>
      simp only [hn] at h
      cases rest with
      | nil => simp at h
      | cons y rest' =>
        obtain ⟨k', c'⟩ := y
        simp only [make_eq] at h
        split at h
        · rename_i hv
          simp only [Option.some.injEq] at h
          obtain ⟨g1, g2, g3, g4⟩ := BMap.find_next hs hf
          have hk' : (column a).toNat < k' := g1 (k', c') (by simp)
          have hget' : b.get? k' = some c' := g4 (k', c') (by simp)
          have hr' := hc _ (BMap.mem_of_get? hget')
          simp only at hr'
          have hin : (⟨(coordOf a).block, isBottom a, (coordOf a).row, k', 0⟩ : Coord).InRange := by
            have := C02_coordOf_inRange a
            exact ⟨this.1, this.2.1, hr'.1, Nat.zero_lt_succ _⟩
          have hco := C02_coord_round_trip _ hin
          rw [h] at hco
          refine ⟨?_, ?_, ?_, by rw [hco], by rw [hco]; rfl, by rw [hco], Or.inr ⟨by rw [hco], ?_, ?_, ?_⟩⟩
          · rw [busIsValid_iff]
            have e3 : (column n).toNat = k' := by
              have := congrArg Coord.column hco; simpa [coordOf] using this
            have e4 : (minor n).toNat = 0 := by
              have := congrArg Coord.minor hco; simpa [coordOf] using this
            rw [e3, e4]
            refine ⟨c', hget', ?_⟩
            rw [h] at hv
            simp only [Column.isValid, e4, decide_eq_true_eq] at hv
            exact hv
          · have h2 := (C03_order _ _ (C02_coordOf_inRange a) hin).mpr (by
              simp only [Coord.lt]
              refine Or.inr ⟨trivial, Or.inr ⟨rfl, Or.inr ⟨trivial, Or.inl ?_⟩⟩⟩
              exact hk')
            rw [addressOf_coordOf a ha, h] at h2
            exact h2
          · rw [← h]; exact addressOf_lt _ hin
          · rw [hco]; exact hk'
          · intro c2 hc2
            have : c2 = c := by
              have h5 : b.get? (coordOf a).column = some c := hget
              rw [h5] at hc2
              simpa using hc2.symm
            subst this
            unfold Column.next at hn
            split at hn
            · rename_i hv2
              simp only [Column.isValid, decide_eq_true_eq] at hv2
              simp only [coordOf]
              omega
            · split at hn
              · simp at hn
              · simp only [coordOf]; omega
          · intro j hj1 hj2
            rw [hco] at hj2
            rw [BMap.get?_eq_none, BMap.find_eq_nil]
            intro x hx hxj
            have h6 := g2 x hx (by rw [hxj]; exact hj1)
            rcases List.mem_cons.mp h6 with h7 | h7
            · rw [h7] at hxj; simp only at hxj hj2; omega
            · have := (List.pairwise_cons.mp g3).1 x h7
              simp only at this hj2; omega
        · simp at h

/-- When the bus has no next address for a valid address, later columns hold no frame, provided
columns are contiguous. -/
theorem busNext_none (b : Bus) (hs : b.Sorted)
    (hc : ∀ c ∈ b, c.1 < 1024 ∧ c.2.frameCount ≤ 128) (a : FrameAddress)
    (h : busNext b a = none) (hv : busIsValid b a = true) :
    (∀ c, b.get? (coordOf a).column = some c → c.frameCount ≤ (coordOf a).minor + 1) ∧
    ((∀ k, (coordOf a).column < k → b.get? k = none) ∨
      ∃ k c, (coordOf a).column < k ∧ b.get? k = some c ∧ c.frameCount = 0 ∧
        ∀ j, (coordOf a).column < j → j < k → b.get? j = none) := by
  rw [busIsValid_iff] at hv
  obtain ⟨c, hget, hm⟩ := hv
  obtain ⟨rest, hf⟩ := BMap.find_of_get? hget
  simp only [busNext, hf] at h
  obtain ⟨g1, g2, g3, g4⟩ := BMap.find_next hs hf
  cases hn : c.next a with
  | some n => simp [hn] at h
  | none =>
    simp only [hn] at h
    constructor
    · intro c2 hc2
      have h5 : b.get? (coordOf a).column = some c := hget
      rw [h5] at hc2
      simp only [Option.some.injEq] at hc2
      subst hc2
      unfold Column.next at hn
      split at hn
      · rename_i hv2
        simp only [Column.isValid, decide_eq_true_eq] at hv2
        omega
      · split at hn
        · simp at hn
        · simp only [coordOf]; omega
    · cases rest with
      | nil =>
        left
        intro k hk
        rw [BMap.get?_eq_none, BMap.find_eq_nil]
        intro x hx hxk
        have := g2 x hx (by rw [hxk]; exact hk)
        simp at this
      | cons y rest' =>
        right
        obtain ⟨k', c'⟩ := y
        simp only [make_eq] at h
        have hk' : (column a).toNat < k' := g1 (k', c') (by simp)
        have hget' : b.get? k' = some c' := g4 (k', c') (by simp)
        have hr' := hc _ (BMap.mem_of_get? hget')
        simp only at hr'
        have hin : (⟨(coordOf a).block, isBottom a, (coordOf a).row, k', 0⟩ : Coord).InRange := by
          have := C02_coordOf_inRange a
          exact ⟨this.1, this.2.1, hr'.1, Nat.zero_lt_succ _⟩
        have hco := C02_coord_round_trip _ hin
        refine ⟨k', c', hk', hget', ?_, ?_⟩
        · split at h
          · simp at h
          · rename_i hv2
            have e4 : (minor (addressOf ⟨(coordOf a).block, isBottom a, (coordOf a).row, k', 0⟩)).toNat
                = 0 := by
              have := congrArg Coord.minor hco; simpa [coordOf] using this
            simp only [Column.isValid, e4, decide_eq_true_eq] at hv2
            omega
        · intro j hj1 hj2
          rw [BMap.get?_eq_none, BMap.find_eq_nil]
          intro x hx hxj
          have h6 := g2 x hx (by rw [hxj]; exact hj1)
          rcases List.mem_cons.mp h6 with h7 | h7
          · rw [h7] at hxj; simp only at hxj; omega
          · have := (List.pairwise_cons.mp g3).1 x h7
            simp only at this; omega

theorem Fits.region {p : Part} (hp : Fits p) (h : Bool) :
    (p.region h).Sorted ∧ ∀ r ∈ p.region h, r.1 < 32 ∧ r.2.Sorted ∧
    ∀ b ∈ r.2, b.2.Sorted ∧ ∀ c ∈ b.2, c.1 < 1024 ∧ c.2.frameCount ≤ 128 := by
  apply hp
  cases h
  · left; rfl
  · right; rfl

/-- `regionNext` is sound. -/
theorem regionNext_sound (g : Region) (hg : g.Sorted ∧ ∀ r ∈ g, r.1 < 32 ∧ r.2.Sorted ∧
      ∀ b ∈ r.2, b.2.Sorted ∧ ∀ c ∈ b.2, c.1 < 1024 ∧ c.2.frameCount ≤ 128)
    (a n : FrameAddress) (ha : a.toNat < 2^26) (h : regionNext g a = some n) :
    regionIsValid g n = true ∧ a.toNat < n.toNat ∧ n.toNat < 2^26 ∧
      (coordOf n).block = (coordOf a).block ∧ (coordOf n).bottom = (coordOf a).bottom ∧
      ((∃ r b, g.get? (coordOf a).row = some r ∧ r.get? (coordOf a).block = some b ∧
          busNext b a = some n) ∨
       ((coordOf a).row < (coordOf n).row ∧ (coordOf n).column = 0 ∧ (coordOf n).minor = 0 ∧
        (∃ r, g.get? (coordOf a).row = some r ∧ rowNext r a = none) ∧
        ∀ j, (coordOf a).row < j → j < (coordOf n).row → g.get? j = none)) := by
  obtain ⟨hs, hr⟩ := hg
  unfold regionNext at h
  cases hf : g.find (row a).toNat with
  | nil => simp [hf] at h
  | cons x rest =>
    obtain ⟨k, r⟩ := x
    simp only [hf] at h
    have hget := BMap.get?_of_find hf
    have hrr := hr _ (BMap.mem_of_get? hget)
    simp only at hrr
    cases hn : rowNext r a with
    | some n' =>
      simp only [hn, Option.some.injEq] at h
      subst h
      unfold rowNext at hn
      cases hfb : r.find (blockType a).toNat with
      | nil => simp [hfb] at hn
      | cons y ys =>
        obtain ⟨k2, b⟩ := y
        simp only [hfb] at hn
        have hgetb := BMap.get?_of_find hfb
        have hbb := hrr.2.2 _ (BMap.mem_of_get? hgetb)
        simp only at hbb
        obtain ⟨s1, s2, s3, s4, s5, s6, s7⟩ := busNext_sound b hbb.1 hbb.2 a n' ha hn
        refine ⟨?_, s2, s3, s4, s5, Or.inl ⟨r, b, hget, hgetb, hn⟩⟩
        rw [regionIsValid_iff]
        have e6 : (row n').toNat = (row a).toNat := s6
        rw [e6]
        refine ⟨r, hget, ?_⟩
        rw [rowIsValid_iff]
        have e4 : (blockType n').toNat = (blockType a).toNat := s4
        rw [e4]
        exact ⟨b, hgetb, s1⟩
    | none =>
      simp only [hn] at h
      cases rest with
      | nil => simp at h
      | cons y rest' =>
        obtain ⟨k', r'⟩ := y
        simp only [make_eq_row] at h
        split at h
        · rename_i hv
          simp only [Option.some.injEq] at h
          obtain ⟨g1, g2, g3, g4⟩ := BMap.find_next hs hf
          have hk' : (row a).toNat < k' := g1 (k', r') (by simp)
          have hget' : g.get? k' = some r' := g4 (k', r') (by simp)
          have hr' := hr _ (BMap.mem_of_get? hget')
          simp only at hr'
          have hin : (⟨(coordOf a).block, isBottom a, k', 0, 0⟩ : Coord).InRange := by
            have := C02_coordOf_inRange a
            exact ⟨this.1, hr'.1, Nat.zero_lt_succ _, Nat.zero_lt_succ _⟩
          have hco := C02_coord_round_trip _ hin
          rw [h] at hco
          have hrow : (row n).toNat = k' := by
            have := congrArg Coord.row hco; simpa [coordOf] using this
          refine ⟨?_, ?_, ?_, by rw [hco], by rw [hco]; rfl,
            Or.inr ⟨by rw [hco]; exact hk', by rw [hco], by rw [hco], ⟨r, hget, hn⟩, ?_⟩⟩
          · rw [regionIsValid_iff, hrow]
            exact ⟨r', hget', by rw [← h]; exact hv⟩
          · have h2 := (C03_order _ _ (C02_coordOf_inRange a) hin).mpr (by
              simp only [Coord.lt]
              refine Or.inr ⟨trivial, Or.inr ⟨rfl, Or.inl ?_⟩⟩
              exact hk')
            rw [addressOf_coordOf a ha, h] at h2
            exact h2
          · rw [← h]; exact addressOf_lt _ hin
          · intro j hj1 hj2
            rw [hco] at hj2
            rw [BMap.get?_eq_none, BMap.find_eq_nil]
            intro x hx hxj
            have h6 := g2 x hx (by rw [hxj]; exact hj1)
            rcases List.mem_cons.mp h6 with h7 | h7
            · rw [h7] at hxj; simp only at hxj hj2; omega
            · have := (List.pairwise_cons.mp g3).1 x h7
              simp only at this hj2; omega
        · simp at h

/-- When a region has no next address: the row has none, and the following row does not start with
a frame of this block type. -/
theorem regionNext_none (g : Region) (hg : g.Sorted ∧ ∀ r ∈ g, r.1 < 32 ∧ r.2.Sorted ∧
      ∀ b ∈ r.2, b.2.Sorted ∧ ∀ c ∈ b.2, c.1 < 1024 ∧ c.2.frameCount ≤ 128)
    (a : FrameAddress) (h : regionNext g a = none) (r : Row)
    (hget : g.get? (coordOf a).row = some r) :
    rowNext r a = none ∧
    ((∀ k, (coordOf a).row < k → g.get? k = none) ∨
      ∃ k, (coordOf a).row < k ∧ k < 32 ∧
        regionIsValid g (addressOf ⟨(coordOf a).block, (coordOf a).bottom, k, 0, 0⟩) = false ∧
        ∀ j, (coordOf a).row < j → j < k → g.get? j = none) := by
  obtain ⟨hs, hr⟩ := hg
  obtain ⟨rest, hf⟩ := BMap.find_of_get? hget
  have hf' : g.find (row a).toNat = ((coordOf a).row, r) :: rest := hf
  simp only [regionNext, hf'] at h
  obtain ⟨g1, g2, g3, g4⟩ := BMap.find_next hs hf
  cases hn : rowNext r a with
  | some n => simp [hn] at h
  | none =>
    simp only [hn] at h
    refine ⟨rfl, ?_⟩
    cases rest with
    | nil =>
      left
      intro k hk
      rw [BMap.get?_eq_none, BMap.find_eq_nil]
      intro x hx hxk
      have := g2 x hx (by rw [hxk]; exact hk)
      simp at this
    | cons y rest' =>
      right
      obtain ⟨k', r'⟩ := y
      simp only [make_eq_row] at h
      have hk' : (coordOf a).row < k' := g1 (k', r') (by simp)
      have hget' : g.get? k' = some r' := g4 (k', r') (by simp)
      have hr' := hr _ (BMap.mem_of_get? hget')
      simp only at hr'
      have hin : (⟨(coordOf a).block, isBottom a, k', 0, 0⟩ : Coord).InRange := by
        have := C02_coordOf_inRange a
        exact ⟨this.1, hr'.1, Nat.zero_lt_succ _, Nat.zero_lt_succ _⟩
      have hco := C02_coord_round_trip _ hin
      refine ⟨k', hk', hr'.1, ?_, ?_⟩
      · split at h
        · simp at h
        · rename_i hv2
          cases hb : regionIsValid g (addressOf ⟨(coordOf a).block, (coordOf a).bottom, k', 0, 0⟩) with
          | false => rfl
          | true =>
            exfalso
            apply hv2
            rw [regionIsValid_iff] at hb
            obtain ⟨r2, q1, q2⟩ := hb
            have hrow : (row (addressOf ⟨(coordOf a).block, isBottom a, k', 0, 0⟩)).toNat = k' := by
              have := congrArg Coord.row hco; simpa [coordOf] using this
            have q1' : g.get? k' = some r2 := by rw [← hrow]; exact q1
            rw [hget'] at q1'
            simp only [Option.some.injEq] at q1'
            subst q1'
            exact q2
      · intro j hj1 hj2
        rw [BMap.get?_eq_none, BMap.find_eq_nil]
        intro x hx hxj
        have h6 := g2 x hx (by rw [hxj]; exact hj1)
        rcases List.mem_cons.mp h6 with h7 | h7
        · rw [h7] at hxj; simp only at hxj; omega
        · have := (List.pairwise_cons.mp g3).1 x h7
          simp only at this; omega

/-- Candidate start of a block type. -/
theorem make_block (b : BlockType) (h : Bool) :
    make b h 0#8 0#16 0#8 = addressOf ⟨b.toNat, h, 0, 0, 0⟩ := by
  simp [addressOf]

theorem part_next_region (p : Part) (a : FrameAddress) :
    (if isBottom a then regionNext p.bottom a else regionNext p.top a) =
      regionNext (p.region (coordOf a).bottom) a := by
  unfold Part.region coordOf
  simp only
  cases isBottom a <;> rfl

end Verif.Xc7
