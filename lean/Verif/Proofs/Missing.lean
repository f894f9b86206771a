import Verif.Proofs.PartWalk
/-! The frame-completion loop. -/
namespace Verif.Xc7
open Verif.Spec Verif.Props FrameAddress

theorem coordOf_zero : coordOf 0#32 = ⟨0, false, 0, 0, 0⟩ := by decide

/-- First step of the walk when address 0 itself is not valid. -/
theorem next_zero_invalid (p : Part) (hp : Fits p) (hd : Dense p) (hv : p.isValid 0#32 = false)
    (y : Coord) (hy : HasFrame p y) :
    ∃ n, p.next 0#32 = some n ∧ ¬ y.lt (coordOf n) := by
  have hin : ∀ b, b < 8 → ∀ h, (⟨b, h, 0, 0, 0⟩ : Coord).InRange := fun b hb h =>
    ⟨hb, Nat.zero_lt_succ _, Nat.zero_lt_succ _, Nat.zero_lt_succ _⟩
  have noZero : ∀ z, HasFrame p z → z.block ≠ 0 := by
    intro z hz h0
    have := hd.halves z hz
    rw [h0] at this
    have h2 := (isValid_iff p 0#32).mpr (by rw [coordOf_zero]; exact this)
    rw [hv] at h2; simp at h2
  have hyb := hd.blocks y hy
  have hy0 := noZero y hy
  have hyh := hd.halves y hy
  have h0 : (0#32 : FrameAddress).toNat < 2^26 := by decide
  have key : ∀ n, p.next 0#32 = some n → (coordOf n).block ≠ 0 := by
    intro n hn
    exact noZero _ ((isValid_iff p n).mp (next_sound p hp _ _ h0 hn).1)
  cases hn : p.next 0#32 with
  | none =>
    exfalso
    unfold Part.next at hn
    rw [part_next_region] at hn
    cases hr : regionNext (p.region (coordOf 0#32).bottom) 0#32 with
    | some n' => simp [hr] at hn
    | none =>
      simp only [hr] at hn
      split at hn
      · simp at hn
      · unfold Part.nextBlock at hn
        simp only [make_block] at hn
        split at hn
        · simp at hn
        · rename_i hcb
          split at hn
          · simp at hn
          · rename_i hcc
            have hval := (isValid_addressOf p _ (hin y.block (by omega) false)).mpr hyh
            have : y.block = 1 ∨ y.block = 2 := by omega
            rcases this with e | e
            · apply hcb
              exact ⟨by decide, by rw [e] at hval; exact hval⟩
            · apply hcc
              exact ⟨by decide, by rw [e] at hval; exact hval⟩
  | some n =>
    refine ⟨n, rfl, ?_⟩
    have hk := key n hn
    unfold Part.next at hn
    rw [part_next_region] at hn
    cases hr : regionNext (p.region (coordOf 0#32).bottom) 0#32 with
    | some n' =>
      simp only [hr, Option.some.injEq] at hn
      subst hn
      obtain ⟨_, _, _, s4, _, _⟩ := regionNext_sound _ (Fits.region hp _) _ _ h0 hr
      rw [coordOf_zero] at s4
      exact absurd s4 hk
    | none =>
      simp only [hr, make_block] at hn
      split at hn
      · simp only [Option.some.injEq] at hn
        have hz : (blockType 0#32).toNat = 0 := by decide
        rw [hz] at hn
        have := C02_coord_round_trip _ (hin 0 (by decide) true)
        rw [hn] at this
        rw [this] at hk
        simp at hk
      · unfold Part.nextBlock at hn
        simp only [make_block] at hn
        split at hn
        · simp only [Option.some.injEq] at hn
          have := C02_coord_round_trip _ (hin kBlockRam.toNat (by decide) false)
          rw [hn] at this
          rw [this]
          have e : kBlockRam.toNat = 1 := rfl
          have hb0 : false.toNat = 0 := rfl
          simp only [Coord.lt, e]
          omega
        · rename_i hcb
          split at hn
          · simp only [Option.some.injEq] at hn
            have := C02_coord_round_trip _ (hin kCFGCLB.toNat (by decide) false)
            rw [hn] at this
            rw [this]
            have e : kCFGCLB.toNat = 2 := rfl
            have hb0 : false.toNat = 0 := rfl
            have : y.block ≠ 1 := by
              intro h1
              apply hcb
              rw [h1] at hyh
              exact ⟨by decide, (isValid_addressOf p _ (hin 1 (by decide) false)).mpr hyh⟩
            simp only [Coord.lt, e]
            omega
          · simp at hn

theorem reached_lt (p : Part) (hp : Fits p) (a : FrameAddress) (h : Reached p a) :
    a.toNat < 2^26 ∧ (p.isValid a = true ∨ a = 0#32) := by
  induction h with
  | start => exact ⟨by decide, Or.inr rfl⟩
  | step _ hn ih =>
    have := next_sound p hp _ _ ih.1 hn
    exact ⟨this.2.2, Or.inl this.1⟩

/-- Every valid address is reached on a dense part. -/
theorem reached_of_valid (p : Part) (hp : Fits p) (hd : Dense p) (y : FrameAddress)
    (hy : y.toNat < 2^26) (hv : p.isValid y = true) : Reached p y := by
  have key : ∀ k (a : FrameAddress), Reached p a → a.toNat ≤ y.toNat → y.toNat - a.toNat ≤ k →
      Reached p y := by
    intro k
    induction k with
    | zero =>
      intro a ha h1 h2
      have : a = y := BitVec.eq_of_toNat_eq (by omega)
      rw [← this]; exact ha
    | succ k ih =>
      intro a ha h1 h2
      by_cases he : a = y
      · rw [← he]; exact ha
      · have hne : a.toNat ≠ y.toNat := fun h => he (BitVec.eq_of_toNat_eq h)
        obtain ⟨q1, q2⟩ := reached_lt p hp a ha
        have hyf := (isValid_iff p y).mp hv
        have hlt : (coordOf a).lt (coordOf y) :=
          (C03_order_words a y q1 hy).mp (BitVec.lt_def.mpr (by omega))
        have hstep : ∃ n, p.next a = some n ∧ ¬ (coordOf y).lt (coordOf n) := by
          by_cases hva : p.isValid a = true
          · cases hn : p.next a with
            | none => exact absurd (next_none_last p hp hd a hva hn _ hyf hlt) (by simp)
            | some n => exact ⟨n, rfl, fun h => next_gap p hp hd a n q1 hva hn _ hyf hlt h⟩
          · have hz : a = 0#32 := by
              rcases q2 with q2 | q2
              · exact absurd q2 hva
              · exact q2
            subst hz
            exact next_zero_invalid p hp hd (by simpa using hva) _ hyf
        obtain ⟨n, hn, hny⟩ := hstep
        obtain ⟨s1, s2, s3⟩ := next_sound p hp a n q1 hn
        have hle : n.toNat ≤ y.toNat := by
          by_cases h : y.toNat < n.toNat
          · exact absurd ((C03_order_words y n hy s3).mp (BitVec.lt_def.mpr h)) hny
          · omega
        exact ih n (Reached.step ha hn) hle (by omega)
  exact key _ 0#32 Reached.start (by simp) (Nat.le_refl _)

/-- Insertion of the current frame, as the loop body does it. -/
def insertMissing {β : Type} (zero : β) (cur : FrameAddress) (data : BMap β) : BMap β :=
  if (data.find cur.toNat).isEmpty then data.emplace cur.toNat zero else data

theorem insertMissing_sorted {β : Type} (zero : β) (cur : FrameAddress) (data : BMap β)
    (h : data.Sorted) : (insertMissing zero cur data).Sorted := by
  unfold insertMissing
  split
  · exact BMap.sorted_emplace h _ _
  · exact h

theorem get?_insertMissing {β : Type} (zero : β) (cur : FrameAddress) (data : BMap β)
    (h : data.Sorted) (k : Nat) :
    (insertMissing zero cur data).get? k =
      if k = cur.toNat then some ((data.get? k).getD zero) else data.get? k := by
  unfold insertMissing
  split
  · rw [BMap.get?_emplace h]
    by_cases hk : k = cur.toNat
    · simp [hk]
    · simp [hk]
  · rename_i hne
    by_cases hk : k = cur.toNat
    · rw [if_pos hk]
      cases hg : data.get? k with
      | some v => simp
      | none =>
        rw [BMap.get?_eq_none, hk] at hg
        simp [hg] at hne
    · rw [if_neg hk]

theorem addMissingLoop_terminates {β : Type} (p : Part) (hp : Fits p) (zero : β) (fuel : Nat) :
    ∀ (cur : FrameAddress) (data : BMap β), cur.toNat < 2^26 → 2^26 - cur.toNat ≤ fuel →
      ∃ r, addMissingLoop p zero fuel cur data = some r := by
  induction fuel with
  | zero => intro cur data h1 h2; omega
  | succ fuel ih =>
    intro cur data h1 h2
    simp only [addMissingLoop]
    cases hn : p.next cur with
    | none => exact ⟨_, rfl⟩
    | some n =>
      have := next_sound p hp cur n h1 hn
      exact ih n _ this.2.2 (by omega)

/-- More fuel does not change the result. -/
theorem addMissingLoop_mono {β : Type} (p : Part) (zero : β) (fuel : Nat) :
    ∀ (cur : FrameAddress) (data r : BMap β), addMissingLoop p zero fuel cur data = some r →
      ∀ k, addMissingLoop p zero (fuel + k) cur data = some r := by
  induction fuel with
  | zero => intro cur data r h; simp [addMissingLoop] at h
  | succ fuel ih =>
    intro cur data r h k
    have : fuel + 1 + k = (fuel + k) + 1 := by omega
    rw [this]
    simp only [addMissingLoop] at h ⊢
    cases hn : p.next cur with
    | none => simpa [hn] using h
    | some n =>
      simp only [hn] at h
      exact ih n _ r h k

/-- Addresses visited from `cur` on. -/
inductive ReachedFrom (p : Part) (cur : FrameAddress) : FrameAddress → Prop
  | start : ReachedFrom p cur cur
  | step {a n : FrameAddress} : ReachedFrom p cur a → p.next a = some n → ReachedFrom p cur n

theorem reachedFrom_head {p : Part} {cur n a : FrameAddress} (h : p.next cur = some n)
    (hr : ReachedFrom p n a) : ReachedFrom p cur a := by
  induction hr with
  | start => exact .step .start h
  | step _ hn ih => exact .step ih hn

theorem reachedFrom_inv {p : Part} {cur a : FrameAddress} (hr : ReachedFrom p cur a) :
    a = cur ∨ ∃ n, p.next cur = some n ∧ ReachedFrom p n a := by
  induction hr with
  | start => exact Or.inl rfl
  | step _ hn ih =>
    rcases ih with rfl | ⟨n, h1, h2⟩
    · exact Or.inr ⟨_, hn, .start⟩
    · exact Or.inr ⟨n, h1, .step h2 hn⟩

theorem reached_iff_from (p : Part) (a : FrameAddress) : Reached p a ↔ ReachedFrom p 0#32 a := by
  constructor
  · intro h; induction h with
    | start => exact .start
    | step _ hn ih => exact .step ih hn
  · intro h; induction h with
    | start => exact .start
    | step _ hn ih => exact .step ih hn

theorem addMissingLoop_spec {β : Type} (p : Part) (zero : β) (fuel : Nat) :
    ∀ (cur : FrameAddress) (data r : BMap β), data.Sorted →
      addMissingLoop p zero fuel cur data = some r →
      r.Sorted ∧ ∀ k v, r.get? k = some v ↔
        (data.get? k = some v ∨
          (data.get? k = none ∧ v = zero ∧ ∃ a, ReachedFrom p cur a ∧ a.toNat = k)) := by
  induction fuel with
  | zero => intro cur data r _ h; simp [addMissingLoop] at h
  | succ fuel ih =>
    intro cur data r hs h
    simp only [addMissingLoop] at h
    have hs' := insertMissing_sorted zero cur data hs
    have hg := get?_insertMissing zero cur data hs
    cases hn : p.next cur with
    | none =>
      simp only [hn, Option.some.injEq] at h
      change insertMissing zero cur data = r at h
      subst h
      refine ⟨hs', fun k v => ?_⟩
      rw [hg]
      have hre : ∀ a, ReachedFrom p cur a ↔ a = cur := by
        intro a
        constructor
        · intro ha
          rcases reachedFrom_inv ha with h | ⟨n, h, _⟩
          · exact h
          · rw [hn] at h; simp at h
        · rintro rfl; exact .start
      by_cases hk : k = cur.toNat
      · rw [if_pos hk]
        cases hgk : data.get? k with
        | some w => simp
        | none =>
          simp only [Option.getD_none, Option.some.injEq, reduceCtorEq, false_or, true_and]
          constructor
          · intro h; exact ⟨h.symm, cur, .start, hk.symm⟩
          · rintro ⟨h, _⟩; exact h.symm
      · rw [if_neg hk]
        constructor
        · exact Or.inl
        · rintro (h | ⟨_, _, a, ha, hak⟩)
          · exact h
          · rw [hre] at ha; subst ha; exact absurd hak.symm hk
    | some n =>
      simp only [hn] at h
      change addMissingLoop p zero fuel n (insertMissing zero cur data) = some r at h
      obtain ⟨i1, i2⟩ := ih n _ r hs' h
      refine ⟨i1, fun k v => ?_⟩
      rw [i2, hg]
      by_cases hk : k = cur.toNat
      · rw [if_pos hk]
        cases hgk : data.get? k with
        | some w => simp
        | none =>
          simp only [Option.getD_none, Option.some.injEq, reduceCtorEq, false_and, or_false,
            false_or, true_and]
          constructor
          · intro h; exact ⟨h.symm, cur, .start, hk.symm⟩
          · rintro ⟨h, _⟩; exact h.symm
      · rw [if_neg hk]
        constructor
        · rintro (h | ⟨h1, h2, a, ha, hak⟩)
          · exact Or.inl h
          · exact Or.inr ⟨h1, h2, a, reachedFrom_head hn ha, hak⟩
        · rintro (h | ⟨h1, h2, a, ha, hak⟩)
          · exact Or.inl h
          · rcases reachedFrom_inv ha with rfl | ⟨n', h3, h4⟩
            · exact absurd hak.symm hk
            · rw [hn] at h3
              simp only [Option.some.injEq] at h3
              subst h3
              exact Or.inr ⟨h1, h2, a, h4, hak⟩

end Verif.Xc7
