import Verif.Proofs.Missing
import Verif.Spec.Payload
/-! # Frame payload: layout and decoding -/
namespace Verif.Xc7
open Verif.Spec Verif.Props FrameAddress

theorem toNat_row_eq (a b : FrameAddress) : row a = row b ↔ (row a).toNat = (row b).toNat :=
  ⟨fun h => by rw [h], fun h => BitVec.eq_of_toNat_eq h⟩

theorem crossesRow_iff (a n : FrameAddress) : crossesRow a n = decide ((coordOf n).block ≠ (coordOf a).block ∨
    (coordOf n).bottom ≠ (coordOf a).bottom ∨ (coordOf n).row ≠ (coordOf a).row) := by
  have h1 : blockType n = blockType a ↔ (blockType n).toNat = (blockType a).toNat :=
    ⟨fun h => by rw [h], fun h => BitVec.eq_of_toNat_eq h⟩
  simp only [crossesRow, coordOf]
  by_cases c1 : blockType n = blockType a <;> by_cases c2 : isBottom n = isBottom a <;>
    by_cases c3 : row n = row a <;> simp_all [bne, toNat_row_eq]

theorem framePayload_eq {n : Nat} (p : Part) (a : FrameAddress) (f : FrameWords n) :
    framePayload p a f = f.toList ++ if endsRow p a then List.replicate (n * 2) 0#32 else [] := by
  unfold framePayload endsRow
  cases p.next a with
  | none => simp
  | some nx => simp only [crossesRow_iff]

theorem framePayload_length {n : Nat} (p : Part) (a : FrameAddress) (f : FrameWords n) :
    (framePayload p a f).length = n + if endsRow p a then n * 2 else 0 := by
  rw [framePayload_eq]
  split <;> simp

theorem rowEnds_cons {β : Type} (p : Part) (kv : Nat × β) (m : BMap β) :
    rowEnds p (kv :: m) = (if endsRow p (BitVec.ofNat 32 kv.1) then 1 else 0) + rowEnds p m := by
  simp only [rowEnds, List.filter_cons]
  split <;> simp <;> omega

theorem type2Payload_length {n : Nat} (p : Part) (m : BMap (FrameWords n)) :
    (type2Payload p m).length = (m.length + 2 * rowEnds p m + 2) * n := by
  induction m with
  | nil => simp [type2Payload, rowEnds, Nat.mul_comm]
  | cons kv m ih =>
    obtain ⟨k, f⟩ := kv
    rw [type2Payload, List.length_append, framePayload_length, ih, rowEnds_cons]
    simp only [List.length_cons]
    split <;> simp only [Nat.mul_add, Nat.mul_comm] <;> omega

theorem slot_succ {β : Type} (n : Nat) (p : Part) (k : Nat) (v : β) (m : BMap β) (i : Nat) :
    slot n p ((k, v) :: m) (i + 1) =
      n + (if endsRow p (BitVec.ofNat 32 k) then n * 2 else 0) + slot n p m i := by
  simp only [slot, List.take_succ_cons, rowEnds_cons]
  split <;> simp only [Nat.mul_add, Nat.mul_one, Nat.mul_zero, Nat.add_zero] <;> omega

theorem slot_zero {β : Type} (n : Nat) (p : Part) (m : BMap β) : slot n p m 0 = 0 := by
  simp [slot, rowEnds]

theorem payload_slot {n : Nat} (p : Part) : ∀ (m : BMap (FrameWords n)) (i k : Nat) (f : FrameWords n),
    m[i]? = some (k, f) → ((type2Payload p m).drop (slot n p m i)).take n = f.toList := by
  intro m
  induction m with
  | nil => intro i k f h; simp at h
  | cons kv m ih =>
    obtain ⟨k', f'⟩ := kv
    intro i k f h
    cases i with
    | zero =>
      simp only [List.getElem?_cons_zero, Option.some.injEq, Prod.mk.injEq] at h
      obtain ⟨rfl, rfl⟩ := h
      rw [slot_zero, List.drop_zero, type2Payload, framePayload_eq, List.append_assoc]
      have : n = f'.toList.length := by simp
      rw [List.take_append_of_le_length (by simp), List.take_of_length_le (by simp)]
    | succ i =>
      simp only [List.getElem?_cons_succ] at h
      rw [slot_succ, type2Payload, ← List.drop_drop]
      rw [List.drop_left' (framePayload_length p _ _)]
      exact ih i k f h

theorem payload_padding {n : Nat} (p : Part) : ∀ (m : BMap (FrameWords n)) (j : Nat) (w : Word),
    (type2Payload p m)[j]? = some w →
    (∃ i < m.length, slot n p m i ≤ j ∧ j < slot n p m i + n) ∨ w = 0#32 := by
  intro m
  induction m with
  | nil =>
    intro j w h
    right
    rw [type2Payload, List.getElem?_replicate] at h
    split at h <;> simp_all
  | cons kv m ih =>
    obtain ⟨k, f⟩ := kv
    intro j w h
    rw [type2Payload] at h
    by_cases hj : j < (framePayload p (BitVec.ofNat 32 k) f).length
    · rw [List.getElem?_append_left hj, framePayload_eq] at h
      by_cases hjn : j < n
      · left; exact ⟨0, by simp, by rw [slot_zero]; omega⟩
      · right
        rw [List.getElem?_append_right (by simp; omega)] at h
        split at h
        · rw [List.getElem?_replicate] at h
          split at h <;> simp_all
        · simp at h
    · rw [List.getElem?_append_right (by omega)] at h
      rcases ih _ w h with ⟨i, h1, h2, h3⟩ | h1
      · left
        refine ⟨i + 1, by simp; omega, ?_⟩
        rw [slot_succ]
        rw [framePayload_length] at h2 h3 hj
        omega
      · exact Or.inr h1

/-! ## Decoding -/

theorem assign_append {β : Type} (m : BMap β) (k : Nat) (v : β) (h : ∀ x ∈ m, x.1 < k) :
    m.assign k v = m ++ [(k, v)] := by
  induction m with
  | nil => rfl
  | cons kv m ih =>
    obtain ⟨k', v'⟩ := kv
    have h0 : k' < k := h (k', v') List.mem_cons_self
    rw [BMap.assign, if_pos h0, ih (fun x hx => h x (List.mem_cons_of_mem _ hx))]
    rfl

theorem fdriLoop_payload {n : Nat} (hn : 0 < n) (p : Part) : ∀ (m : BMap (FrameWords n)) (a : FrameAddress)
    (acc : BMap (List Word)) (fuel : Nat), WalkFrom p a m → m.Sorted → (∀ x ∈ acc, x.1 < a.toNat) →
    (type2Payload p m).length ≤ fuel →
    ∃ last, fdriLoop n p fuel (type2Payload p m) a acc = (acc ++ sameFrames m, last) := by
  intro m
  induction m with
  | nil => intro a acc fuel h; exact absurd h (by simp [WalkFrom])
  | cons kv m ih =>
    obtain ⟨k, f⟩ := kv
    intro a acc fuel hw hs hacc hf
    obtain ⟨hk, hw⟩ := hw
    have hka : BitVec.ofNat 32 k = a := by rw [hk]; simp
    have hfl : f.toList.length = n := by simp
    cases fuel with
    | zero =>
      rw [type2Payload, List.length_append, framePayload_length] at hf
      omega
    | succ fuel =>
      have hne : (type2Payload p ((k, f) :: m)).isEmpty = false := by
        have : 0 < (type2Payload p ((k, f) :: m)).length := by
          rw [type2Payload, List.length_append, framePayload_length]; omega
        cases h : type2Payload p ((k, f) :: m) with
        | nil => rw [h] at this; simp at this
        | cons _ _ => rfl
      rw [fdriLoop, hne]
      simp only [Bool.false_eq_true, if_false]
      have htake : (type2Payload p ((k, f) :: m)).take n = f.toList := by
        rw [type2Payload, framePayload_eq, List.append_assoc,
          List.take_append_of_le_length (by simp), List.take_of_length_le (by simp)]
      rw [htake, assign_append _ _ _ hacc]
      cases hnx : p.next a with
      | none =>
        rw [hnx] at hw
        simp only at hw
        subst hw
        exact ⟨a, by simp [sameFrames, hk]⟩
      | some nx =>
        rw [hnx] at hw
        simp only at hw
        have hskip : (if crossesRow a nx then n + 2 * n else n) = (framePayload p a f).length := by
          rw [framePayload_length]
          simp only [endsRow, hnx, ← crossesRow_iff]
          split <;> omega
        have hdrop : (type2Payload p ((k, f) :: m)).drop (if crossesRow a nx then n + 2 * n else n)
            = type2Payload p m := by
          rw [type2Payload, hka, hskip, List.drop_left]
        simp only [hdrop]
        -- keys below the next address
        have hm0 : ∃ k2 f2 m2, m = (k2, f2) :: m2 ∧ k2 = nx.toNat := by
          cases m with
          | nil => exact absurd hw (by simp [WalkFrom])
          | cons kv2 m2 => exact ⟨kv2.1, kv2.2, m2, rfl, hw.1⟩
        obtain ⟨k2, f2, m2, hm2, hk2⟩ := hm0
        have hlt : a.toNat < nx.toNat := by
          have := (List.pairwise_cons.mp hs).1 (k2, f2) (by rw [hm2]; exact List.mem_cons_self)
          simp only at this
          omega
        obtain ⟨last, hl⟩ := ih nx (acc ++ [(a.toNat, f.toList)]) fuel hw (List.pairwise_cons.mp hs).2
          (by
            intro x hx
            rcases List.mem_append.mp hx with h | h
            · have := hacc x h; omega
            · simp at h; rw [h]; exact hlt)
          (by rw [type2Payload, List.length_append, framePayload_length] at hf; omega)
        refine ⟨last, ?_⟩
        rw [hl]
        simp [sameFrames, hk]

theorem reachedFrom_ge (p : Part) (hp : Fits p) (cur a : FrameAddress) (hc : cur.toNat < 2^26)
    (h : ReachedFrom p cur a) : cur.toNat ≤ a.toNat ∧ a.toNat < 2^26 := by
  induction h with
  | start => exact ⟨Nat.le_refl _, hc⟩
  | step _ hn ih =>
    have := next_sound p hp _ _ ih.2 hn
    exact ⟨by omega, this.2.2⟩

/-- A sorted map whose keys are exactly the addresses reached from `a` is the walk from `a`. -/
theorem walk_of_keys {β : Type} (p : Part) (hp : Fits p) : ∀ (m : BMap β) (a : FrameAddress),
    m.Sorted → a.toNat < 2^26 →
    (∀ k, (∃ v, (k, v) ∈ m) ↔ ∃ b, ReachedFrom p a b ∧ b.toNat = k) → WalkFrom p a m := by
  intro m
  induction m with
  | nil =>
    intro a _ _ h
    obtain ⟨v, hv⟩ := (h a.toNat).mpr ⟨a, .start, rfl⟩
    simp at hv
  | cons kv m ih =>
    obtain ⟨k, f⟩ := kv
    intro a hs ha h
    obtain ⟨hlt, hs'⟩ := List.pairwise_cons.mp hs
    have hka : k = a.toNat := by
      obtain ⟨b, hb, hbk⟩ := (h k).mp ⟨f, List.mem_cons_self⟩
      have hge := (reachedFrom_ge p hp a b ha hb).1
      obtain ⟨v, hv⟩ := (h a.toNat).mpr ⟨a, .start, rfl⟩
      rcases List.mem_cons.mp hv with h1 | h1
      · simp only [Prod.mk.injEq] at h1; exact h1.1.symm
      · have := hlt _ h1
        simp only at this
        omega
    refine ⟨hka, ?_⟩
    cases hn : p.next a with
    | none =>
      simp only
      cases hm : m with
      | nil => rfl
      | cons kv2 m2 =>
        exfalso
        have hmem : kv2 ∈ m := by rw [hm]; exact List.mem_cons_self
        obtain ⟨b, hb, hbk⟩ := (h kv2.1).mp ⟨kv2.2, List.mem_cons_of_mem _ hmem⟩
        have := hlt _ hmem
        simp only at this
        rcases reachedFrom_inv hb with rfl | ⟨n, h1, _⟩
        · omega
        · rw [hn] at h1; simp at h1
    | some nx =>
      simp only
      obtain ⟨_, s2, s3⟩ := next_sound p hp a nx ha hn
      apply ih nx hs' s3
      intro j
      constructor
      · rintro ⟨v, hv⟩
        obtain ⟨b, hb, hbk⟩ := (h j).mp ⟨v, List.mem_cons_of_mem _ hv⟩
        have := hlt _ hv
        simp only at this
        rcases reachedFrom_inv hb with rfl | ⟨n, h1, h2⟩
        · omega
        · rw [hn] at h1
          simp only [Option.some.injEq] at h1
          subst h1
          exact ⟨b, h2, hbk⟩
      · rintro ⟨b, hb, hbk⟩
        obtain ⟨v, hv⟩ := (h j).mpr ⟨b, reachedFrom_head hn hb, hbk⟩
        rcases List.mem_cons.mp hv with h1 | h1
        · exfalso
          simp only [Prod.mk.injEq] at h1
          have := (reachedFrom_ge p hp nx b s3 hb).1
          omega
        · exact ⟨v, h1⟩

/-- The completed map of frames at reachable addresses is the walk from 0. -/
theorem walk_of_completed {β : Type} (p : Part) (hp : Fits p) (zero : β) (fuel : Nat) (data m : BMap β)
    (hs : data.Sorted) (hk : ∀ k v, (k, v) ∈ data → ∃ a, Reached p a ∧ a.toNat = k)
    (h : addMissingFrames p zero fuel data = some m) : WalkFrom p 0#32 m ∧ m.Sorted := by
  obtain ⟨h1, h2⟩ := addMissingLoop_spec p zero fuel 0#32 data m hs h
  refine ⟨walk_of_keys p hp m 0#32 h1 (by decide) ?_, h1⟩
  intro k
  constructor
  · rintro ⟨v, hv⟩
    have := BMap.get?_of_mem h1 hv
    rcases (h2 k v).mp this with h3 | ⟨_, _, h3⟩
    · obtain ⟨a, ha, hak⟩ := hk k v (BMap.mem_of_get? h3)
      exact ⟨a, (reached_iff_from p a).mp ha, hak⟩
    · exact h3
  · rintro ⟨b, hb, hbk⟩
    cases hg : data.get? k with
    | some v => exact ⟨v, BMap.mem_of_get? ((h2 k v).mpr (Or.inl hg))⟩
    | none => exact ⟨zero, BMap.mem_of_get? ((h2 k zero).mpr (Or.inr ⟨hg, rfl, b, hb, hbk⟩))⟩

end Verif.Xc7
