import Verif.Spec.Readback
import Verif.Props.C15_C17
/-! # Decoding blocks of frame data -/
namespace Verif.Props
open Verif.Xc7 Verif.Xc7.Packet Verif.Spec Verif.BitOps

theorem sorted_assign {β : Type} {m : BMap β} (hs : m.Sorted) (k : Nat) (v : β) :
    (m.assign k v).Sorted ∧ ∀ x ∈ m.assign k v, x = (k, v) ∨ x ∈ m := by
  induction m with
  | nil => exact ⟨List.pairwise_singleton _ _, fun x hx => Or.inl (by simpa [BMap.assign] using hx)⟩
  | cons e m ih =>
    obtain ⟨k', v'⟩ := e
    obtain ⟨h1, h2⟩ := List.pairwise_cons.1 hs
    obtain ⟨i1, i2⟩ := ih h2
    rw [BMap.assign]
    by_cases hlt : k' < k
    · rw [if_pos hlt]
      refine ⟨List.pairwise_cons.2 ⟨fun x hx => ?_, i1⟩, fun x hx => ?_⟩
      · rcases i2 x hx with rfl | hx
        · exact hlt
        · exact h1 x hx
      · rcases List.mem_cons.1 hx with rfl | hx
        · exact Or.inr List.mem_cons_self
        · rcases i2 x hx with rfl | hx
          · exact Or.inl rfl
          · exact Or.inr (List.mem_cons_of_mem _ hx)
    · rw [if_neg hlt]
      by_cases he : k' = k
      · rw [if_pos he]
        subst he
        refine ⟨List.pairwise_cons.2 ⟨h1, h2⟩, fun x hx => ?_⟩
        rcases List.mem_cons.1 hx with rfl | hx
        · exact Or.inl rfl
        · exact Or.inr (List.mem_cons_of_mem _ hx)
      · rw [if_neg he]
        refine ⟨List.pairwise_cons.2 ⟨fun x hx => ?_, hs⟩, fun x hx => ?_⟩
        · rcases List.mem_cons.1 hx with rfl | hx
          · show k < k'; omega
          · have : k' < x.1 := h1 x hx
            show k < x.1
            omega
        · rcases List.mem_cons.1 hx with rfl | hx
          · exact Or.inl rfl
          · exact Or.inr hx

theorem get?_assign {β : Type} {m : BMap β} (hs : m.Sorted) (k : Nat) (v : β) (j : Nat) :
    (m.assign k v).get? j = if j = k then some v else m.get? j := by
  induction m with
  | nil =>
    rw [BMap.assign, BMap.get?_cons]
    by_cases h : k = j
    · rw [if_pos h, if_pos h.symm]
    · rw [if_neg h, if_neg (Ne.symm h)]
  | cons e m ih =>
    obtain ⟨k', v'⟩ := e
    obtain ⟨h1, h2⟩ := List.pairwise_cons.1 hs
    rw [BMap.assign]
    by_cases hlt : k' < k
    · rw [if_pos hlt, BMap.get?_cons, BMap.get?_cons, ih h2]
      by_cases h : k' = j
      · rw [if_pos h, if_neg (by omega), if_pos h]
      · rw [if_neg h, if_neg h]
    · rw [if_neg hlt]
      by_cases he : k' = k
      · subst he
        rw [if_pos rfl, BMap.get?_cons, BMap.get?_cons]
        by_cases h : k' = j
        · rw [if_pos h, if_pos h.symm]
        · rw [if_neg h, if_neg (Ne.symm h), if_neg h]
      · rw [if_neg he, BMap.get?_cons]
        by_cases h : k = j
        · rw [if_pos h, if_pos h.symm]
        · rw [if_neg h, if_neg (Ne.symm h)]

theorem walkAt_succ (p : Part) (a nx : FrameAddress) (h : p.next a = some nx) : ∀ i, walkAt p a (i + 1) = walkAt p nx i
  | 0 => by rw [walkAt, walkAt, walkAt, Option.bind_some, h]
  | i + 1 => by rw [walkAt, walkAt_succ p a nx h i, walkAt]

theorem walkAt_none (p : Part) (a : FrameAddress) (h : p.next a = none) : ∀ i, walkAt p a (i + 1) = none
  | 0 => by rw [walkAt, walkAt, Option.bind_some, h]
  | i + 1 => by rw [walkAt, walkAt_none p a h i]; rfl

theorem blockOffset_succ (n : Nat) (p : Part) (a nx : FrameAddress) (h : p.next a = some nx) : ∀ i,
    blockOffset n p a (i + 1) = (n + (if endsRow p a then 2 * n else 0)) + blockOffset n p nx i
  | 0 => by
    rw [blockOffset, blockOffset, blockOffset, walkAt, Option.any_some]
    omega
  | i + 1 => by
    rw [blockOffset, blockOffset_succ n p a nx h i, walkAt_succ p a nx h, blockOffset]
    omega

theorem walkAt_range (p : Part) (hp : Fits p) (a : FrameAddress) (ha : a.toNat < 2 ^ 26) : ∀ i b, walkAt p a i = some b →
    a.toNat + i ≤ b.toNat ∧ b.toNat < 2 ^ 26
  | 0, b, h => by cases h; exact ⟨Nat.le_refl _, ha⟩
  | i + 1, b, h => by
    rw [walkAt] at h
    obtain ⟨c, hc, hn⟩ := Option.bind_eq_some_iff.1 h
    obtain ⟨h1, h2⟩ := walkAt_range p hp a ha i c hc
    obtain ⟨_, h4, h5⟩ := C04_next_sound p hp c b h2 hn
    have : c.toNat < b.toNat := h4
    exact ⟨by omega, h5⟩

/-- A block: what the frame loop leaves. -/
theorem fdriLoop_spec {n : Nat} (hn : 0 < n) (p : Part) (hp : Fits p) : ∀ (fuel : Nat) (data : List Word) (cur : FrameAddress)
    (frames : BMap (List Word)), data.length ≤ fuel → cur.toNat < 2 ^ 26 → frames.Sorted →
    (fdriLoop n p fuel data cur frames).1.Sorted ∧
    (∀ k ws, (fdriLoop n p fuel data cur frames).1.get? k = some ws ↔ Over (Placed n p cur data) frames k ws) ∧
    Resume n p cur data (fdriLoop n p fuel data cur frames).2 := by
  intro fuel
  induction fuel with
  | zero =>
    intro data cur frames hf hc hs
    have : data = [] := List.eq_nil_of_length_eq_zero (by omega)
    subst this
    rw [fdriLoop]
    refine ⟨hs, fun k ws => ⟨fun h => Or.inr ⟨?_, h⟩, ?_⟩, 0, rfl, by intro j hj; omega, Or.inl (Nat.le_refl _)⟩
    · rintro ws' ⟨i, b, _, _, h, _⟩
      exact Nat.not_lt_zero _ h
    · rintro (⟨i, b, _, _, h, _⟩ | ⟨_, h⟩)
      · exact absurd h (Nat.not_lt_zero _)
      · exact h
  | succ fuel ih =>
    intro data cur frames hf hc hs
    rw [fdriLoop]
    by_cases he : data.isEmpty = true
    · have : data = [] := List.isEmpty_iff.1 he
      subst this
      rw [if_pos he]
      refine ⟨hs, fun k ws => ⟨fun h => Or.inr ⟨?_, h⟩, ?_⟩, 0, rfl, by intro j hj; omega, Or.inl (Nat.le_refl _)⟩
      · rintro ws' ⟨i, b, _, _, h, _⟩
        exact Nat.not_lt_zero _ h
      · rintro (⟨i, b, _, _, h, _⟩ | ⟨_, h⟩)
        · exact absurd h (Nat.not_lt_zero _)
        · exact h
    · rw [if_neg he]
      have hpos : 0 < data.length := by
        cases data with
        | nil => exact absurd rfl he
        | cons _ _ => exact Nat.succ_pos _
      have hs2 := (sorted_assign hs cur.toNat (data.take n)).1
      have hget := get?_assign hs cur.toNat (data.take n)
      dsimp only
      cases hnx : p.next cur with
      | none =>
        dsimp only
        have hwalk : ∀ i b, walkAt p cur i = some b → i = 0 ∧ b = cur := by
          intro i b h
          cases i with
          | zero => exact ⟨rfl, (Option.some.inj h).symm⟩
          | succ i => rw [walkAt_none p cur hnx] at h; cases h
        refine ⟨hs2, fun k ws => ?_, 0, rfl, by intro j hj; omega, Or.inr hnx⟩
        rw [hget]
        by_cases hk : k = cur.toNat
        · rw [if_pos hk]
          constructor
          · intro h
            exact Or.inl ⟨0, cur, rfl, hk.symm, hpos, (Option.some.inj h).symm⟩
          · rintro (⟨i, b, hw, _, _, hws⟩ | ⟨h, _⟩)
            · obtain ⟨rfl, rfl⟩ := hwalk i b hw
              rw [hws]; rfl
            · exact absurd ⟨0, cur, rfl, hk.symm, hpos, rfl⟩ (h (data.take n))
        · rw [if_neg hk]
          constructor
          · intro h
            refine Or.inr ⟨?_, h⟩
            rintro ws' ⟨i, b, hw, hb, _⟩
            obtain ⟨rfl, rfl⟩ := hwalk i b hw
            exact hk hb.symm
          · rintro (⟨i, b, hw, hb, _⟩ | ⟨_, h⟩)
            · obtain ⟨rfl, rfl⟩ := hwalk i b hw
              exact absurd hb.symm hk
            · exact h
      | some nx =>
        dsimp only
        obtain ⟨_, hlt, hnx26⟩ := C04_next_sound p hp cur nx hc hnx
        have hlt : cur.toNat < nx.toNat := hlt
        have hskip : (if crossesRow cur nx then n + 2 * n else n) = n + (if endsRow p cur then 2 * n else 0) := by
          simp only [endsRow, hnx, ← crossesRow_iff]
          split <;> omega
        rw [hskip]
        generalize hsk : n + (if endsRow p cur then 2 * n else 0) = skip
        have hskpos : 0 < skip := by omega
        obtain ⟨r1, r2, i, r3, r4, r5⟩ := ih (data.drop skip) nx (frames.assign cur.toNat (data.take n))
          (by rw [List.length_drop]; omega) hnx26 hs2
        have hoff : ∀ i, blockOffset n p cur (i + 1) = skip + blockOffset n p nx i := by
          intro i; rw [blockOffset_succ n p cur nx hnx, hsk]
        have hplaced : ∀ k ws, Placed n p cur data k ws ↔
            (k = cur.toNat ∧ ws = data.take n) ∨ Placed n p nx (data.drop skip) k ws := by
          intro k ws
          constructor
          · rintro ⟨j, b, hw, hb, ho, hws⟩
            cases j with
            | zero =>
              cases hw
              exact Or.inl ⟨hb.symm, hws⟩
            | succ j =>
              rw [walkAt_succ p cur nx hnx] at hw
              rw [hoff] at ho hws
              exact Or.inr ⟨j, b, hw, hb, by rw [List.length_drop]; omega, by rw [hws, List.drop_drop]⟩
          · rintro (⟨hk, hws⟩ | ⟨j, b, hw, hb, ho, hws⟩)
            · exact ⟨0, cur, rfl, hk.symm, hpos, hws⟩
            · refine ⟨j + 1, b, by rw [walkAt_succ p cur nx hnx]; exact hw, hb, ?_, ?_⟩
              · rw [hoff]; rw [List.length_drop] at ho; omega
              · rw [hoff, hws, List.drop_drop]
        have hnot : ∀ ws, ¬ Placed n p nx (data.drop skip) cur.toNat ws := by
          rintro ws ⟨j, b, hw, hb, _⟩
          have := (walkAt_range p hp nx hnx26 j b hw).1
          omega
        refine ⟨r1, fun k ws => ?_, i + 1, by rw [walkAt_succ p cur nx hnx]; exact r3, ?_, ?_⟩
        · rw [r2]
          unfold Over
          rw [hget, hplaced]
          constructor
          · rintro (h | ⟨h1, h2⟩)
            · exact Or.inl (Or.inr h)
            · by_cases hk : k = cur.toNat
              · rw [if_pos hk] at h2
                exact Or.inl (Or.inl ⟨hk, (Option.some.inj h2).symm⟩)
              · rw [if_neg hk] at h2
                refine Or.inr ⟨fun ws' h => ?_, h2⟩
                rcases (hplaced k ws').1 h with ⟨h, _⟩ | h
                · exact hk h
                · exact h1 ws' h
          · rintro ((⟨hk, hws⟩ | h) | ⟨h1, h2⟩)
            · refine Or.inr ⟨fun ws' h => hnot ws' (hk ▸ h), ?_⟩
              rw [if_pos hk, hws]
            · exact Or.inl h
            · refine Or.inr ⟨fun ws' h => h1 ws' ((hplaced k ws').2 (Or.inr h)), ?_⟩
              rw [if_neg]
              · exact h2
              · intro hk
                exact h1 (data.take n) ((hplaced k _).2 (Or.inl ⟨hk, rfl⟩))
        · intro j hj
          cases j with
          | zero => exact hpos
          | succ j =>
            have := r4 j (by omega)
            rw [List.length_drop] at this
            rw [hoff]; omega
        · rcases r5 with h | h
          · left; rw [List.length_drop] at h; rw [hoff]; omega
          · exact Or.inr h

theorem resume_range {n : Nat} (p : Part) (hp : Fits p) (a b : FrameAddress) (data : List Word) (ha : a.toNat < 2 ^ 26)
    (h : Resume n p a data b) : b.toNat < 2 ^ 26 := by
  obtain ⟨i, hi, _⟩ := h
  exact (walkAt_range p hp a ha i b hi).2

end Verif.Props
