import Verif.Spec.PartList
import Verif.Proofs.BMap
/-! # Parts built from address lists -/
namespace Verif.Xc7
open FrameAddress Verif.Spec

theorem groups_cons (key : FrameAddress → Nat) (a : FrameAddress) (rest : List FrameAddress) :
    groups key (a :: rest) = (key a, a :: rest.takeWhile fun b => decide (key b ≤ key a)) ::
      groups key (rest.dropWhile fun b => decide (key b ≤ key a)) := by
  rw [groups]

/-- The groups of a sorted list: keys increase, each group has exactly the elements with its key. -/
theorem groups_spec (key : FrameAddress → Nat) : ∀ (n : Nat) (l : List FrameAddress), l.length ≤ n →
    (l.Pairwise fun a b => key a ≤ key b) →
    ((groups key l).Pairwise fun a b => a.1 < b.1) ∧
    (∀ g ∈ groups key l, g.2 ≠ [] ∧ ∀ a, a ∈ g.2 ↔ a ∈ l ∧ key a = g.1) ∧
    ∀ a ∈ l, ∃ g ∈ groups key l, g.1 = key a := by
  intro n
  induction n with
  | zero =>
    intro l hl _
    rw [List.eq_nil_of_length_eq_zero (Nat.le_zero.1 hl), groups]
    exact ⟨List.Pairwise.nil, by simp, by simp⟩
  | succ n ih =>
    intro l hl hs
    cases l with
    | nil => rw [groups]; exact ⟨List.Pairwise.nil, by simp, by simp⟩
    | cons a rest =>
      rw [groups_cons]
      obtain ⟨ha, hr⟩ := List.pairwise_cons.1 hs
      have happ := List.takeWhile_append_dropWhile (p := fun b => decide (key b ≤ key a)) (l := rest)
      generalize htk : (rest.takeWhile fun b => decide (key b ≤ key a)) = tk at happ
      generalize hdr : (rest.dropWhile fun b => decide (key b ≤ key a)) = dr at happ
      have htk1 : ∀ b ∈ tk, key b = key a := by
        intro b hb
        have h1 : decide (key b ≤ key a) = true := by
          rw [← htk] at hb
          exact List.all_eq_true.1 (List.all_takeWhile (p := fun b => decide (key b ≤ key a)) (l := rest)) b hb
        have h2 := ha b (by rw [← happ]; exact List.mem_append_left _ hb)
        have := of_decide_eq_true h1
        omega
      have hrs : dr.Pairwise fun a b => key a ≤ key b := by
        rw [← happ] at hr
        exact (List.pairwise_append.1 hr).2.1
      have hdr1 : ∀ b ∈ dr, key a < key b := by
        cases hd : dr with
        | nil => simp
        | cons x xs =>
          have hx : ¬ key x ≤ key a := by
            have := List.head?_dropWhile_not (p := fun b => decide (key b ≤ key a)) (l := rest)
            rw [hdr, hd] at this
            simpa using this
          intro b hb
          rcases List.mem_cons.1 hb with rfl | hb
          · omega
          · rw [hd] at hrs
            have := (List.pairwise_cons.1 hrs).1 b hb
            omega
      have hlen : dr.length ≤ n := by
        have : rest.length = tk.length + dr.length := by rw [← happ, List.length_append]
        simp only [List.length_cons] at hl
        omega
      obtain ⟨h1, h2, h3⟩ := ih dr hlen hrs
      refine ⟨List.pairwise_cons.2 ⟨?_, h1⟩, ?_, ?_⟩
      · intro g hg
        obtain ⟨hne, hm⟩ := h2 g hg
        obtain ⟨b, bs, hb⟩ := List.exists_cons_of_ne_nil hne
        obtain ⟨hb1, hb2⟩ := (hm b).1 (by rw [hb]; simp)
        have := hdr1 b hb1
        show key a < g.1
        omega
      · intro g hg
        rcases List.mem_cons.1 hg with rfl | hg
        · refine ⟨by simp, fun b => ?_⟩
          show b ∈ a :: tk ↔ _
          rw [← happ]
          simp only [List.mem_cons, List.mem_append]
          constructor
          · rintro (rfl | hb)
            · exact ⟨Or.inl rfl, rfl⟩
            · exact ⟨Or.inr (Or.inl hb), htk1 b hb⟩
          · rintro ⟨rfl | hb | hb, hk⟩
            · exact Or.inl rfl
            · exact Or.inr hb
            · have := hdr1 b hb; omega
        · obtain ⟨hne, hm⟩ := h2 g hg
          refine ⟨hne, fun b => ?_⟩
          rw [hm b, ← happ]
          simp only [List.mem_cons, List.mem_append]
          constructor
          · rintro ⟨hb, hk⟩; exact ⟨Or.inr (Or.inr hb), hk⟩
          · obtain ⟨c, cs, hc⟩ := List.exists_cons_of_ne_nil hne
            obtain ⟨hc1, hc2⟩ := (hm c).1 (by rw [hc]; simp)
            have hlt := hdr1 c hc1
            rintro ⟨rfl | hb | hb, hk⟩
            · omega
            · have := htk1 b hb; omega
            · exact ⟨hb, hk⟩
      · intro b hb
        rw [← happ] at hb
        simp only [List.mem_cons, List.mem_append] at hb
        rcases hb with rfl | hb | hb
        · exact ⟨_, List.mem_cons_self, rfl⟩
        · exact ⟨_, List.mem_cons_self, (htk1 b hb).symm⟩
        · obtain ⟨g, hg, hk⟩ := h3 b hb
          exact ⟨g, List.mem_cons_of_mem _ hg, hk⟩

/-- Emplacing values for increasing keys. -/
theorem emplaceGroups_fold {β : Type} (build : List FrameAddress → Outcome β) : ∀ (gs : List (Nat × List FrameAddress)) (m : BMap β),
    m.Sorted → (∀ g ∈ gs, ∃ v, build g.2 = .ok v) → (gs.Pairwise fun a b => a.1 < b.1) →
    (∀ e ∈ m, ∀ g ∈ gs, e.1 < g.1) →
    ∃ r, gs.foldlM (fun m g => (build g.2) >>= fun v => .ok (m.emplace g.1 v)) m = Outcome.ok r ∧ r.Sorted ∧
      ∀ k v, r.get? k = some v ↔ m.get? k = some v ∨ ∃ g ∈ gs, g.1 = k ∧ build g.2 = .ok v := by
  intro gs
  induction gs with
  | nil => intro m hm _ _ _; exact ⟨m, rfl, hm, by simp⟩
  | cons g gs ih =>
    intro m hm hb hp hlt
    obtain ⟨v, hv⟩ := hb g (by simp)
    obtain ⟨hp1, hp2⟩ := List.pairwise_cons.1 hp
    obtain ⟨r, h1, h2, h3⟩ := ih (m.emplace g.1 v) (BMap.sorted_emplace hm _ _) (fun g hg => hb g (List.mem_cons_of_mem _ hg)) hp2
      (by
        intro e he g' hg'
        rcases BMap.mem_emplace he with h | h
        · rw [h]; exact hp1 g' hg'
        · exact hlt e h g' (List.mem_cons_of_mem _ hg'))
    refine ⟨r, ?_, h2, ?_⟩
    · rw [List.foldlM_cons, hv]; exact h1
    · intro k w
      have hnone : m.get? g.1 = none := by
        rw [BMap.get?_eq_none, BMap.find_eq_nil]
        intro e he heq
        have := hlt e he g (by simp)
        omega
      rw [h3, BMap.get?_emplace hm]
      simp only [List.mem_cons, exists_eq_or_imp]
      by_cases hk : k = g.1
      · subst hk
        rw [hnone, hv]
        simp
      · rw [if_neg (by first | exact hk | exact fun h => hk h.1 | exact fun h => hk h.1.symm | exact fun h => hk h.symm)]
        simp only [show ¬ g.1 = k from fun h => hk h.symm, false_and, false_or]

/-- Grouping a sorted list: a value for exactly the keys that occur, built from a list of exactly the elements
with that key. -/
theorem emplaceGroups_spec {β : Type} (build : List FrameAddress → Outcome β) (key : FrameAddress → Nat) (l : List FrameAddress)
    (hs : l.Pairwise fun a b => key a ≤ key b)
    (hb : ∀ k g, g ≠ [] → (∀ a, a ∈ g ↔ a ∈ l ∧ key a = k) → ∃ v, build g = .ok v) :
    ∃ m, emplaceGroups build (groups key l) = .ok m ∧ m.Sorted ∧ (∀ a ∈ l, ∃ v, m.get? (key a) = some v) ∧
      ∀ k v, m.get? k = some v → ∃ g, g ≠ [] ∧ (∀ a, a ∈ g ↔ a ∈ l ∧ key a = k) ∧ build g = .ok v := by
  obtain ⟨h1, h2, h3⟩ := groups_spec key l.length l (Nat.le_refl _) hs
  obtain ⟨r, hr, hrs, hget⟩ := emplaceGroups_fold build (groups key l) [] List.Pairwise.nil
    (fun g hg => hb g.1 g.2 (h2 g hg).1 (h2 g hg).2) h1 (by simp)
  refine ⟨r, hr, hrs, ?_, ?_⟩
  · intro a ha
    obtain ⟨g, hg, hk⟩ := h3 a ha
    obtain ⟨v, hv⟩ := hb g.1 g.2 (h2 g hg).1 (h2 g hg).2
    exact ⟨v, (hget _ _).2 (Or.inr ⟨g, hg, hk, hv⟩)⟩
  · intro k v h
    rcases (hget k v).1 h with h | ⟨g, hg, rfl, hv⟩
    · cases h
    · exact ⟨g.2, (h2 g hg).1, (h2 g hg).2, hv⟩

theorem assertAll_ok (same : FrameAddress → FrameAddress → Bool) (l : List FrameAddress)
    (h : ∀ a ∈ l, ∀ b ∈ l, same a b = true) : assertAll same l = .ok () := by
  cases l with
  | nil => rfl
  | cons a l =>
    unfold assertAll
    dsimp only
    rw [if_pos]
    exact List.all_eq_true.2 fun b hb => h a (by simp) b hb

theorem _root_.Verif.Spec.IsCount.unique {S : FrameAddress → Prop} {n n' : Nat} (h : IsCount S n) (h' : IsCount S n') : n = n' := by
  obtain ⟨⟨a, ha, rfl⟩, h2⟩ := h
  obtain ⟨⟨b, hb, rfl⟩, h2'⟩ := h'
  have := h2 b hb
  have := h2' a ha
  omega

theorem max_fold : ∀ (l : List FrameAddress) (a : FrameAddress),
    let r := l.foldl (fun m b => if (minor m).toNat < (minor b).toNat then b else m) a
    (r = a ∨ r ∈ l) ∧ (minor a).toNat ≤ (minor r).toNat ∧ ∀ b ∈ l, (minor b).toNat ≤ (minor r).toNat := by
  intro l
  induction l with
  | nil => intro a; exact ⟨Or.inl rfl, Nat.le_refl _, by simp⟩
  | cons x l ih =>
    intro a
    dsimp only
    rw [List.foldl_cons]
    obtain ⟨h1, h2, h3⟩ := ih (if (minor a).toNat < (minor x).toNat then x else a)
    generalize l.foldl (fun m b => if (minor m).toNat < (minor b).toNat then b else m)
      (if (minor a).toNat < (minor x).toNat then x else a) = r at h1 h2 h3 ⊢
    by_cases hx : (minor a).toNat < (minor x).toNat
    · rw [if_pos hx] at h1 h2
      refine ⟨Or.inr ?_, by omega, ?_⟩
      · rcases h1 with rfl | h1 <;> simp [*]
      · intro b hb
        rcases List.mem_cons.1 hb with rfl | hb
        · exact h2
        · exact h3 b hb
    · rw [if_neg hx] at h1 h2
      refine ⟨?_, h2, ?_⟩
      · rcases h1 with rfl | h1
        · exact Or.inl rfl
        · exact Or.inr (List.mem_cons_of_mem _ h1)
      · intro b hb
        rcases List.mem_cons.1 hb with rfl | hb
        · omega
        · exact h3 b hb

/-- Addresses that agree on block type, half, row (and column). -/
def SameRow (l : List FrameAddress) : Prop := ∀ a ∈ l, ∀ b ∈ l, isBottom b = isBottom a ∧ row b = row a

theorem columnOfList_spec (l : List FrameAddress) (hne : l ≠ []) (h1 : SameRow l)
    (h2 : ∀ a ∈ l, ∀ b ∈ l, blockType b = blockType a) (h3 : ∀ a ∈ l, ∀ b ∈ l, column b = column a) :
    ∃ c, columnOfList l = .ok c ∧ IsCount (fun a => a ∈ l) c.frameCount := by
  unfold columnOfList
  rw [assertAll_ok _ _ (fun a ha b hb => by
    simp [h1 a ha b hb, h2 a ha b hb, h3 a ha b hb]), Outcome.bind_ok]
  cases l with
  | nil => exact absurd rfl hne
  | cons a rest =>
    refine ⟨_, rfl, ?_⟩
    obtain ⟨m1, m2, m3⟩ := max_fold rest a
    refine ⟨⟨_, ?_, rfl⟩, ?_⟩
    · rcases m1 with m1 | m1
      · rw [m1]; simp
      · exact List.mem_cons_of_mem _ m1
    · intro b hb
      rcases List.mem_cons.1 hb with rfl | hb
      · exact Nat.lt_succ_of_le m2
      · exact Nat.lt_succ_of_le (m3 b hb)

theorem isCount_congr {S T : FrameAddress → Prop} (h : ∀ a, S a ↔ T a) (n : Nat) : IsCount S n ↔ IsCount T n := by
  unfold IsCount
  simp only [h]

variable {alg : Algorithms} (halg : SortContract alg)
include halg

/-- The number of frames at a column of a bus. -/
def busCount (b : Bus) (c : Nat) : Option Nat := (b.get? c).map (·.frameCount)
/-- The number of frames at a column of a row. -/
def rowCount (r : Row) (t c : Nat) : Option Nat := (r.get? t).bind fun b => busCount b c
/-- The number of frames at a column of a region. -/
def regionCount (g : Region) (r t c : Nat) : Option Nat := (g.get? r).bind fun x => rowCount x t c

theorem busOfList_spec (l : List FrameAddress) (h1 : SameRow l) (h2 : ∀ a ∈ l, ∀ b ∈ l, blockType b = blockType a) :
    ∃ b, busOfList alg l = .ok b ∧ b.Sorted ∧
      ∀ c n, busCount b c = some n ↔ IsCount (fun a => a ∈ l ∧ (column a).toNat = c) n := by
  unfold busOfList
  rw [assertAll_ok _ _ (fun a ha b hb => by simp [h1 a ha b hb, h2 a ha b hb]), Outcome.bind_ok]
  have hm : ∀ a, a ∈ alg.sort (fun a => (column a).toNat) l ↔ a ∈ l := fun a => (halg.perm _ l).mem_iff
  have hcol : ∀ k g, g ≠ [] → (∀ a, a ∈ g ↔ a ∈ alg.sort (fun a => (column a).toNat) l ∧ (column a).toNat = k) →
      ∃ v, columnOfList g = .ok v ∧ IsCount (fun a => a ∈ g) v.frameCount := by
    intro k g hne hg
    refine columnOfList_spec g hne ?_ ?_ ?_
    · intro a ha b hb; exact h1 a ((hm a).1 ((hg a).1 ha).1) b ((hm b).1 ((hg b).1 hb).1)
    · intro a ha b hb; exact h2 a ((hm a).1 ((hg a).1 ha).1) b ((hm b).1 ((hg b).1 hb).1)
    · intro a ha b hb
      apply BitVec.eq_of_toNat_eq
      rw [((hg a).1 ha).2, ((hg b).1 hb).2]
  obtain ⟨m, hm1, hm2, hm3, hm4⟩ := emplaceGroups_spec columnOfList (fun a => (column a).toNat) _ (halg.sorted (fun a => (column a).toNat) l)
    (fun k g hne hg => by obtain ⟨v, hv, _⟩ := hcol k g hne hg; exact ⟨v, hv⟩)
  refine ⟨m, hm1, hm2, ?_⟩
  have hfwd : ∀ c n, busCount m c = some n → IsCount (fun a => a ∈ l ∧ (column a).toNat = c) n := by
    intro c n h
    obtain ⟨v, hv, rfl⟩ := Option.map_eq_some_iff.1 h
    obtain ⟨g, hne, hg, hb⟩ := hm4 c v hv
    obtain ⟨v', hv', hc⟩ := hcol c g hne hg
    rw [hb] at hv'
    cases hv'
    exact (isCount_congr (fun a => by rw [hg, hm]) _).1 hc
  intro c n
  constructor
  · exact hfwd c n
  · intro h
    obtain ⟨a, ⟨ha, rfl⟩, _⟩ := h.1
    obtain ⟨v, hv⟩ := hm3 a ((hm a).2 ha)
    have hb : busCount m (column a).toNat = some v.frameCount := by unfold busCount; rw [hv]; rfl
    rw [hb, (hfwd _ _ hb).unique h]

theorem rowOfList_spec (l : List FrameAddress) (h1 : SameRow l) :
    ∃ r, rowOfList alg l = .ok r ∧ r.Sorted ∧ (∀ t b, r.get? t = some b → b.Sorted ∧ ∃ a ∈ l, (blockType a).toNat = t) ∧
      ∀ t c n, rowCount r t c = some n ↔ IsCount (fun a => a ∈ l ∧ (blockType a).toNat = t ∧ (column a).toNat = c) n := by
  unfold rowOfList
  rw [assertAll_ok _ _ (fun a ha b hb => by simp [h1 a ha b hb]), Outcome.bind_ok]
  have hm : ∀ a, a ∈ alg.sort (fun a => (blockType a).toNat) l ↔ a ∈ l := fun a => (halg.perm _ l).mem_iff
  have hbus : ∀ k g, (∀ a, a ∈ g ↔ a ∈ alg.sort (fun a => (blockType a).toNat) l ∧ (blockType a).toNat = k) →
      ∃ b, busOfList alg g = .ok b ∧ b.Sorted ∧ ∀ c n, busCount b c = some n ↔ IsCount (fun a => a ∈ g ∧ (column a).toNat = c) n := by
    intro k g hg
    refine busOfList_spec halg g ?_ ?_
    · intro a ha b hb; exact h1 a ((hm a).1 ((hg a).1 ha).1) b ((hm b).1 ((hg b).1 hb).1)
    · intro a ha b hb
      apply BitVec.eq_of_toNat_eq
      rw [((hg a).1 ha).2, ((hg b).1 hb).2]
  obtain ⟨m, hm1, hm2, hm3, hm4⟩ := emplaceGroups_spec (busOfList alg) (fun a => (blockType a).toNat) _
    (halg.sorted (fun a => (blockType a).toNat) l)
    (fun k g _ hg => by obtain ⟨v, hv, _⟩ := hbus k g hg; exact ⟨v, hv⟩)
  have hval : ∀ t b, m.get? t = some b → b.Sorted ∧ (∃ a ∈ l, (blockType a).toNat = t) ∧
      ∀ c n, busCount b c = some n ↔ IsCount (fun a => a ∈ l ∧ (blockType a).toNat = t ∧ (column a).toNat = c) n := by
    intro t b h
    obtain ⟨g, hne, hg, hb⟩ := hm4 t b h
    obtain ⟨v', hv', hs, hc⟩ := hbus t g hg
    rw [hb] at hv'
    cases hv'
    refine ⟨hs, ?_, fun c n => ?_⟩
    · obtain ⟨x, xs, rfl⟩ := List.exists_cons_of_ne_nil hne
      obtain ⟨q1, q2⟩ := (hg x).1 (by simp)
      exact ⟨x, (hm x).1 q1, q2⟩
    · rw [hc]
      exact isCount_congr (fun a => by rw [hg, hm, and_assoc]) n
  refine ⟨m, hm1, hm2, fun t b h => ⟨(hval t b h).1, (hval t b h).2.1⟩, fun t c n => ?_⟩
  constructor
  · intro h
    obtain ⟨b, hb, h⟩ := Option.bind_eq_some_iff.1 h
    exact ((hval t b hb).2.2 c n).1 h
  · intro h
    obtain ⟨a, ⟨ha, hk, _⟩, _⟩ := h.1
    obtain ⟨v, hv⟩ := hm3 a ((hm a).2 ha)
    rw [hk] at hv
    exact Option.bind_eq_some_iff.2 ⟨v, hv, ((hval t v hv).2.2 c n).2 h⟩

theorem regionOfList_spec (l : List FrameAddress) (h1 : ∀ a ∈ l, ∀ b ∈ l, isBottom b = isBottom a) :
    ∃ g, regionOfList alg l = .ok g ∧ g.Sorted ∧
      (∀ k r, g.get? k = some r → (∃ a ∈ l, (row a).toNat = k) ∧ r.Sorted ∧
        ∀ t b, r.get? t = some b → b.Sorted ∧ ∃ a ∈ l, (row a).toNat = k ∧ (blockType a).toNat = t) ∧
      ∀ k t c n, regionCount g k t c = some n ↔
        IsCount (fun a => a ∈ l ∧ (row a).toNat = k ∧ (blockType a).toNat = t ∧ (column a).toNat = c) n := by
  unfold regionOfList
  rw [assertAll_ok _ _ (fun a ha b hb => by simp [h1 a ha b hb]), Outcome.bind_ok]
  have hm : ∀ a, a ∈ alg.sort (fun a => (row a).toNat) l ↔ a ∈ l := fun a => (halg.perm _ l).mem_iff
  have hrow : ∀ k g, (∀ a, a ∈ g ↔ a ∈ alg.sort (fun a => (row a).toNat) l ∧ (row a).toNat = k) →
      ∃ r, rowOfList alg g = .ok r ∧ r.Sorted ∧ (∀ t b, r.get? t = some b → b.Sorted ∧ ∃ a ∈ g, (blockType a).toNat = t) ∧
      ∀ t c n, rowCount r t c = some n ↔ IsCount (fun a => a ∈ g ∧ (blockType a).toNat = t ∧ (column a).toNat = c) n := by
    intro k g hg
    refine rowOfList_spec halg g ?_
    intro a ha b hb
    refine ⟨h1 a ((hm a).1 ((hg a).1 ha).1) b ((hm b).1 ((hg b).1 hb).1), ?_⟩
    apply BitVec.eq_of_toNat_eq
    rw [((hg a).1 ha).2, ((hg b).1 hb).2]
  obtain ⟨m, hm1, hm2, hm3, hm4⟩ := emplaceGroups_spec (rowOfList alg) (fun a => (row a).toNat) _
    (halg.sorted (fun a => (row a).toNat) l)
    (fun k g _ hg => by obtain ⟨v, hv, _⟩ := hrow k g hg; exact ⟨v, hv⟩)
  have hval : ∀ k r, m.get? k = some r → ((∃ a ∈ l, (row a).toNat = k) ∧ r.Sorted ∧
        ∀ t b, r.get? t = some b → b.Sorted ∧ ∃ a ∈ l, (row a).toNat = k ∧ (blockType a).toNat = t) ∧
      ∀ t c n, rowCount r t c = some n ↔
        IsCount (fun a => a ∈ l ∧ (row a).toNat = k ∧ (blockType a).toNat = t ∧ (column a).toNat = c) n := by
    intro k r h
    obtain ⟨g, hne, hg, hb⟩ := hm4 k r h
    obtain ⟨v', hv', hs, hb2, hc⟩ := hrow k g hg
    rw [hb] at hv'
    cases hv'
    refine ⟨⟨?_, hs, fun t b h => ?_⟩, fun t c n => ?_⟩
    · obtain ⟨x, xs, rfl⟩ := List.exists_cons_of_ne_nil hne
      obtain ⟨q1, q2⟩ := (hg x).1 (by simp)
      exact ⟨x, (hm x).1 q1, q2⟩
    · obtain ⟨h1, a, h2, h3⟩ := hb2 t b h
      exact ⟨h1, a, (hm a).1 ((hg a).1 h2).1, ((hg a).1 h2).2, h3⟩
    · rw [hc]
      exact isCount_congr (fun a => by rw [hg, hm, and_assoc]) n
  refine ⟨m, hm1, hm2, fun k r h => (hval k r h).1, fun k t c n => ?_⟩
  constructor
  · intro h
    obtain ⟨b, hb, h⟩ := Option.bind_eq_some_iff.1 h
    exact ((hval k b hb).2 t c n).1 h
  · intro h
    obtain ⟨a, ⟨ha, hk, _⟩, _⟩ := h.1
    obtain ⟨v, hv⟩ := hm3 a ((hm a).2 ha)
    rw [hk] at hv
    exact Option.bind_eq_some_iff.2 ⟨v, hv, ((hval k v hv).2 t c n).2 h⟩

end Verif.Xc7
