import Verif.Model.Basic
/-! Lemmas about the btree-map model. -/
namespace Verif.BMap
variable {β : Type}

theorem find_cons_inv {m : BMap β} {k k' : Nat} {v : β} {rest : BMap β}
    (h : find m k = (k', v) :: rest) : k' = k ∧ ∃ pre, m = pre ++ (k, v) :: rest := by
  induction m with
  | nil => simp [find] at h
  | cons x xs ih =>
    obtain ⟨a, b⟩ := x
    simp only [find] at h
    split at h
    · rename_i hak
      simp only [List.cons.injEq, Prod.mk.injEq] at h
      obtain ⟨⟨h1, h2⟩, h3⟩ := h
      subst h1 h2 h3
      exact ⟨hak, [], by simp [hak]⟩
    · obtain ⟨h1, pre, h2⟩ := ih h
      exact ⟨h1, (a, b) :: pre, by simp [h2]⟩

theorem find_eq_nil {m : BMap β} {k : Nat} : find m k = [] ↔ ∀ x ∈ m, x.1 ≠ k := by
  induction m with
  | nil => simp [find]
  | cons x xs ih =>
    obtain ⟨a, b⟩ := x
    simp only [find]
    split
    · rename_i h; simp [h]
    · rename_i h; simp [ih, h]

theorem get?_of_find {m : BMap β} {k k' : Nat} {v : β} {rest : BMap β}
    (h : find m k = (k', v) :: rest) : get? m k = some v := by
  simp [get?, h]

theorem get?_eq_none {m : BMap β} {k : Nat} : get? m k = none ↔ find m k = [] := by
  unfold get?
  cases h : find m k <;> simp

theorem get?_nil (k : Nat) : get? ([] : BMap β) k = none := rfl

theorem get?_cons (k' : Nat) (v : β) (m : BMap β) (k : Nat) :
    get? ((k', v) :: m) k = if k' = k then some v else get? m k := by
  simp only [get?, find]
  split <;> simp_all

theorem mem_of_get? {m : BMap β} {k : Nat} {v : β} (h : get? m k = some v) : (k, v) ∈ m := by
  induction m with
  | nil => simp [get?_nil] at h
  | cons x xs ih =>
    obtain ⟨a, b⟩ := x
    rw [get?_cons] at h
    split at h
    · rename_i hak; simp at h; simp [hak, h]
    · exact List.mem_cons_of_mem _ (ih h)

theorem get?_of_mem {m : BMap β} (hs : Sorted m) {k : Nat} {v : β} (h : (k, v) ∈ m) :
    get? m k = some v := by
  induction m with
  | nil => simp at h
  | cons x xs ih =>
    obtain ⟨a, b⟩ := x
    rw [get?_cons]
    simp only [List.mem_cons, Prod.mk.injEq] at h
    rcases h with ⟨h1, h2⟩ | h
    · simp [h1, h2]
    · have hlt := (List.pairwise_cons.mp hs).1 (k, v) h
      simp only at hlt
      rw [if_neg (by omega)]
      exact ih (List.pairwise_cons.mp hs).2 h

theorem mem_emplace {m : BMap β} {k : Nat} {v : β} {x : Nat × β} (h : x ∈ emplace m k v) :
    x = (k, v) ∨ x ∈ m := by
  induction m with
  | nil => simp only [emplace, List.mem_singleton] at h; exact Or.inl h
  | cons y ys ih =>
    obtain ⟨a, b⟩ := y
    simp only [emplace] at h
    split at h
    · rcases List.mem_cons.mp h with h | h
      · exact Or.inr (by simp [h])
      · rcases ih h with h | h
        · exact Or.inl h
        · exact Or.inr (by simp [h])
    · split at h
      · exact Or.inr h
      · rcases List.mem_cons.mp h with h | h
        · exact Or.inl h
        · exact Or.inr h

theorem sorted_emplace {m : BMap β} (hs : Sorted m) (k : Nat) (v : β) : Sorted (emplace m k v) := by
  induction m with
  | nil => simp [emplace, Sorted]
  | cons y ys ih =>
    obtain ⟨a, b⟩ := y
    have h1 := (List.pairwise_cons.mp hs).1
    have h2 := (List.pairwise_cons.mp hs).2
    simp only [emplace]
    split
    · apply List.pairwise_cons.mpr
      refine ⟨?_, ih h2⟩
      intro x hx
      rcases mem_emplace hx with hx | hx
      · subst hx; simpa
      · exact h1 x hx
    · split
      · exact hs
      · apply List.pairwise_cons.mpr
        refine ⟨?_, hs⟩
        intro x hx
        rcases List.mem_cons.mp hx with hx | hx
        · subst hx; simp; omega
        · have := h1 x hx; simp only at this ⊢; omega

theorem get?_emplace {m : BMap β} (hs : Sorted m) (k : Nat) (v : β) (j : Nat) :
    get? (emplace m k v) j = if j = k then some ((get? m k).getD v) else get? m j := by
  induction m with
  | nil =>
    simp only [emplace, get?_cons, get?_nil]
    by_cases h : j = k
    · simp [h]
    · have : k ≠ j := by omega
      simp [h, this]
  | cons y ys ih =>
    obtain ⟨a, b⟩ := y
    have h1 := (List.pairwise_cons.mp hs).1
    have h2 := (List.pairwise_cons.mp hs).2
    have ih := ih h2
    simp only [emplace]
    split
    · rename_i hlt
      rw [get?_cons, ih, get?_cons, get?_cons]
      by_cases hj : j = k
      · subst hj
        have : a ≠ j := by omega
        simp [this]
      · simp [hj]
    · split
      · rename_i h3 h4
        subst h4
        by_cases hj : j = a
        · subst hj; simp [get?_cons]
        · simp [hj]
      · rename_i h3 h4
        have hk : get? ((a, b) :: ys) k = none := by
          rw [get?_eq_none, find_eq_nil]
          intro x hx
          rcases List.mem_cons.mp hx with hx | hx
          · subst hx; exact h4
          · have := h1 x hx; simp only at this ⊢; omega
        rw [get?_cons, hk]
        by_cases hj : j = k
        · simp [hj]
        · have : k ≠ j := by omega
          simp [hj, this]

/-- In a sorted map the element after key `k` has the least larger key. -/
theorem find_next {m : BMap β} (hs : Sorted m) {k k' : Nat} {v : β} {rest : BMap β}
    (h : find m k = (k', v) :: rest) :
    (∀ x ∈ rest, k < x.1) ∧ (∀ x ∈ m, k < x.1 → x ∈ rest) ∧ Sorted rest ∧
      (∀ x ∈ rest, get? m x.1 = some x.2) := by
  obtain ⟨h1, pre, h2⟩ := find_cons_inv h
  subst h1
  have hs' := hs
  unfold Sorted at hs
  rw [h2, List.pairwise_append] at hs
  obtain ⟨_, h4, h5⟩ := hs
  have h6 := List.pairwise_cons.mp h4
  refine ⟨fun x hx => h6.1 x hx, ?_, h6.2, ?_⟩
  · intro x hx hlt
    rw [h2] at hx
    rcases List.mem_append.mp hx with hx | hx
    · have := h5 x hx (k', v) (by simp); simp only at this; omega
    · rcases List.mem_cons.mp hx with hx | hx
      · subst hx; simp at hlt
      · exact hx
  · intro x hx
    apply get?_of_mem hs'
    rw [h2]; simp [hx]

theorem find_of_get? {m : BMap β} {k : Nat} {v : β} (h : get? m k = some v) :
    ∃ rest, find m k = (k, v) :: rest := by
  unfold get? at h
  cases hf : find m k with
  | nil => simp [hf] at h
  | cons x xs =>
    obtain ⟨a, b⟩ := x
    simp [hf] at h
    have := (find_cons_inv hf).1
    exact ⟨xs, by rw [this, h]⟩

/-- Ordered maps with the same content are equal. -/
theorem sorted_ext : ∀ {m m' : BMap β}, m.Sorted → m'.Sorted → (∀ k, m.get? k = m'.get? k) → m = m'
  | [], [], _, _, _ => rfl
  | [], (k, v) :: m', _, _, h => by
    have := h k
    rw [get?_nil, get?_cons, if_pos rfl] at this
    cases this
  | (k, v) :: m, [], _, _, h => by
    have := h k
    rw [get?_nil, get?_cons, if_pos rfl] at this
    cases this
  | (k, v) :: m, (k', v') :: m', hs, hs', h => by
    obtain ⟨h1, h2⟩ := List.pairwise_cons.1 hs
    obtain ⟨h1', h2'⟩ := List.pairwise_cons.1 hs'
    have hk : k = k' := by
      have e := h k
      have e' := h k'
      rw [get?_cons, if_pos rfl, get?_cons] at e
      rw [get?_cons, get?_cons, if_pos rfl] at e'
      by_cases hkk : k' = k
      · exact hkk.symm
      · rw [if_neg hkk] at e
        rw [if_neg (fun x => hkk x.symm)] at e'
        have g1 := h1' _ (mem_of_get? e.symm)
        have g2 := h1 _ (mem_of_get? e')
        dsimp only at g1 g2
        omega
    subst hk
    have hv : v = v' := by
      have e := h k
      rw [get?_cons, if_pos rfl, get?_cons, if_pos rfl] at e
      exact Option.some.inj e
    subst hv
    rw [sorted_ext h2 h2']
    intro j
    have e := h j
    rw [get?_cons, get?_cons] at e
    by_cases hj : k = j
    · subst hj
      have none_of : ∀ m : BMap β, (∀ x ∈ m, k < x.1) → m.get? k = none := by
        intro m hm
        cases hg : m.get? k with
        | none => rfl
        | some y => have := hm _ (mem_of_get? hg); dsimp only at this; omega
      rw [none_of m h1, none_of m' h1']
    · rw [if_neg hj, if_neg hj] at e; exact e

end Verif.BMap
