import Verif.Model.Tidy.Regex
/-! A pattern matches in some way exactly when its parts can be laid out one behind the other. -/
namespace Verif.Tidy.Re

/-- The position `w` further on. -/
def Pos.move (s : Pos) (w : Bytes) (rest : Bytes) : Pos := ⟨w.reverse ++ s.left, rest, s.group⟩

/-- From `s` the pattern can reach `t`. -/
inductive Derives : Re → Pos → Pos → Prop
  | set {p l c r g} (h : p c = true) : Derives (.set p) ⟨l, c :: r, g⟩ ⟨c :: l, r, g⟩
  | bol {r g} : Derives .bol ⟨[], r, g⟩ ⟨[], r, g⟩
  | eol {l g} : Derives .eol ⟨l, [], g⟩ ⟨l, [], g⟩
  | seq {a b s t u} (h : Derives a s t) (h' : Derives b t u) : Derives (.seq a b) s u
  | altl {a b s t} (h : Derives a s t) : Derives (.alt a b) s t
  | altr {a b s t} (h : Derives b s t) : Derives (.alt a b) s t
  | stop {a s} : Derives (.star a) s s
  | more {a s t u} (h : Derives a s t) (hl : t.rest.length < s.rest.length) (h' : Derives (.star a) t u) : Derives (.star a) s u
  | cap {a s t} (h : Derives a s t) : Derives (.cap a) s { t with group := (t.left.take (t.left.length - s.left.length)).reverse }

/-- A derivation moves over a piece of the text. -/
theorem Derives.moves {r : Re} {s t : Pos} (h : Derives r s t) : ∃ w, s.rest = w ++ t.rest ∧ t.left = w.reverse ++ s.left := by
  induction h with
  | @set p l c r g h => exact ⟨[c], rfl, rfl⟩
  | bol => exact ⟨[], rfl, rfl⟩
  | eol => exact ⟨[], rfl, rfl⟩
  | seq _ _ ih ih' =>
    obtain ⟨w, h1, h2⟩ := ih
    obtain ⟨w', h3, h4⟩ := ih'
    exact ⟨w ++ w', by rw [h1, h3, List.append_assoc], by rw [h4, h2]; simp⟩
  | altl _ ih => exact ih
  | altr _ ih => exact ih
  | stop => exact ⟨[], rfl, rfl⟩
  | more _ _ _ ih ih' =>
    obtain ⟨w, h1, h2⟩ := ih
    obtain ⟨w', h3, h4⟩ := ih'
    exact ⟨w ++ w', by rw [h1, h3, List.append_assoc], by rw [h4, h2]; simp⟩
  | cap _ ih => exact ih

theorem mem_rounds {f : Pos → List Pos} {R : Pos → Pos → Prop} {a : Re} (hf : ∀ s t, t ∈ f s ↔ Derives a s t) (n : Nat) (s t : Pos) (hn : s.rest.length ≤ n) :
    t ∈ rounds f n s ↔ Derives (.star a) s t := by
  induction n generalizing s with
  | zero =>
    simp only [rounds, List.mem_singleton]
    constructor
    · rintro rfl; exact .stop
    · intro h
      cases h with
      | stop => rfl
      | more h hl h' => omega
  | succ n ih =>
    simp only [rounds, List.mem_append, List.mem_flatMap, List.mem_filter, List.mem_singleton]
    constructor
    · rintro (⟨u, ⟨h1, h2⟩, h3⟩ | rfl)
      · have h2 : u.rest.length < s.rest.length := by simpa using h2
        exact .more ((hf s u).1 h1) h2 ((ih u (by omega)).1 h3)
      · exact .stop
    · intro h
      cases h with
      | stop => exact Or.inr rfl
      | @more _ _ u _ h hl h' => exact Or.inl ⟨u, ⟨(hf s u).2 h, by simpa using hl⟩, (ih u (by omega)).2 h'⟩

theorem mem_ways (r : Re) (s t : Pos) : t ∈ ways r s ↔ Derives r s t := by
  induction r generalizing s t with
  | set p =>
    obtain ⟨l, rest, g⟩ := s
    cases rest with
    | nil => simp only [ways, List.not_mem_nil, false_iff]; intro h; cases h
    | cons c r =>
      simp only [ways]
      by_cases hp : p c = true
      · rw [if_pos hp, List.mem_singleton]
        constructor
        · rintro rfl; exact .set hp
        · intro h; cases h; rfl
      · rw [if_neg hp]
        simp only [List.not_mem_nil, false_iff]
        intro h
        cases h with
        | set h => exact hp h
  | bol =>
    obtain ⟨l, rest, g⟩ := s
    simp only [ways]
    by_cases h : l = []
    · subst h
      simp only [if_true, List.mem_singleton]
      constructor
      · rintro rfl; exact .bol
      · intro h; cases h; rfl
    · simp only [h, if_false, List.not_mem_nil, false_iff]
      intro h'
      cases h'
      exact h rfl
  | eol =>
    obtain ⟨l, rest, g⟩ := s
    simp only [ways]
    by_cases h : rest = []
    · subst h
      simp only [if_true, List.mem_singleton]
      constructor
      · rintro rfl; exact .eol
      · intro h; cases h; rfl
    · simp only [h, if_false, List.not_mem_nil, false_iff]
      intro h'
      cases h'
      exact h rfl
  | seq a b iha ihb =>
    simp only [ways, List.mem_flatMap]
    constructor
    · rintro ⟨u, h1, h2⟩; exact .seq ((iha s u).1 h1) ((ihb u t).1 h2)
    · intro h
      cases h with
      | seq h h' => exact ⟨_, (iha _ _).2 h, (ihb _ _).2 h'⟩
  | alt a b iha ihb =>
    simp only [ways, List.mem_append, iha, ihb]
    constructor
    · rintro (h | h)
      · exact .altl h
      · exact .altr h
    · intro h
      cases h with
      | altl h => exact Or.inl h
      | altr h => exact Or.inr h
  | star a ih => exact mem_rounds (R := fun _ _ => True) ih _ s t (Nat.le_refl _)
  | cap a ih =>
    simp only [ways, List.mem_map]
    constructor
    · rintro ⟨u, h, rfl⟩; exact .cap ((ih s u).1 h)
    · intro h
      cases h with
      | cap h => exact ⟨_, (ih _ _).2 h, rfl⟩

/-! ## Building blocks -/

theorem derives_set {p : UInt8 → Bool} {s t : Pos} : Derives (.set p) s t ↔ ∃ c, p c = true ∧ s.rest = c :: t.rest ∧ t = s.move [c] t.rest := by
  constructor
  · intro h
    cases h with
    | set h => exact ⟨_, h, rfl, rfl⟩
  · rintro ⟨c, h, h1, h2⟩
    obtain ⟨l, r, g⟩ := s
    simp only at h1
    subst h1
    rw [h2]
    exact .set h

theorem derives_chr {c : UInt8} {s t : Pos} : Derives (chr c) s t ↔ s.rest = c :: t.rest ∧ t = s.move [c] t.rest := by
  unfold chr
  rw [derives_set]
  constructor
  · rintro ⟨d, h, h1, h2⟩
    have : d = c := by simpa using h
    subst this
    exact ⟨h1, h2⟩
  · rintro ⟨h1, h2⟩
    exact ⟨c, by simp, h1, h2⟩

theorem derives_star_set {p : UInt8 → Bool} {s t : Pos} :
    Derives (.star (.set p)) s t ↔ ∃ w, (∀ c ∈ w, p c = true) ∧ s.rest = w ++ t.rest ∧ t = s.move w t.rest := by
  constructor
  · intro h
    generalize hr : Re.star (.set p) = r at h
    induction h with
    | stop => exact ⟨[], by simp, rfl, by simp [Pos.move]⟩
    | more h hl h' ih ih' =>
      cases hr
      obtain ⟨w, h1, h2, h3⟩ := ih' rfl
      obtain ⟨c, hc, h4, h5⟩ := derives_set.1 h
      refine ⟨c :: w, ?_, by rw [h4, h2]; rfl, ?_⟩
      · intro d hd
        rcases List.mem_cons.1 hd with rfl | hd
        · exact hc
        · exact h1 d hd
      · rw [h3, h5]
        simp [Pos.move]
    | _ => cases hr
  · rintro ⟨w, h1, h2, h3⟩
    induction w generalizing s with
    | nil =>
      have : t = s := by
        rw [h3]
        simp only [Pos.move, List.reverse_nil, List.nil_append]
        simp only [List.nil_append] at h2
        rw [← h2]
      rw [this]
      exact .stop
    | cons c w ih =>
      have d1 : Derives (.set p) s (s.move [c] (w ++ t.rest)) := derives_set.2 ⟨c, h1 c (by simp), h2, rfl⟩
      refine .more d1 ?_ (ih (fun d hd => h1 d (by simp [hd])) rfl ?_)
      · rw [h2]; simp [Pos.move]
      · rw [h3]; simp [Pos.move]

theorem derives_plus_set {p : UInt8 → Bool} {s t : Pos} :
    Derives (plus (.set p)) s t ↔ ∃ w, w ≠ [] ∧ (∀ c ∈ w, p c = true) ∧ s.rest = w ++ t.rest ∧ t = s.move w t.rest := by
  unfold plus
  constructor
  · intro h
    cases h with
    | seq h h' =>
      obtain ⟨c, hc, h4, h5⟩ := derives_set.1 h
      obtain ⟨w, h1, h2, h3⟩ := derives_star_set.1 h'
      refine ⟨c :: w, by simp, ?_, by rw [h4, h2]; rfl, ?_⟩
      · intro d hd
        rcases List.mem_cons.1 hd with rfl | hd
        · exact hc
        · exact h1 d hd
      · rw [h3, h5]
        simp [Pos.move]
  · rintro ⟨w, h0, h1, h2, h3⟩
    cases w with
    | nil => exact absurd rfl h0
    | cons c w =>
      exact .seq (t := s.move [c] (w ++ t.rest)) (derives_set.2 ⟨c, h1 c (by simp), h2, rfl⟩)
        (derives_star_set.2 ⟨w, fun d hd => h1 d (by simp [hd]), rfl, by rw [h3]; simp [Pos.move]⟩)

theorem derives_seq {a b : Re} {s u : Pos} : Derives (.seq a b) s u ↔ ∃ t, Derives a s t ∧ Derives b t u := by
  constructor
  · intro h
    cases h with
    | seq h h' => exact ⟨_, h, h'⟩
  · rintro ⟨t, h, h'⟩; exact .seq h h'

theorem derives_alt {a b : Re} {s t : Pos} : Derives (.alt a b) s t ↔ Derives a s t ∨ Derives b s t := by
  constructor
  · intro h
    cases h with
    | altl h => exact Or.inl h
    | altr h => exact Or.inr h
  · rintro (h | h)
    · exact .altl h
    · exact .altr h

theorem derives_bol {s t : Pos} : Derives .bol s t ↔ s.left = [] ∧ t = s := by
  constructor
  · intro h; cases h; exact ⟨rfl, rfl⟩
  · rintro ⟨h, rfl⟩
    obtain ⟨l, r, g⟩ := t
    simp only at h
    subst h
    exact .bol

theorem derives_eol {s t : Pos} : Derives .eol s t ↔ s.rest = [] ∧ t = s := by
  constructor
  · intro h; cases h; exact ⟨rfl, rfl⟩
  · rintro ⟨h, rfl⟩
    obtain ⟨l, r, g⟩ := t
    simp only at h
    subst h
    exact .eol

theorem derives_cap {a : Re} {s t : Pos} : Derives (.cap a) s t ↔ ∃ u w, Derives a s u ∧ s.rest = w ++ t.rest ∧ u.rest = t.rest ∧ u.left = t.left ∧
    t.left = w.reverse ++ s.left ∧ t.group = w := by
  constructor
  · intro h
    cases h with
    | @cap _ _ u h =>
      obtain ⟨w, h1, h2⟩ := h.moves
      refine ⟨u, w, h, h1, rfl, rfl, h2, ?_⟩
      simp only
      rw [h2]
      simp
  · rintro ⟨u, w, h, h1, h2, h3, h4, h5⟩
    have : t = { u with group := (u.left.take (u.left.length - s.left.length)).reverse } := by
      obtain ⟨l, r, g⟩ := t
      simp only at h1 h2 h3 h4 h5 ⊢
      rw [h3, h4, h2, h5]
      simp
    rw [this]
    exact .cap h

/-! ## Searching -/

/-- `search` finds the first position, from a given one on, where the pattern matches. -/
theorem search_some {r : Re} {n : Nat} {s a t : Pos} (h : search r n s = some (a, t)) :
    ∃ w, s.rest = w ++ a.rest ∧ a = s.move w a.rest ∧ (ways r a).head? = some t ∧
      ∀ w' x, w' ++ x = w → x ≠ [] → ways r (s.move w' (x ++ a.rest)) = [] := by
  induction n generalizing s with
  | zero =>
    unfold search at h
    split at h
    · rename_i u hu
      cases h
      refine ⟨[], rfl, by simp [Pos.move], hu, fun w' x hw hx => ?_⟩
      have := (List.append_eq_nil_iff.1 hw).2
      exact absurd this hx
    · split at h <;> first | cases h | (rename_i h0 _; cases h0)
  | succ n ih =>
    unfold search at h
    split at h
    · rename_i u hu
      cases h
      refine ⟨[], rfl, by simp [Pos.move], hu, fun w' x hw hx => ?_⟩
      have := (List.append_eq_nil_iff.1 hw).2
      exact absurd this hx
    · rename_i hnone
      split at h
      · rename_i m c rest hn hs
        cases hn
        obtain ⟨w, h1, h2, h3, h4⟩ := ih h
        simp only at h1
        refine ⟨c :: w, by rw [hs, h1]; rfl, by rw [h2]; simp [Pos.move], h3, fun w' x hw hx => ?_⟩
        cases w' with
        | nil =>
          simp only [List.nil_append] at hw
          have : s.move [] (x ++ a.rest) = s := by
            obtain ⟨l, r', g⟩ := s
            simp only at hs
            simp only [Pos.move, List.reverse_nil, List.nil_append]
            rw [hw, hs, h1]
            rfl
          rw [this]
          exact List.head?_eq_none_iff.1 hnone
        | cons d w' =>
          simp only [List.cons_append, List.cons.injEq] at hw
          have := h4 w' x hw.2 hx
          rw [← this, hw.1]
          simp [Pos.move]
      · cases h

/-- `search` with enough steps fails only if the pattern matches nowhere. -/
theorem search_none {r : Re} {n : Nat} {s : Pos} (hn : s.rest.length ≤ n) (h : search r n s = none) (w x : Bytes) (hw : w ++ x = s.rest) :
    ways r (s.move w x) = [] := by
  induction n generalizing s w with
  | zero =>
    have h0 : s.rest = [] := List.length_eq_zero_iff.1 (by omega)
    rw [h0] at hw
    obtain ⟨rfl, rfl⟩ := List.append_eq_nil_iff.1 hw
    unfold search at h
    split at h
    · cases h
    · rename_i hnone
      have : s.move [] [] = s := by obtain ⟨l, r', g⟩ := s; simp only at h0; rw [h0]; rfl
      rw [this]
      exact List.head?_eq_none_iff.1 hnone
  | succ n ih =>
    unfold search at h
    split at h
    · cases h
    · rename_i hnone
      cases w with
      | nil =>
        have : s.move [] x = s := by obtain ⟨l, r', g⟩ := s; simp only [List.nil_append] at hw; rw [hw]; rfl
        rw [this]
        exact List.head?_eq_none_iff.1 hnone
      | cons c w =>
        split at h
        · rename_i m d rest hm hs
          cases hm
          rw [hs] at hw
          simp only [List.cons_append, List.cons.injEq] at hw
          have := ih (s := ⟨d :: s.left, rest, s.group⟩) (by rw [hs] at hn; simp at hn ⊢; omega) h w hw.2
          rw [← this, hw.1]
          simp [Pos.move]
        · rename_i hne
          exact absurd hw.symm (hne n c (w ++ x) rfl)

end Verif.Tidy.Re
