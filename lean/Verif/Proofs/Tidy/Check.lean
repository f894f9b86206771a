import Verif.Proofs.Tidy.Include
import Verif.Spec.Tidy.Report
/-! Finding lines found by the patterns. -/
namespace Verif.Tidy
open Verif.Spec.Tidy Re

theorem dotChar_iff (c : UInt8) : (decide (c ≠ 0x0a ∧ c ≠ 0x0d)) = true ↔ c ≠ 0x0a ∧ c ≠ 0x0d := by simp

theorem checkName_iff (s t : Pos) : Derives checkName s t ↔ ∃ w, CheckName w ∧ s.rest = w ++ t.rest ∧ t = s.move w t.rest := by
  unfold checkName
  simp only [all, derives_seq]
  constructor
  · rintro ⟨s1, h1, s2, h2, s3, h3, s4, h4, h5⟩
    obtain ⟨e1, f1⟩ := derives_chr.1 h1
    obtain ⟨a, na, ca, e2, f2⟩ := derives_plus_set.1 h2
    obtain ⟨e3, f3⟩ := derives_chr.1 h3
    obtain ⟨b, nb, cb, e4, f4⟩ := derives_plus_set.1 h4
    obtain ⟨e5, f5⟩ := derives_chr.1 h5
    refine ⟨_, ⟨a, b, na, nb, fun c hc => ?_, fun c hc => ?_, rfl⟩, ?_, ?_⟩
    · have := ca c hc
      simpa [isLetter_iff] using this
    · have := cb c hc
      simpa [isLetter_iff, or_assoc] using this
    · rw [e1, e2, e3, e4, e5]
      simp
    · rw [f5, f4, f3, f2, f1]
      simp [Pos.move]
  · rintro ⟨w, ⟨a, b, na, nb, ca, cb, rfl⟩, e, f⟩
    refine ⟨s.move bytes!"[" (a ++ bytes!"-" ++ b ++ bytes!"]" ++ t.rest), derives_chr.2 ⟨by rw [e]; simp [Pos.move], rfl⟩,
      s.move (bytes!"[" ++ a) (bytes!"-" ++ b ++ bytes!"]" ++ t.rest), derives_plus_set.2 ⟨a, na, fun c hc => by simpa [isLetter_iff] using ca c hc, by simp [Pos.move], by simp [Pos.move]⟩,
      s.move (bytes!"[" ++ a ++ bytes!"-") (b ++ bytes!"]" ++ t.rest), derives_chr.2 ⟨by simp [Pos.move], by simp [Pos.move]⟩,
      s.move (bytes!"[" ++ a ++ bytes!"-" ++ b) (bytes!"]" ++ t.rest), derives_plus_set.2 ⟨b, nb, fun c hc => by simpa [isLetter_iff, or_assoc] using cb c hc, by simp [Pos.move], by simp [Pos.move]⟩,
      derives_chr.2 ⟨by simp [Pos.move], by rw [f]; simp [Pos.move]⟩⟩

private theorem letter_ne {c d : UInt8} (h : Letter c) (hd : ¬ Letter d) : c ≠ d := fun e => hd (e ▸ h)

private theorem special (d : UInt8) (h : d = 0x0a ∨ d = 0x0d ∨ d = 0x5b ∨ d = 0x5d) : ¬ Letter d ∧ d ≠ 0x2e ∧ d ≠ 0x2d := by
  rcases h with rfl | rfl | rfl | rfl <;> (refine ⟨?_, by decide, by decide⟩; unfold Letter; decide)

/-- A check name is one bracket and then neither brackets, except at the end, nor line terminators. -/
theorem _root_.Verif.Spec.Tidy.CheckName.shape {w : Bytes} (h : CheckName w) : ∃ m, w = 0x5b :: (m ++ bytes!"]") ∧ m ≠ [] ∧ ∀ c ∈ m, c ≠ 0x0a ∧ c ≠ 0x0d ∧ c ≠ 0x5b ∧ c ≠ 0x5d := by
  obtain ⟨a, b, na, nb, ca, cb, rfl⟩ := h
  refine ⟨a ++ bytes!"-" ++ b, by simp, by simp, fun c hc => ?_⟩
  have key : ∀ d : UInt8, (d = 0x0a ∨ d = 0x0d ∨ d = 0x5b ∨ d = 0x5d) → c ≠ d := by
    intro d hd
    obtain ⟨n1, n2, n3⟩ := special d hd
    simp only [List.mem_append, List.mem_singleton] at hc
    rcases hc with (hc | hc) | hc
    · rcases ca c hc with h | h
      · exact letter_ne h n1
      · rw [h]; exact n2.symm
    · rw [hc]; exact n3.symm
    · rcases cb c hc with h | h | h
      · exact letter_ne h n1
      · rw [h]; exact n2.symm
      · rw [h]; exact n3.symm
  exact ⟨key _ (by simp), key _ (by simp), key _ (by simp), key _ (by simp)⟩

theorem _root_.Verif.Spec.Tidy.Finding.oneLine {line check : Bytes} (h : Finding line check) : OneLine line := by
  obtain ⟨pre, h1, h2, rfl⟩ := h
  obtain ⟨m, rfl, _, hm⟩ := CheckName.shape h2
  intro c hc
  simp only [List.mem_append, List.mem_cons, List.not_mem_nil, or_false] at hc
  rcases hc with hc | rfl | hc | rfl
  · exact h1 c hc
  · decide
  · exact ⟨(hm c hc).1, (hm c hc).2.1⟩
  · decide

theorem _root_.Verif.Spec.Tidy.Finding.ne_nil {line check : Bytes} (h : Finding line check) : line ≠ [] := by
  obtain ⟨pre, h1, h2, rfl⟩ := h
  obtain ⟨m, rfl, _, hm⟩ := CheckName.shape h2
  simp

theorem _root_.Verif.Spec.Tidy.Finding.unique {line c c' : Bytes} (h : Finding line c) (h' : Finding line c') : c = c' := by
  obtain ⟨pre, h1, h2, rfl⟩ := h
  obtain ⟨pre', k1, k2, e⟩ := h'
  obtain ⟨m, rfl, _, hm⟩ := CheckName.shape h2
  obtain ⟨m', rfl, _, hm'⟩ := CheckName.shape k2
  have hr := congrArg List.reverse e
  simp only [List.reverse_append, List.reverse_cons, List.reverse_nil, List.nil_append, List.append_assoc, List.cons_append, List.cons.injEq, true_and] at hr
  have := span_unique (p := fun c => decide (c ≠ 0x5b)) (w := m.reverse) (w' := m'.reverse) (c := 0x5b) (c' := 0x5b) (r := pre.reverse) (r' := pre'.reverse)
    (fun d hd => by simpa using (hm d (by simpa using hd)).2.2.1) (fun d hd => by simpa using (hm' d (by simpa using hd)).2.2.1) (by decide) (by decide) (by simpa using hr)
  rw [List.reverse_inj.1 this.1]

theorem checkOf_eq_some {line c : Bytes} : checkOf line = some c ↔ Finding line c := by
  unfold checkOf
  split
  · rename_i h
    constructor
    · intro e
      cases e
      exact h.choose_spec
    · intro hf
      rw [h.choose_spec.unique hf]
  · rename_i h
    constructor
    · intro e; cases e
    · intro hf; exact absurd ⟨c, hf⟩ h

theorem checkOf_eq_none {line : Bytes} : checkOf line = none ↔ ∀ c, ¬ Finding line c := by
  cases h : checkOf line with
  | none =>
    simp only [true_iff]
    intro c hc
    rw [checkOf_eq_some.2 hc] at h
    cases h
  | some c =>
    simp only [reduceCtorEq, false_iff]
    exact fun h' => h' c (checkOf_eq_some.1 h)

/-- What the pattern of findings does at a position. -/
theorem checkRe_iff (s t : Pos) : Derives checkRe s t ↔ ∃ lead line, (s.left = [] ∧ lead = [] ∨ lead = [0x0a]) ∧ Finding line t.group ∧
    s.rest = lead ++ line ++ [0x0a] ++ t.rest ∧ t.left = (lead ++ line ++ [0x0a]).reverse ++ s.left := by
  unfold checkRe
  simp only [all, derives_seq, derives_alt, derives_bol]
  constructor
  · rintro ⟨s1, h1, s2, h2, s3, h3, h4⟩
    obtain ⟨pre, hp, e2, f2⟩ := derives_star_set.1 h2
    obtain ⟨u, w, hd, e3, k1, k2, f3, grp⟩ := derives_cap.1 h3
    obtain ⟨e4, f4⟩ := derives_chr.1 h4
    obtain ⟨w', hw, e5, f5⟩ := (checkName_iff _ _).1 hd
    have hww : w' = w := by rw [e3, k1] at e5; exact (List.append_cancel_right e5).symm
    have hg : t.group = w := by rw [f4]; exact grp
    have hl : ∃ lead, (s.left = [] ∧ lead = [] ∨ lead = [0x0a]) ∧ s.rest = lead ++ s1.rest ∧ s1.left = lead.reverse ++ s.left := by
      rcases h1 with ⟨h, rfl⟩ | h
      · exact ⟨[], Or.inl ⟨h, rfl⟩, rfl, rfl⟩
      · obtain ⟨e1, f1⟩ := derives_chr.1 h
        exact ⟨[0x0a], Or.inr rfl, e1, by rw [f1]; rfl⟩
    obtain ⟨lead, h0, e1, f1⟩ := hl
    refine ⟨lead, pre ++ w, h0, ⟨pre, fun c hc => (dotChar_iff c).1 (hp c hc), by rw [hg, ← hww]; exact hw, by rw [hg]⟩, ?_, ?_⟩
    · rw [e1, e2, e3, e4]; simp
    · rw [f4]
      simp only [Pos.move]
      rw [f3, f2]
      simp only [Pos.move]
      rw [f1]
      simp
  · rintro ⟨lead, line, h0, ⟨pre, hp, hc, rfl⟩, e, f⟩
    let s1 : Pos := ⟨lead.reverse ++ s.left, pre ++ t.group ++ [0x0a] ++ t.rest, s.group⟩
    let s2 := s1.move pre (t.group ++ [0x0a] ++ t.rest)
    let s3 : Pos := { s2.move t.group ([0x0a] ++ t.rest) with group := t.group }
    refine ⟨s1, ?_, s2, derives_star_set.2 ⟨pre, fun c hc => (dotChar_iff c).2 (hp c hc), by simp [s1, s2, Pos.move], rfl⟩, s3,
      derives_cap.2 ⟨s2.move t.group ([0x0a] ++ t.rest), t.group, (checkName_iff _ _).2 ⟨t.group, hc, by simp [s2, Pos.move], rfl⟩, by simp [s2, s3, Pos.move], rfl, rfl, rfl, rfl⟩,
      derives_chr.2 ⟨rfl, ?_⟩⟩
    · rcases h0 with ⟨h, rfl⟩ | rfl
      · refine Or.inl ⟨h, ?_⟩
        obtain ⟨l, r, g⟩ := s
        simp only at e h
        simp [s1, e]
      · refine Or.inr (derives_chr.2 ⟨?_, ?_⟩)
        · rw [e]; simp [s1]
        · simp [s1, Pos.move]
    · obtain ⟨tl, tr, tg⟩ := t
      simp only at f
      rw [f]
      simp [s3, s2, s1, Pos.move]

/-! ## Lines -/

theorem completeLines_line (l r : Bytes) (h : (0x0a : UInt8) ∉ l) : completeLines (l ++ 0x0a :: r) = l :: completeLines r := by
  induction l with
  | nil => simp [completeLines]
  | cons c l ih =>
    simp only [List.mem_cons, not_or] at h
    rw [List.cons_append, completeLines, if_neg (fun e => h.1 e.symm), ih h.2]

theorem completeLines_none (l : Bytes) (h : (0x0a : UInt8) ∉ l) : completeLines l = [] := by
  induction l with
  | nil => rfl
  | cons c l ih =>
    simp only [List.mem_cons, not_or] at h
    rw [completeLines, if_neg (fun e => h.1 e.symm), ih h.2]

theorem split_line (t : Bytes) : (0x0a : UInt8) ∉ t ∨ ∃ l r, (0x0a : UInt8) ∉ l ∧ t = l ++ 0x0a :: r := by
  induction t with
  | nil => exact Or.inl (by simp)
  | cons c t ih =>
    by_cases hc : c = 0x0a
    · subst hc; exact Or.inr ⟨[], t, by simp, rfl⟩
    · rcases ih with h | ⟨l, r, h, rfl⟩
      · exact Or.inl (by simp [h, Ne.symm hc])
      · exact Or.inr ⟨c :: l, r, by simp [h, Ne.symm hc], rfl⟩

/-! ## The iterator -/

theorem iterate_hit {r : Re} {n : Nat} {s t : Pos} (h : (ways r s).head? = some t) :
    iterate r (n + 1) s = ((t.left.take (t.left.length - s.left.length)).reverse, t.group) :: iterate r n { t with group := [] } := by
  rw [iterate]
  have : search r s.rest.length s = some (s, t) := by
    unfold search
    rw [h]
  rw [this]

theorem iterate_skip {r : Re} {n : Nat} {l rest g : Bytes} {c : UInt8} (h : ways r ⟨l, c :: rest, g⟩ = []) :
    iterate r n ⟨l, c :: rest, g⟩ = iterate r n ⟨c :: l, rest, g⟩ := by
  cases n with
  | zero => rfl
  | succ n =>
    rw [iterate, iterate]
    have : search r (c :: rest).length ⟨l, c :: rest, g⟩ = search r rest.length ⟨c :: l, rest, g⟩ := by
      rw [List.length_cons]
      conv => lhs; unfold search
      rw [h]
      rfl
    simp only [this]

theorem iterate_end {r : Re} {n : Nat} {l g : Bytes} (h : ways r ⟨l, [], g⟩ = []) : iterate r n ⟨l, [], g⟩ = [] := by
  cases n with
  | zero => rfl
  | succ n =>
    rw [iterate]
    have : search r ([] : Bytes).length ⟨l, [], g⟩ = none := by
      unfold search
      rw [h]
      rfl
    simp only [this]

private theorem ways_nil_of {s : Pos} (h : ∀ lead line c rest, (s.left = [] ∧ lead = [] ∨ lead = [0x0a]) → Finding line c → s.rest ≠ lead ++ line ++ [0x0a] ++ rest) :
    ways checkRe s = [] := by
  rw [List.eq_nil_iff_forall_not_mem]
  intro t ht
  obtain ⟨lead, line, h0, hf, e, _⟩ := (checkRe_iff _ _).1 ((mem_ways _ _ _).1 ht)
  exact h lead line _ _ h0 hf e

/-- Inside a line nothing begins. -/
private theorem inside {n : Nat} {L l r : Bytes} (hL : L ≠ []) (hl : (0x0a : UInt8) ∉ l) :
    iterate checkRe n ⟨L, l ++ r, []⟩ = iterate checkRe n ⟨l.reverse ++ L, r, []⟩ := by
  induction l generalizing L with
  | nil => rfl
  | cons c l ih =>
    simp only [List.mem_cons, not_or] at hl
    rw [List.cons_append, iterate_skip, ih (by simp) hl.2]
    · simp
    · apply ways_nil_of
      rintro lead line ck rest (⟨h, _⟩ | rfl) _ e
      · exact hL h
      · simp at e
        exact hl.1 e.1.symm

private theorem line_eq {l r line rest : Bytes} (hl : (0x0a : UInt8) ∉ l) (hf : OneLine line) (e : l ++ 0x0a :: r = line ++ [0x0a] ++ rest) : l = line ∧ r = rest := by
  have := span_unique (p := fun c => decide (c ≠ 0x0a)) (w := l) (w' := line) (c := 0x0a) (c' := 0x0a) (r := r) (r' := rest)
    (fun d hd => by simp only [decide_eq_true_eq]; intro e; exact hl (e ▸ hd)) (fun d hd => by simpa using (hf d hd).1) (by decide) (by decide) (by simpa using e)
  exact ⟨this.1, this.2.2⟩

/-- A match at a place where a line begins or a newline before it. -/
private theorem hit {n : Nat} {L lead line rest check : Bytes} (h0 : L = [] ∧ lead = [] ∨ lead = [0x0a]) (hf : Finding line check) :
    iterate checkRe (n + 1) ⟨L, lead ++ line ++ [0x0a] ++ rest, []⟩ =
      (lead ++ line ++ [0x0a], check) :: iterate checkRe n ⟨(lead ++ line ++ [0x0a]).reverse ++ L, rest, []⟩ := by
  let t : Pos := ⟨(lead ++ line ++ [0x0a]).reverse ++ L, rest, check⟩
  have hd : Derives checkRe ⟨L, lead ++ line ++ [0x0a] ++ rest, []⟩ t := (checkRe_iff _ _).2 ⟨lead, line, h0, hf, rfl, rfl⟩
  have hh : (ways checkRe ⟨L, lead ++ line ++ [0x0a] ++ rest, []⟩).head? = some t := by
    have hm := (mem_ways _ _ _).2 hd
    cases hw : ways checkRe ⟨L, lead ++ line ++ [0x0a] ++ rest, []⟩ with
    | nil => rw [hw] at hm; cases hm
    | cons u us =>
      have hu : u ∈ ways checkRe ⟨L, lead ++ line ++ [0x0a] ++ rest, []⟩ := by rw [hw]; simp
      obtain ⟨lead', line', k0, kf, e, f⟩ := (checkRe_iff _ _).1 ((mem_ways _ _ _).1 hu)
      simp only at k0 e f
      rw [List.head?_cons]
      have hll : lead = lead' := by
        have aux : ∀ (l : Bytes) (c : Bytes) (x : Bytes), Finding l c → l ++ [0x0a] ++ x ≠ [] ∧ (l ++ [0x0a] ++ x).head? ≠ some 0x0a := by
          intro l c x hfi
          cases l with
          | nil => exact absurd rfl hfi.ne_nil
          | cons d l => exact ⟨by simp, by simpa using (hfi.oneLine d (by simp)).1⟩
        rcases h0 with ⟨_, rfl⟩ | rfl <;> rcases k0 with ⟨_, rfl⟩ | rfl
        · rfl
        · have := (aux line check rest hf).2
          rw [show line ++ [0x0a] ++ rest = [] ++ line ++ [0x0a] ++ rest from rfl, e] at this
          simp at this
        · have := (aux line' _ u.rest kf).2
          rw [show line' ++ [0x0a] ++ u.rest = [] ++ line' ++ [0x0a] ++ u.rest from rfl, ← e] at this
          simp at this
        · rfl
      subst hll
      have e' : line ++ 0x0a :: rest = line' ++ [0x0a] ++ u.rest := by simpa using e
      obtain ⟨rfl, rfl⟩ := line_eq (fun hm => (hf.oneLine _ hm).1 rfl) kf.oneLine e'
      have hc := hf.unique kf
      obtain ⟨ul, ur, ug⟩ := u
      simp only at f hc
      rw [f, ← hc]
  rw [iterate_hit hh]
  congr 1
  congr 1
  simp only [t]
  rw [List.length_append, Nat.add_sub_cancel, List.take_left]
  simp

/-- At a place behind the beginning. -/
private theorem counted_none (k : Nat) : ∀ (n : Nat) (L rest : Bytes), rest.length ≤ k → rest.length < n → L ≠ [] →
    iterate checkRe n ⟨L, rest, []⟩ = counted none (completeLines rest) := by
  induction k with
  | zero =>
    intro n L rest hk hn hL
    have : rest = [] := List.length_eq_zero_iff.1 (by omega)
    subst this
    rw [iterate_end]
    · rfl
    · apply ways_nil_of
      intro lead line c rest _ hf e
      simp at e
  | succ k ih =>
    intro n L rest hk hn hL
    rcases split_line rest with h | ⟨l, r, hl, rfl⟩
    · rw [completeLines_none _ h]
      have := inside (n := n) (r := []) hL h
      rw [List.append_nil] at this
      rw [this, iterate_end]
      · rfl
      · apply ways_nil_of
        intro lead line c rest _ hf e
        simp at e
    · rw [inside hL hl, completeLines_line _ _ hl, counted]
      have hlen : r.length + 1 ≤ k + 1 ∧ r.length + 1 < n := by
        simp at hk hn
        omega
      -- at a newline
      rcases split_line r with h | ⟨l', r', hl', rfl⟩
      · rw [completeLines_none _ h, iterate_skip, ih n _ r (by omega) (by omega) (by simp), completeLines_none _ h]
        · rfl
        · apply ways_nil_of
          rintro lead line c rest (⟨h', _⟩ | rfl) hf e
          · simp at h'
            exact hL h'.2
          · simp only [List.append_assoc, List.cons_append, List.nil_append, List.cons.injEq, true_and] at e
            rw [e] at h
            simp at h
      · rw [completeLines_line _ _ hl', counted]
        cases hc : checkOf l' with
        | some check =>
          have hf := checkOf_eq_some.1 hc
          obtain ⟨n, rfl⟩ : ∃ m, n = m + 1 := ⟨n - 1, by omega⟩
          have := hit (n := n) (L := l.reverse ++ L) (lead := [0x0a]) (rest := r') (Or.inr rfl) hf
          have e : (0x0a : UInt8) :: (l' ++ 0x0a :: r') = [0x0a] ++ l' ++ [0x0a] ++ r' := by simp
          rw [e, this, ih n _ r' (by simp at hlen; omega) (by simp at hlen; omega) (by simp)]
        | none =>
          have hnf := checkOf_eq_none.1 hc
          rw [iterate_skip, ih n _ _ (by omega) (by omega) (by simp), completeLines_line _ _ hl']
          · rfl
          · apply ways_nil_of
            rintro lead line c rest (⟨h', _⟩ | rfl) hf e
            · simp at h'
              exact hL h'.2
            · simp only [List.append_assoc, List.cons_append, List.nil_append, List.cons.injEq, true_and] at e
              obtain ⟨rfl, _⟩ := line_eq hl' hf.oneLine (by simpa using e)
              exact hnf c hf

/-- What is counted in a text. -/
theorem findAll_check (text : Bytes) : findAll checkRe text = counted (some []) (completeLines text) := by
  unfold findAll
  rcases split_line text with h | ⟨l, r, hl, rfl⟩
  · rw [completeLines_none _ h]
    have hno : ∀ L, ways checkRe ⟨L, text, []⟩ = [] := fun L => by
      apply ways_nil_of
      intro lead line c rest _ hf e
      simp only at e
      rw [e] at h
      simp at h
    cases text with
    | nil => exact iterate_end (hno [])
    | cons c t =>
      rw [iterate_skip (hno []), counted_none _ _ _ t (Nat.le_refl _) (by simp; try omega) (by simp), completeLines_none t (by simp at h; exact h.2)]
      rfl
  · rw [completeLines_line _ _ hl, counted]
    cases hc : checkOf l with
    | some check =>
      have hf := checkOf_eq_some.1 hc
      have := hit (n := (l ++ 0x0a :: r).length) (L := []) (lead := []) (rest := r) (Or.inl ⟨rfl, rfl⟩) hf
      have e : l ++ (0x0a : UInt8) :: r = [] ++ l ++ [0x0a] ++ r := by simp
      simp only
      rw [← e] at this
      rw [this, counted_none _ _ _ r (Nat.le_refl _) (by simp; omega) (by simp)]
    | none =>
      have hnf := checkOf_eq_none.1 hc
      simp only
      cases l with
      | cons c l =>
        rw [List.cons_append, iterate_skip, counted_none _ _ _ _ (Nat.le_refl _) (by simp; try omega) (by simp)]
        · simp only [List.mem_cons, not_or] at hl
          rw [completeLines_line _ _ hl.2]
          rfl
        · apply ways_nil_of
          rintro lead line ck rest (⟨_, rfl⟩ | rfl) hf e
          · obtain ⟨rfl, _⟩ := line_eq hl hf.oneLine (by simpa using e)
            exact hnf ck hf
          · simp at e
            simp [e.1] at hl
      | nil =>
        rw [List.nil_append]
        rcases split_line r with h | ⟨l', r', hl', rfl⟩
        · rw [completeLines_none _ h, iterate_skip, counted_none _ _ _ _ (Nat.le_refl _) (by simp; try omega) (by simp), completeLines_none _ h]
          · rfl
          · apply ways_nil_of
            rintro lead line ck rest (⟨_, rfl⟩ | rfl) hf e
            · cases line with
              | nil => exact hf.ne_nil rfl
              | cons d line => simp at e; exact (hf.oneLine d (by simp)).1 e.1.symm
            · simp only [List.append_assoc, List.cons_append, List.nil_append, List.cons.injEq, true_and] at e
              rw [e] at h
              simp at h
        · rw [completeLines_line _ _ hl', counted]
          cases hc' : checkOf l' with
          | some check =>
            have hf := checkOf_eq_some.1 hc'
            have := hit (n := (0x0a :: (l' ++ 0x0a :: r')).length) (L := []) (lead := [0x0a]) (rest := r') (Or.inr rfl) hf
            have e : (0x0a : UInt8) :: (l' ++ 0x0a :: r') = [0x0a] ++ l' ++ [0x0a] ++ r' := by simp
            rw [← e] at this
            rw [this, counted_none _ _ _ r' (Nat.le_refl _) (by simp; omega) (by simp)]
          | none =>
            have hnf' := checkOf_eq_none.1 hc'
            rw [iterate_skip, counted_none _ _ _ _ (Nat.le_refl _) (by simp; try omega) (by simp), completeLines_line _ _ hl']
            · rfl
            · apply ways_nil_of
              rintro lead line ck rest (⟨_, rfl⟩ | rfl) hf e
              · cases line with
                | nil => exact hf.ne_nil rfl
                | cons d line => simp at e; exact (hf.oneLine d (by simp)).1 e.1.symm
              · simp only [List.append_assoc, List.cons_append, List.nil_append, List.cons.injEq, true_and] at e
                obtain ⟨rfl, _⟩ := line_eq hl' hf.oneLine (by simpa using e)
                exact hnf' ck hf

end Verif.Tidy
