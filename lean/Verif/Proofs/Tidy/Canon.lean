import Verif.Model.Tidy.Canon
import Verif.Spec.Tidy.Canon
import Verif.Proofs.Tidy.Filter
/-! # Replacing the path of the project -/
namespace Verif.Tidy
open Re Verif.Spec.Tidy

/-- A text begins with a path in which a dot is any character but a line terminator. -/
def fits : Bytes → Bytes → Bool
  | [], _ => true
  | _ :: _, [] => false
  | p :: path, c :: text => (if p = 0x2e then decide (c ≠ 0x0a ∧ c ≠ 0x0d) else decide (c = p)) && fits path text

/-- What is behind the first directory of a text. -/
def behindRoot : List Bytes → Bytes → Bytes
  | [], line => line
  | p :: roots, line => if fits (p ++ bytes!"/") line then line.drop (p.length + 1) else behindRoot roots line

def skip (s : Pos) (n : Nat) : Pos := ⟨(s.rest.take n).reverse ++ s.left, s.rest.drop n, s.group⟩

theorem ways_empty (s : Pos) : ways empty s = [s] := by
  obtain ⟨l, r, g⟩ := s
  cases r with
  | nil => rfl
  | cons c r => rfl

/-- A path without repetitions, character by character. -/
def pathSeq : Bytes → Re
  | [] => empty
  | c :: path => seq (pathAtom c) (pathSeq path)

theorem ways_seq_empty (a : Re) (s : Pos) : ways (seq a empty) s = ways a s := by
  rw [ways]
  induction ways a s with
  | nil => rfl
  | cons t l ih => rw [List.flatMap_cons, ways_empty, ih]; rfl

theorem ways_pathReFrom (a : Re) (path : Bytes) (h : (0x2b : UInt8) ∉ path) (s : Pos) :
    ways (pathReFrom a path) s = ways (seq a (pathSeq path)) s := by
  induction path generalizing a s with
  | nil => exact (ways_seq_empty a s).symm
  | cons c path ih =>
    rw [pathReFrom, if_neg (fun e => h (by rw [e]; simp)), pathSeq, ways, ways]
    congr 1
    funext t
    exact ih _ (fun hm => h (by simp [hm])) t

theorem ways_pathSeq (path : Bytes) (s : Pos) : ways (pathSeq path) s = if fits path s.rest then [skip s path.length] else [] := by
  induction path generalizing s with
  | nil => simp [pathSeq, ways_empty, fits, skip]
  | cons p path ih =>
    obtain ⟨l, r, g⟩ := s
    rw [pathSeq, ways]
    cases r with
    | nil =>
      have : ways (pathAtom p) ⟨l, [], g⟩ = [] := by unfold pathAtom; split <;> rfl
      rw [this]
      rfl
    | cons c r =>
      have : ways (pathAtom p) ⟨l, c :: r, g⟩ =
          if (if p = 0x2e then decide (c ≠ 0x0a ∧ c ≠ 0x0d) else decide (c = p)) = true then [⟨c :: l, r, g⟩] else [] := by
        unfold pathAtom
        split
        · simp [dot, ways]
        · simp [chr, ways]
      rw [this, fits]
      by_cases h : (if p = 0x2e then decide (c ≠ 0x0a ∧ c ≠ 0x0d) else decide (c = p)) = true
      · rw [if_pos h, List.flatMap_cons, List.flatMap_nil, List.append_nil, ih, h, Bool.true_and]
        simp [skip]
      · rw [if_neg h, List.flatMap_nil, Bool.eq_false_iff.2 h]
        rfl

theorem ways_pathRe (path : Bytes) (h : (0x2b : UInt8) ∉ path) (s : Pos) :
    ways (pathRe path) s = if fits path s.rest then [skip s path.length] else [] := by
  rw [← ways_pathSeq]
  cases path with
  | nil => rfl
  | cons c path => exact ways_pathReFrom _ _ (fun hm => h (by simp [hm])) s

/-- How long the first directory is that begins a text. -/
def rootLength : List Bytes → Bytes → Nat
  | [], _ => 0
  | p :: roots, line => if fits (p ++ bytes!"/") line then p.length + 1 else rootLength roots line

theorem behindRoot_eq (roots : List Bytes) (line : Bytes) : behindRoot roots line = line.drop (rootLength roots line) := by
  induction roots with
  | nil => rfl
  | cons p roots ih =>
    rw [behindRoot, rootLength]
    split
    · rfl
    · exact ih

theorem ways_rootsRe (roots : List Bytes) (hq : ∀ p ∈ roots, (0x2b : UInt8) ∉ p) (s : Pos) :
    (ways (rootsRe roots) s = [] ∧ rootLength roots s.rest = 0) ∨
    (0 < rootLength roots s.rest ∧ ∃ l, ways (rootsRe roots) s = skip s (rootLength roots s.rest) :: l) := by
  induction roots with
  | nil =>
    refine Or.inl ⟨?_, rfl⟩
    obtain ⟨l, r, g⟩ := s
    cases r <;> rfl
  | cons p roots ih =>
    have hp := ways_pathRe (p ++ bytes!"/") (by
      intro hm
      rcases List.mem_append.1 hm with hm | hm
      · exact hq p (by simp) hm
      · revert hm; decide) s
    rw [List.length_append, List.length_singleton] at hp
    have e : ∃ l, ways (rootsRe (p :: roots)) s = ways (pathRe (p ++ bytes!"/")) s ++ l ∧ (l = ways (rootsRe roots) s ∨ (roots = [] ∧ l = [])) := by
      cases roots with
      | nil => exact ⟨[], by simp [rootsRe], Or.inr ⟨rfl, rfl⟩⟩
      | cons q roots => exact ⟨_, rfl, Or.inl rfl⟩
    obtain ⟨l, e, hl⟩ := e
    rw [e, hp, rootLength]
    by_cases h : fits (p ++ bytes!"/") s.rest = true
    · rw [if_pos h, if_pos h]
      exact Or.inr ⟨by omega, l, rfl⟩
    · rw [if_neg h, if_neg h, List.nil_append]
      rcases hl with rfl | ⟨rfl, rfl⟩
      · exact ih fun q hm => hq q (by simp [hm])
      · exact Or.inl ⟨rfl, rfl⟩

def dotLength (line : Bytes) : Nat := if bytes!"./" <+: line then 2 else 0

theorem ways_dotslash (s : Pos) : ways (seq (chr 0x2e) (chr 0x2f)) s = if bytes!"./" <+: s.rest then [skip s 2] else [] := by
  obtain ⟨l, r, g⟩ := s
  match r with
  | [] => rfl
  | [c] =>
    by_cases h : c = 0x2e
    · subst h; rfl
    · simp [ways, chr, h]
  | c :: d :: r =>
    by_cases h : c = 0x2e
    · subst h
      by_cases h' : d = 0x2f
      · subst h'; simp [ways, chr, skip]
      · simp [ways, chr, h', Ne.symm h']
    · simp [ways, chr, h, Ne.symm h]

/-- How much the pattern takes behind the beginning of a line. -/
def taken (roots : List Bytes) (line : Bytes) : Nat :=
  rootLength roots line + dotLength (line.drop (rootLength roots line))

theorem skip_skip (s : Pos) (n m : Nat) : skip (skip s n) m = skip s (n + m) := by
  obtain ⟨l, r, g⟩ := s
  simp only [skip, List.drop_drop, Pos.mk.injEq, and_true]
  rw [← List.append_assoc, ← List.reverse_append, ← List.take_add]

theorem skip_zero (s : Pos) : skip s 0 = s := by simp [skip]

theorem ways_tail (roots : List Bytes) (hq : ∀ p ∈ roots, (0x2b : UInt8) ∉ p) (s : Pos) :
    (taken roots s.rest = 0 ∧ ways (seq (opt (rootsRe roots)) (opt (seq (chr 0x2e) (chr 0x2f)))) s = [s]) ∨
    (0 < taken roots s.rest ∧ ∃ l, ways (seq (opt (rootsRe roots)) (opt (seq (chr 0x2e) (chr 0x2f)))) s = skip s (taken roots s.rest) :: l) := by
  have hd : ∀ t : Pos, ways (opt (seq (chr 0x2e) (chr 0x2f))) t = (if bytes!"./" <+: t.rest then [skip t 2] else []) ++ [t] := fun t => by
    rw [opt, ways, ways_dotslash, ways_empty]
  have hr : ways (opt (rootsRe roots)) s = ways (rootsRe roots) s ++ [s] := by rw [opt, ways, ways_empty]
  rw [ways, hr]
  unfold taken dotLength
  rcases ways_rootsRe roots hq s with ⟨h1, h2⟩ | ⟨h1, l, h2⟩
  · rw [h1, h2, List.nil_append, List.flatMap_cons, List.flatMap_nil, List.append_nil, hd, List.drop_zero]
    by_cases h : bytes!"./" <+: s.rest
    · rw [if_pos h, if_pos h]
      exact Or.inr ⟨by omega, [s], rfl⟩
    · rw [if_neg h, if_neg h]
      exact Or.inl ⟨rfl, rfl⟩
  · refine Or.inr ⟨by omega, ?_⟩
    rw [h2, List.cons_append, List.flatMap_cons, hd]
    have hrest : (skip s (rootLength roots s.rest)).rest = s.rest.drop (rootLength roots s.rest) := rfl
    rw [hrest]
    by_cases h : bytes!"./" <+: s.rest.drop (rootLength roots s.rest)
    · rw [if_pos h, if_pos h, skip_skip]
      exact ⟨_, rfl⟩
    · rw [if_neg h, if_neg h]
      exact ⟨_, rfl⟩

/-- At the beginning of the text. -/
theorem ways_begin (roots : List Bytes) (hq : ∀ p ∈ roots, (0x2b : UInt8) ∉ p) (text : Bytes) :
    ∃ l, ways (fixPathsRe roots) ⟨[], text, []⟩ = skip ⟨[], text, []⟩ (taken roots text) :: l ∧
      (taken roots text = 0 → (∀ r, text = 0x0a :: r → ∃ l', l = skip ⟨[0x0a], r, [0x0a]⟩ (taken roots r) :: l') ∧ ((∀ r, text ≠ 0x0a :: r) → l = [])) := by
  rw [fixPathsRe, ways]
  have h0 : ∃ k, ways (cap (alt bol (chr 0x0a))) ⟨[], text, []⟩ = ⟨[], text, []⟩ :: k ∧ (∀ r, text = 0x0a :: r → k = [⟨[0x0a], r, [0x0a]⟩]) ∧ ((∀ r, text ≠ 0x0a :: r) → k = []) := by
    cases text with
    | nil => exact ⟨[], rfl, by simp, fun _ => rfl⟩
    | cons c r =>
      by_cases h : c = 0x0a
      · subst h
        exact ⟨[⟨[0x0a], r, [0x0a]⟩], by simp [ways, chr], by simp, fun h => absurd rfl (h r)⟩
      · exact ⟨[], by simp [ways, chr, h], fun r' e => by simp at e; exact absurd e.1 h, fun _ => rfl⟩
  obtain ⟨k, h0, k1, k2⟩ := h0
  rw [h0, List.flatMap_cons]
  rcases ways_tail roots hq ⟨[], text, []⟩ with ⟨h1, h2⟩ | ⟨h1, l, h2⟩
  · rw [h2]
    simp only at h1
    rw [h1, skip_zero]
    refine ⟨_, rfl, fun _ => ⟨?_, ?_⟩⟩
    · intro r e
      rw [k1 r e]
      rcases ways_tail roots hq ⟨[0x0a], r, [0x0a]⟩ with ⟨g1, g2⟩ | ⟨g1, l, g2⟩
      · simp only at g1
        rw [g1, skip_zero]
        exact ⟨[], by simp [g2]⟩
      · exact ⟨l, by simp [g2]⟩
    · intro h
      rw [k2 h]
      rfl
  · rw [h2]
    simp only at h1
    exact ⟨_, rfl, fun h => by omega⟩

theorem search_hit {r : Re} {s t : Pos} (n : Nat) (h : (ways r s).head? = some t) : search r n s = some (s, t) := by
  unfold search
  rw [h]

theorem search_miss {r : Re} {l rest g : Bytes} {c : UInt8} (n : Nat) (h : ways r ⟨l, c :: rest, g⟩ = []) :
    search r (n + 1) ⟨l, c :: rest, g⟩ = search r n ⟨c :: l, rest, g⟩ := by
  conv => lhs; unfold search
  rw [h]
  rfl

theorem search_end {r : Re} {l g : Bytes} (n : Nat) (h : ways r ⟨l, [], g⟩ = []) : search r n ⟨l, [], g⟩ = none := by
  cases n with
  | zero => unfold search; rw [h]; rfl
  | succ n => unfold search; rw [h]; rfl

theorem search_zero {r : Re} {s : Pos} (h : ways r s = []) : search r 0 s = none := by
  unfold search; rw [h]; rfl

/-- Behind the beginning of the text: at newlines only. -/
theorem ways_inside (roots : List Bytes) (hq : ∀ p ∈ roots, (0x2b : UInt8) ∉ p) (s : Pos) (h : s.left ≠ []) :
    (∀ r, s.rest = 0x0a :: r → (ways (fixPathsRe roots) s).head? = some (skip ⟨0x0a :: s.left, r, [0x0a]⟩ (taken roots r))) ∧
    ((∀ r, s.rest ≠ 0x0a :: r) → ways (fixPathsRe roots) s = []) := by
  obtain ⟨l, r, g⟩ := s
  simp only at h ⊢
  constructor
  · rintro r rfl
    have h0 : ways (cap (alt bol (chr 0x0a))) ⟨l, 0x0a :: r, g⟩ = [⟨0x0a :: l, r, [0x0a]⟩] := by
      simp [ways, chr, h]
    rw [fixPathsRe, ways, h0, List.flatMap_cons, List.flatMap_nil, List.append_nil]
    rcases ways_tail roots hq ⟨0x0a :: l, r, [0x0a]⟩ with ⟨g1, g2⟩ | ⟨g1, l', g2⟩
    · simp only at g1
      rw [g2, g1, skip_zero]
      rfl
    · rw [g2]
      rfl
  · intro hr
    have h0 : ways (cap (alt bol (chr 0x0a))) ⟨l, r, g⟩ = [] := by
      cases r with
      | nil => simp [ways, chr, h]
      | cons c r =>
        have : c ≠ 0x0a := fun e => hr r (by rw [e])
        simp [ways, chr, h, this]
    rw [fixPathsRe, ways, h0]
    rfl

theorem search_newline (roots : List Bytes) (hq : ∀ p ∈ roots, (0x2b : UInt8) ∉ p) (n : Nat) (s : Pos) (h : s.left ≠ []) (hn : s.rest.length ≤ n) (w r : Bytes) (hw : (0x0a : UInt8) ∉ w) (e : s.rest = w ++ 0x0a :: r) :
    search (fixPathsRe roots) n s = some (⟨w.reverse ++ s.left, 0x0a :: r, s.group⟩, skip ⟨0x0a :: (w.reverse ++ s.left), r, [0x0a]⟩ (taken roots r)) := by
  induction w generalizing n s with
  | nil =>
    rw [search_hit n ((ways_inside roots hq s h).1 r e)]
    obtain ⟨l, r', g⟩ := s
    simp at e
    subst e
    rfl
  | cons c w ih =>
    have hc : c ≠ 0x0a := fun h => hw (by rw [h]; simp)
    have hz := (ways_inside roots hq s h).2 (fun r' e' => by rw [e] at e'; simp at e'; exact hc e'.1)
    obtain ⟨l, r', g⟩ := s
    simp only at e
    subst e
    cases n with
    | zero => simp at hn
    | succ n =>
      rw [List.cons_append] at hz ⊢
      rw [search_miss n hz, ih n ⟨c :: l, w ++ 0x0a :: r, g⟩ (by simp) (by simpa using hn) (fun h => hw (by simp [h])) rfl]
      simp

theorem search_no_newline (roots : List Bytes) (hq : ∀ p ∈ roots, (0x2b : UInt8) ∉ p) (n : Nat) (s : Pos) (h : s.left ≠ []) (hw : (0x0a : UInt8) ∉ s.rest) : search (fixPathsRe roots) n s = none := by
  have hz : ∀ s : Pos, s.left ≠ [] → (0x0a : UInt8) ∉ s.rest → ways (fixPathsRe roots) s = [] := fun s h hw =>
    (ways_inside roots hq s h).2 (fun r e => hw (by rw [e]; simp))
  induction n generalizing s with
  | zero => exact search_zero (hz s h hw)
  | succ n ih =>
    obtain ⟨l, r, g⟩ := s
    cases r with
    | nil => exact search_end _ (hz _ h hw)
    | cons c r =>
      rw [search_miss n (hz _ h hw)]
      exact ih ⟨c :: l, r, g⟩ (by simp) (fun h => hw (by simp [h]))

theorem replace_inside (roots : List Bytes) (hq : ∀ p ∈ roots, (0x2b : UInt8) ∉ p) (n : Nat) (s : Pos) (h : s.left ≠ []) (w r : Bytes) (hw : (0x0a : UInt8) ∉ w) (e : s.rest = w ++ 0x0a :: r) :
    replaceFrom (fixPathsRe roots) (n + 1) false s =
      w ++ [0x0a] ++ replaceFrom (fixPathsRe roots) n false (skip ⟨0x0a :: (w.reverse ++ s.left), r, []⟩ (taken roots r)) := by
  rw [replaceFrom]
  simp only [Bool.false_eq_true, if_false]
  rw [search_newline roots hq _ s h (Nat.le_refl _) w r hw e]
  have hlen : ((0x0a :: r).length == (skip ⟨0x0a :: (w.reverse ++ s.left), r, [0x0a]⟩ (taken roots r)).rest.length) = false := by
    simp [skip]
    omega
  simp only [hlen]
  congr 1
  rw [e]
  congr 1
  simp

theorem replace_last (roots : List Bytes) (hq : ∀ p ∈ roots, (0x2b : UInt8) ∉ p) (n : Nat) (s : Pos) (h : s.left ≠ []) (hw : (0x0a : UInt8) ∉ s.rest) :
    replaceFrom (fixPathsRe roots) n false s = s.rest := by
  cases n with
  | zero => rfl
  | succ n =>
    rw [replaceFrom]
    simp only [Bool.false_eq_true, if_false]
    rw [search_no_newline roots hq _ s h hw]

theorem fits_newline {p l r : Bytes} (hp : (0x0a : UInt8) ∉ p) (hl : (0x0a : UInt8) ∉ l) : fits p (l ++ 0x0a :: r) = fits p l := by
  induction p generalizing l with
  | nil => simp [fits]
  | cons c p ih =>
    have hc : c ≠ 0x0a := fun h => hp (by rw [h]; simp)
    cases l with
    | nil =>
      simp only [List.nil_append, fits]
      split
      · simp
      · simp [Ne.symm hc]
    | cons d l =>
      simp only [List.cons_append, fits]
      rw [ih (fun h => hp (by simp [h])) (fun h => hl (by simp [h]))]

theorem fits_length {p l : Bytes} (h : fits p l = true) : p.length ≤ l.length := by
  induction p generalizing l with
  | nil => simp
  | cons c p ih =>
    cases l with
    | nil => simp [fits] at h
    | cons d l =>
      simp only [fits, Bool.and_eq_true] at h
      simpa using ih h.2

theorem rootLength_newline {roots : List Bytes} {l r : Bytes} (hp : ∀ p ∈ roots, (0x0a : UInt8) ∉ p) (hl : (0x0a : UInt8) ∉ l) :
    rootLength roots (l ++ 0x0a :: r) = rootLength roots l ∧ rootLength roots l ≤ l.length := by
  induction roots with
  | nil => exact ⟨rfl, Nat.zero_le _⟩
  | cons p roots ih =>
    have hpp : (0x0a : UInt8) ∉ p ++ bytes!"/" := fun h => by
      rcases List.mem_append.1 h with h | h
      · exact hp p (by simp) h
      · revert h; decide
    rw [rootLength, rootLength, fits_newline hpp hl]
    by_cases h : fits (p ++ bytes!"/") l = true
    · rw [if_pos h, if_pos h]
      exact ⟨rfl, by simpa using fits_length h⟩
    · rw [if_neg h, if_neg h]
      exact ih fun q hq => hp q (by simp [hq])

theorem dotLength_newline {l r : Bytes} : dotLength (l ++ 0x0a :: r) = dotLength l ∧ dotLength l ≤ l.length := by
  unfold dotLength
  match l with
  | [] => simp
  | [c] => simp
  | c :: d :: l =>
    constructor
    · simp
    · split
      · simp
      · simp

theorem taken_newline {roots : List Bytes} {l r : Bytes} (hp : ∀ p ∈ roots, (0x0a : UInt8) ∉ p) (hl : (0x0a : UInt8) ∉ l) :
    taken roots (l ++ 0x0a :: r) = taken roots l ∧ taken roots l ≤ l.length := by
  obtain ⟨h1, h2⟩ := rootLength_newline (roots := roots) (r := r) hp hl
  unfold taken
  rw [h1, List.drop_append_of_le_length h2]
  obtain ⟨h3, h4⟩ := dotLength_newline (l := l.drop (rootLength roots l)) (r := r)
  rw [h3]
  refine ⟨rfl, ?_⟩
  rw [List.length_drop] at h4
  omega

theorem joined_cons (a b : Bytes) (ls : List Bytes) : joined (a :: b :: ls) = a ++ 0x0a :: joined (b :: ls) := by
  simp [joined]

/-- Behind the first line. -/
theorem replace_lines (roots : List Bytes) (hq : ∀ p ∈ roots, (0x2b : UInt8) ∉ p) (hp : ∀ p ∈ roots, (0x0a : UInt8) ∉ p) (ls : List Bytes) (hls : ∀ l ∈ ls, (0x0a : UInt8) ∉ l)
    (n : Nat) (hn : ls.length ≤ n) (s : Pos) (h : s.left ≠ []) (first : Bytes) (hf : (0x0a : UInt8) ∉ first) (e : s.rest = joined (first :: ls)) :
    replaceFrom (fixPathsRe roots) n false s = joined (first :: ls.map fun l => l.drop (taken roots l)) := by
  induction ls generalizing n s first with
  | nil =>
    have : s.rest = first := e
    rw [replace_last roots hq n s h (by rw [this]; exact hf), this]
    rfl
  | cons l ls ih =>
    cases n with
    | zero => simp at hn
    | succ n =>
      have hl := hls l (by simp)
      have e' : s.rest = first ++ 0x0a :: joined (l :: ls) := by rw [e, joined_cons]
      rw [replace_inside roots hq n s h first _ hf e']
      have ht : taken roots (joined (l :: ls)) = taken roots l ∧ (joined (l :: ls)).drop (taken roots l) = joined (l.drop (taken roots l) :: ls) := by
        cases ls with
        | nil => exact ⟨rfl, rfl⟩
        | cons l' ls =>
          have e3 : joined (l :: l' :: ls) = l ++ 0x0a :: joined (l' :: ls) := joined_cons _ _ _
          obtain ⟨h1, h2⟩ := taken_newline (roots := roots) (l := l) (r := joined (l' :: ls)) hp hl
          rw [e3, h1, List.drop_append_of_le_length h2]
          exact ⟨rfl, (joined_cons _ _ _).symm⟩
      have hd : (0x0a : UInt8) ∉ l.drop (taken roots l) := fun h => hl (List.mem_of_mem_drop h)
      rw [ih (fun x hx => hls x (by simp [hx])) n (by simpa using hn) _ (by simp [skip]) (l.drop (taken roots l)) hd (by
        rw [ht.1]
        exact ht.2)]
      rw [List.map_cons, joined_cons]
      simp

/-- A text is its lines. -/
theorem joined_head (l : Bytes) (ls : List Bytes) : ∃ r, joined (l :: ls) = l ++ r ∧ (r = [] ∧ ls = [] ∨ ∃ l' ls', ls = l' :: ls' ∧ r = 0x0a :: joined (l' :: ls')) := by
  cases ls with
  | nil => exact ⟨[], by simp [joined], Or.inl ⟨rfl, rfl⟩⟩
  | cons l' ls' => exact ⟨_, joined_cons _ _ _, Or.inr ⟨l', ls', rfl, rfl⟩⟩

theorem length_joined (ls : List Bytes) : ls.length ≤ (joined ls).length + 1 := by
  induction ls with
  | nil => simp
  | cons l ls ih =>
    cases ls with
    | nil => simp
    | cons l' ls => rw [joined_cons]; simp at ih ⊢; omega

/-- The whole text. -/
theorem canon_eq (roots : List Bytes) (hq : ∀ p ∈ roots, (0x2b : UInt8) ∉ p) (hp : ∀ p ∈ roots, (0x0a : UInt8) ∉ p) (ls : List Bytes) (hls : ∀ l ∈ ls, (0x0a : UInt8) ∉ l) :
    canon roots (joined ls) = joined (ls.map fun l => l.drop (taken roots l)) := by
  cases ls with
  | nil =>
    show canon roots [] = []
    unfold canon replaceAll
    obtain ⟨l, h1, _⟩ := ways_begin roots hq []
    have h0 : taken roots [] = 0 := by
      have := (taken_newline (l := []) (r := []) hp (by simp)).2
      simpa using this
    rw [h0, skip_zero] at h1
    rw [replaceFrom]
    simp only [Bool.false_eq_true, if_false]
    rw [search_hit _ (by rw [h1]; rfl)]
    simp only [BEq.rfl, List.length_nil, Nat.sub_self, List.take_zero, List.nil_append]
    rw [replaceFrom]
    simp only [if_true, List.length_nil, Nat.not_lt_zero, decide_false]
    rw [List.filter_eq_nil_iff.2 (by simp)]
    rfl
  | cons l ls =>
    have hl := hls l (by simp)
    obtain ⟨k, h1, h2⟩ := ways_begin roots hq (joined (l :: ls))
    have ht : taken roots (joined (l :: ls)) = taken roots l ∧ (joined (l :: ls)).drop (taken roots l) = joined (l.drop (taken roots l) :: ls) ∧ taken roots l ≤ l.length := by
      cases ls with
      | nil => exact ⟨rfl, rfl, (taken_newline (r := []) hp hl).2⟩
      | cons l' ls =>
        obtain ⟨g1, g2⟩ := taken_newline (roots := roots) (l := l) (r := joined (l' :: ls)) hp hl
        rw [joined_cons, g1, List.drop_append_of_le_length g2]
        exact ⟨rfl, (joined_cons _ _ _).symm, g2⟩
    have hlen := length_joined (l :: ls)
    rw [List.length_cons] at hlen
    rw [ht.1] at h1 h2
    unfold canon replaceAll
    rw [replaceFrom]
    simp only [Bool.false_eq_true, if_false]
    rw [search_hit _ (by rw [h1]; rfl)]
    simp only [Nat.sub_self, List.take_zero, List.nil_append]
    have hg : (skip ⟨[], joined (l :: ls), []⟩ (taken roots l)).group = [] := rfl
    rw [hg, List.nil_append]
    by_cases hz : taken roots l = 0
    · -- nothing to remove from the first line
      have hb : ((joined (l :: ls)).length == (skip ⟨[], joined (l :: ls), []⟩ (taken roots l)).rest.length) = true := by
        rw [hz, skip_zero]; simp
      rw [hb, hz, skip_zero, List.map_cons, hz, List.drop_zero]
      obtain ⟨k1, k2⟩ := h2 hz
      rw [hz, skip_zero] at h1
      rw [replaceFrom]
      simp only [if_true]
      rw [h1]
      have hself : ((⟨[], joined (l :: ls), []⟩ : Pos) :: k).filter (fun t => decide (t.rest.length < (joined (l :: ls)).length)) = k.filter fun t => decide (t.rest.length < (joined (l :: ls)).length) := by
        rw [List.filter_cons]; simp
      rw [hself]
      obtain ⟨n, hn⟩ : ∃ n, 2 * (joined (l :: ls)).length = n ∧ ls.length ≤ n := ⟨_, rfl, by omega⟩
      rw [hn.1]
      by_cases hl0 : l = []
      · subst hl0
        cases ls with
        | nil =>
          rw [k2 (by intro r; simp [joined])]
          simp [joined]
        | cons l' ls =>
          have e : joined ([] :: l' :: ls) = 0x0a :: joined (l' :: ls) := by rw [joined_cons]; rfl
          obtain ⟨k', hk⟩ := k1 _ e
          have hl' := hls l' (by simp)
          have ht' : taken roots (joined (l' :: ls)) = taken roots l' ∧ (joined (l' :: ls)).drop (taken roots l') = joined (l'.drop (taken roots l') :: ls) := by
            cases ls with
            | nil => exact ⟨rfl, rfl⟩
            | cons l'' ls =>
              obtain ⟨g1, g2⟩ := taken_newline (roots := roots) (l := l') (r := joined (l'' :: ls)) hp hl'
              rw [joined_cons, g1, List.drop_append_of_le_length g2]
              exact ⟨rfl, (joined_cons _ _ _).symm⟩
          rw [hk, List.filter_cons, if_pos (by rw [e]; simp [skip]; omega), List.head?_cons]
          simp only
          have hg : (skip ⟨[0x0a], joined (l' :: ls), [0x0a]⟩ (taken roots (joined (l' :: ls)))).group = [0x0a] := rfl
          rw [hg, replace_lines roots hq hp ls (fun x hx => hls x (by simp [hx])) n (by have := hn.2; simp at this; omega) _ (by simp [skip])
            (l'.drop (taken roots l')) (fun h => hl' (List.mem_of_mem_drop h)) (by
              rw [ht'.1]
              exact ht'.2)]
          rw [List.map_cons, joined_cons]
          simp
      · obtain ⟨c, l1, rfl⟩ := List.exists_cons_of_ne_nil hl0
        obtain ⟨r, er, _⟩ := joined_head (c :: l1) ls
        have hc : c ≠ 0x0a := fun h => hl (by rw [h]; simp)
        rw [k2 (by intro r' e; rw [er] at e; simp at e; exact hc e.1)]
        simp only [List.filter_nil, List.head?_nil]
        -- from the next character on
        have e1 : ∃ l2, joined ((c :: l1) :: ls) = c :: joined (l1 :: ls) ∧ l2 = l1 := by
          cases ls with
          | nil => exact ⟨_, rfl, rfl⟩
          | cons l' ls => exact ⟨_, by rw [joined_cons, joined_cons]; rfl, rfl⟩
        obtain ⟨_, e1, _⟩ := e1
        have hcl : ∀ m, joined ((c :: l1) :: m) = c :: joined (l1 :: m) := fun m => by
          cases m with
          | nil => rfl
          | cons l' ls => rw [joined_cons, joined_cons]; rfl
        rw [e1]
        simp only
        have hl1 : (0x0a : UInt8) ∉ l1 := fun h => hl (by simp [h])
        cases ls with
        | nil =>
          rw [search_no_newline roots hq _ ⟨[c], joined [l1], []⟩ (by simp) hl1]
          rfl
        | cons l' ls =>
          rw [search_newline roots hq _ ⟨[c], joined (l1 :: l' :: ls), []⟩ (by simp) (Nat.le_refl _) l1 (joined (l' :: ls)) hl1 (joined_cons _ _ _)]
          have hl' := hls l' (by simp)
          have ht' : taken roots (joined (l' :: ls)) = taken roots l' ∧ (joined (l' :: ls)).drop (taken roots l') = joined (l'.drop (taken roots l') :: ls) := by
            cases ls with
            | nil => exact ⟨rfl, rfl⟩
            | cons l'' ls =>
              obtain ⟨g1, g2⟩ := taken_newline (roots := roots) (l := l') (r := joined (l'' :: ls)) hp hl'
              rw [joined_cons, g1, List.drop_append_of_le_length g2]
              exact ⟨rfl, (joined_cons _ _ _).symm⟩
          simp only
          have hb' : ((0x0a :: joined (l' :: ls)).length == (skip ⟨0x0a :: (l1.reverse ++ [c]), joined (l' :: ls), [0x0a]⟩ (taken roots (joined (l' :: ls)))).rest.length) = false := by
            simp [skip]; omega
          rw [hb']
          have hg : (skip ⟨0x0a :: (l1.reverse ++ [c]), joined (l' :: ls), [0x0a]⟩ (taken roots (joined (l' :: ls)))).group = [0x0a] := rfl
          rw [hg, replace_lines roots hq hp ls (fun x hx => hls x (by simp [hx])) n (by have := hn.2; simp at this; omega) _ (by simp [skip])
            (l'.drop (taken roots l')) (fun h => hl' (List.mem_of_mem_drop h)) (by
              rw [ht'.1]
              exact ht'.2)]
          rw [List.map_cons, joined_cons, joined_cons]
          simp
          have : (c :: (l1 ++ 0x0a :: joined (l' :: ls))).take (l1.length + 1) = c :: l1 := by simp
          rw [show l1.length + ((joined (l' :: ls)).length + 1) - (joined (l' :: ls)).length = l1.length + 1 by omega, this]
          simp
    · have hb : ((joined (l :: ls)).length == (skip ⟨[], joined (l :: ls), []⟩ (taken roots l)).rest.length) = false := by
        obtain ⟨r, er, _⟩ := joined_head l ls
        have := congrArg List.length er
        simp [skip] at this ⊢
        omega
      rw [hb]
      refine replace_lines roots hq hp ls (fun x hx => hls x (by simp [hx])) _ (by omega) _ ?_ _ (fun h => hl (List.mem_of_mem_drop h)) ht.2.1
      obtain ⟨r, er, _⟩ := joined_head l ls
      have h3 := ht.2.2
      have h4 := congrArg List.length er
      rw [List.length_append] at h4
      intro h
      have h5 := congrArg List.length h
      simp [skip] at h5
      rcases h5 with h5 | h5
      · exact hz h5
      · rw [h5, List.length_nil] at h4
        omega

end Verif.Tidy
