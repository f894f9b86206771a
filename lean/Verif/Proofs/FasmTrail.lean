import Verif.Proofs.FasmTotal4
import Verif.Spec.Trailing
/-! # Lines with blanks, a comment or a carriage return at the end -/
namespace Verif.Fasm
open Verif.Spec

/-- A comment or a carriage return and what follows, or nothing. -/
def Tail (e : Bytes) : Prop := e = [] ∨ e.head? = some chHash ∨ e.head? = some chCr

/-- What is left of a line, and of the same line with the trailer; at the very end the two may coincide. -/
def V (e a b : Bytes) : Prop := (∃ g, Blank g ∧ b = a ++ (g ++ e)) ∨ (a = [] ∧ b = [])

/-- The same behind blanks. -/
def K (e a b : Bytes) : Prop := (a = [] ∧ (b = e ∨ b = [])) ∨ (a ≠ [] ∧ V e a b)

/-- Characters a trailer can begin with, and the newline. -/
def Neutral (c : UInt8) : Prop := c = chNl ∨ c = chHash ∨ c = chCr ∨ c = chSpace ∨ c = chTab

theorem neutral_trailer {g e : Bytes} (hg : Blank g) (he : Tail e) : Neutral (hd (g ++ e)) := by
  cases g with
  | nil =>
    rcases he with rfl | h | h
    · exact Or.inl rfl
    · cases e with
      | nil => cases h
      | cons c e => cases h; exact Or.inr (Or.inl rfl)
    · cases e with
      | nil => cases h
      | cons c e => cases h; exact Or.inr (Or.inr (Or.inl rfl))
  | cons c g =>
    rcases hg c List.mem_cons_self with h | h
    · exact Or.inr (Or.inr (Or.inr (Or.inl h)))
    · exact Or.inr (Or.inr (Or.inr (Or.inr h)))

theorem V.neutral {e b : Bytes} (he : Tail e) (h : V e [] b) : Neutral (hd b) := by
  rcases h with ⟨g, hg, rfl⟩ | ⟨_, rfl⟩
  · exact neutral_trailer (g := g) hg he
  · exact Or.inl rfl

theorem V.hd_eq {e a b : Bytes} (h : V e a b) (ha : a ≠ []) : hd b = hd a := by
  rcases h with ⟨g, hg, rfl⟩ | ⟨rfl, _⟩
  · cases a with
    | nil => exact absurd rfl ha
    | cons c a => rfl
  · exact absurd rfl ha

theorem V.hd_iff {e a b : Bytes} (he : Tail e) (h : V e a b) {c : UInt8} (hc : ¬ Neutral c) : hd b = c ↔ hd a = c := by
  by_cases ha : a = []
  · subst ha
    constructor
    · intro h'; exact absurd (h' ▸ h.neutral he) hc
    · intro h'; exact absurd (h' ▸ Or.inl rfl) hc
  · rw [h.hd_eq ha]

theorem V.tail {e a b : Bytes} (h : V e a b) (ha : a ≠ []) : V e a.tail b.tail := by
  rcases h with ⟨g, hg, rfl⟩ | ⟨rfl, _⟩
  · cases a with
    | nil => exact absurd rfl ha
    | cons c a => exact Or.inl ⟨g, hg, rfl⟩
  · exact absurd rfl ha

theorem K.v {e a b : Bytes} (h : K e a b) : V e a b := by
  rcases h with ⟨rfl, rfl | rfl⟩ | ⟨_, h⟩
  · exact Or.inl ⟨[], (by intro c hc; cases hc), rfl⟩
  · exact Or.inr ⟨rfl, rfl⟩
  · exact h

theorem dropBlank_trailer (g e : Bytes) (hg : Blank g) (he : Tail e) : (g ++ e).dropWhile isBlank = e := by
  refine dropBlank g e hg ?_
  rcases he with rfl | h | h
  · rfl
  · cases e with
    | nil => rfl
    | cons c e => cases h; rfl
  · cases e with
    | nil => rfl
    | cons c e => cases h; rfl

/-- Scanning past characters a trailer cannot begin with. -/
theorem V.scan {e a b : Bytes} (he : Tail e) (h : V e a b) (p : UInt8 → Bool) (hp : ∀ c, Neutral c → p c = false) :
    b.takeWhile p = a.takeWhile p ∧ V e (a.dropWhile p) (b.dropWhile p) := by
  rcases h with ⟨g, hg, rfl⟩ | ⟨rfl, rfl⟩
  · induction a with
    | nil =>
      have hn := hp _ (neutral_trailer hg he)
      simp only [List.nil_append, List.takeWhile_nil, List.dropWhile_nil]
      cases hge : g ++ e with
      | nil => exact ⟨rfl, Or.inr ⟨rfl, rfl⟩⟩
      | cons c r =>
        rw [hge] at hn
        have hn : p c = false := hn
        simp only [List.takeWhile_cons, List.dropWhile_cons, hn, Bool.false_eq_true, if_false, true_and]
        exact Or.inl ⟨g, hg, hge.symm⟩
    | cons c a ih =>
      simp only [List.cons_append, List.takeWhile_cons, List.dropWhile_cons]
      cases hc : p c with
      | true => simp only [if_true]; exact ⟨by rw [ih.1], ih.2⟩
      | false => simp only [Bool.false_eq_true, if_false, true_and]; exact Or.inl ⟨g, hg, rfl⟩
  · exact ⟨rfl, Or.inr ⟨rfl, rfl⟩⟩

theorem V.blank {e a b : Bytes} (he : Tail e) (h : V e a b) : K e (a.dropWhile isBlank) (b.dropWhile isBlank) := by
  rcases h with ⟨g, hg, rfl⟩ | ⟨rfl, rfl⟩
  · induction a with
    | nil => exact Or.inl ⟨rfl, Or.inl (dropBlank_trailer g e hg he)⟩
    | cons c a ih =>
      simp only [List.cons_append, List.dropWhile_cons]
      cases hc : isBlank c with
      | true => simp only [if_true]; exact ih
      | false =>
        simp only [Bool.false_eq_true, if_false]
        exact Or.inr ⟨by simp, Or.inl ⟨g, hg, rfl⟩⟩
  · exact Or.inl ⟨rfl, Or.inr rfl⟩

theorem neutral_ident (c : UInt8) (h : Neutral c) : isIdent c = false := by
  rcases h with rfl | rfl | rfl | rfl | rfl <;> decide

theorem neutral_digit (c : UInt8) (h : Neutral c) : digitOf c = 99 := by
  rcases h with rfl | rfl | rfl | rfl | rfl <;> decide

theorem neutral_dig (base : Nat) (hb : base ≤ 16) (c : UInt8) (h : Neutral c) : isDig base c = false := by
  have := neutral_digit c h
  simp only [isDig, this, decide_eq_false_iff_not]
  omega

theorem numP_trail {e a b : Bytes} (he : Tail e) (h : V e a b) (base bits : Nat) (hb : base ≤ 16) :
    (numP base bits b).1 = (numP base bits a).1 ∧ V e (numP base bits a).2 (numP base bits b).2 := by
  have h1 := (h.blank he).v.scan he (isDig base) (neutral_dig base hb)
  unfold numP
  dsimp only
  rw [h1.1]
  exact ⟨rfl, h1.2⟩

theorem longP_trail {e a b : Bytes} (he : Tail e) (h : V e a b) (l2 : Nat) (hb : 2 ^ l2 ≤ 16) :
    (longP l2 b).1 = (longP l2 a).1 ∧ V e (longP l2 a).2 (longP l2 b).2 := by
  have h1 := (h.blank he).v.scan he (isDig (2 ^ l2)) (neutral_dig _ hb)
  unfold longP
  dsimp only
  rw [h1.1]
  exact ⟨rfl, h1.2⟩

theorem not_neutral_special : ¬ Neutral chColon ∧ ¬ Neutral chLBrack ∧ ¬ Neutral chRBrack ∧ ¬ Neutral chEq ∧ ¬ Neutral chTick ∧
    ¬ Neutral chLBrace ∧ ¬ Neutral chRBrace ∧ ¬ Neutral chComma ∧ ¬ Neutral chQuote := by
  unfold Neutral; decide

theorem rangeMinP_trail {e a b : Bytes} (he : Tail e) (h : V e a b) (m : Nat) :
    (rangeMinP m b).1 = (rangeMinP m a).1 ∧ V e (rangeMinP m a).2 (rangeMinP m b).2 := by
  unfold rangeMinP
  have hc := h.hd_iff he not_neutral_special.1
  by_cases h1 : hd a = chColon
  · rw [if_pos (hc.2 h1), if_pos h1]
    have h2 := numP_trail he (h.tail (ne_nil_of_hd h1 (by decide))) 10 16 (by decide)
    exact ⟨h2.1, (h2.2.blank he).v⟩
  · rw [if_neg (fun h' => h1 (hc.1 h')), if_neg h1]
    exact ⟨rfl, h⟩

theorem rangeP_trail {e a b : Bytes} (he : Tail e) (h : V e a b) :
    (rangeP b).1 = (rangeP a).1 ∧ V e (rangeP a).2 (rangeP b).2 := by
  unfold rangeP
  have hc := h.hd_iff he not_neutral_special.2.1
  by_cases h1 : hd a = chLBrack
  · rw [if_pos (hc.2 h1), if_pos h1]
    have h2 := numP_trail he (h.tail (ne_nil_of_hd h1 (by decide))) 10 16 (by decide)
    have h3 := rangeMinP_trail he (h2.2.blank he).v (numP 10 16 a.tail).1
    dsimp only
    rw [h2.1]
    have hc := h3.2.hd_iff he not_neutral_special.2.2.1
    by_cases h4 : hd (rangeMinP (numP 10 16 a.tail).1 ((numP 10 16 a.tail).2.dropWhile isBlank)).2 = chRBrack
    · rw [if_neg (c := _ ≠ chRBrack) (fun h' => h' (hc.2 h4)), if_neg (c := _ ≠ chRBrack) (fun h' => h' h4), h3.1]
      have h5 := h3.2.tail (ne_nil_of_hd h4 (by decide))
      split
      · exact ⟨rfl, h5⟩
      · exact ⟨rfl, h5⟩
    · rw [if_pos (fun h' => h4 (hc.1 h')), if_pos h4]
      exact ⟨rfl, h3.2⟩
  · rw [if_neg (fun h' => h1 (hc.1 h')), if_neg h1]
    exact ⟨rfl, h⟩

theorem leadP_trail {e a b : Bytes} (he : Tail e) (h : V e a b) :
    (leadP b).1 = (leadP a).1 ∧ V e (leadP a).2 (leadP b).2 := by
  unfold leadP
  by_cases ha : a = []
  · subst ha
    rw [if_neg (by rw [neutral_digit _ (h.neutral he)]; decide), if_neg (by decide)]
    exact ⟨rfl, h⟩
  · rw [h.hd_eq ha]
    split
    · exact numP_trail he h 10 64 (by decide)
    · exact ⟨rfl, h⟩

theorem valueP_trail {e a b : Bytes} (he : Tail e) (h : V e a b) (st : St) (line : Nat) (f : UInt8) :
    (valueP st line f b).1 = (valueP st line f a).1 ∧ (valueP st line f b).2.1 = (valueP st line f a).2.1 ∧
      V e (valueP st line f a).2.2 (valueP st line f b).2.2 := by
  unfold valueP
  split
  · have := longP_trail he h 4 (by decide); exact ⟨rfl, this.1, this.2⟩
  · split
    · have := longP_trail he h 1 (by decide); exact ⟨rfl, this.1, this.2⟩
    · split
      · have := numP_trail he h 8 64 (by decide); exact ⟨rfl, by rw [this.1], this.2⟩
      · split
        · have := numP_trail he h 10 64 (by decide); exact ⟨rfl, by rw [this.1], this.2⟩
        · exact ⟨rfl, rfl, Or.inr ⟨rfl, rfl⟩⟩

theorem tickedP_trail {e a b : Bytes} (he : Tail e) (h : V e a b) (hne : a.dropWhile isBlank ≠ []) (st : St) (line w d : Nat) :
    (tickedP st line w d b).1 = (tickedP st line w d a).1 ∧ (tickedP st line w d b).2.1 = (tickedP st line w d a).2.1 ∧
      (tickedP st line w d b).2.2.1 = (tickedP st line w d a).2.2.1 ∧
      K e (tickedP st line w d a).2.2.2 (tickedP st line w d b).2.2.2 := by
  unfold tickedP
  dsimp only
  have h1 := (h.blank he).v
  rw [h1.hd_eq hne]
  have h2 := valueP_trail he (h1.tail hne) (clampWidth (if d > w then st.report line .nonCritical else st) line w
    (hd (a.dropWhile isBlank) = 0x64 ∨ hd (a.dropWhile isBlank) = 0x6f)).1 line (hd (a.dropWhile isBlank))
  exact ⟨h2.1, rfl, h2.2.1, h2.2.2.blank he⟩

theorem assignP_trail {e a b : Bytes} (he : Tail e) (h : K e a b) (hd' : ¬ AssignDangles a) (st : St) (line mx mn : Nat) :
    (assignP st line mx mn b).1 = (assignP st line mx mn a).1 ∧ (assignP st line mx mn b).2.1 = (assignP st line mx mn a).2.1 ∧
      (assignP st line mx mn b).2.2.1 = (assignP st line mx mn a).2.2.1 ∧
      K e (assignP st line mx mn a).2.2.2 (assignP st line mx mn b).2.2.2 := by
  unfold assignP
  dsimp only
  have hc := h.v.hd_iff he not_neutral_special.2.2.2.1
  by_cases h1 : hd a = chEq
  · rw [if_pos (hc.2 h1), if_pos h1]
    have h2 := leadP_trail he ((h.v.tail (ne_nil_of_hd h1 (by decide))).blank he).v
    have h3 := h2.2.blank he
    rw [h2.1]
    have hc := h3.v.hd_iff he not_neutral_special.2.2.2.2.1
    by_cases h4 : hd ((leadP (a.tail.dropWhile isBlank)).2.dropWhile isBlank) = chTick
    · rw [if_pos (hc.2 h4), if_pos h4]
      exact tickedP_trail he (h3.v.tail (ne_nil_of_hd h4 (by decide))) (fun hn => hd' ⟨h1, h4, hn⟩) _ _ _ _
    · rw [if_neg (fun h' => h4 (hc.1 h')), if_neg h4]
      exact ⟨rfl, rfl, rfl, h3⟩
  · rw [if_neg (fun h' => h1 (hc.1 h')), if_neg h1]
    exact ⟨rfl, rfl, rfl, h⟩

/-! ## Annotations -/

theorem quotedP_none : ∀ s : Bytes, chQuote ∉ s → ∀ prev, (quotedP prev s).2 = [] := by
  intro s
  induction s with
  | nil => intro _ _; rfl
  | cons c s ih =>
    intro h prev
    have hc : c ≠ chQuote := by rintro rfl; exact h List.mem_cons_self
    rw [quotedP, if_neg (fun h' => hc h'.1)]
    exact ih (fun h' => h (List.mem_cons_of_mem _ h')) c

theorem blank_no_quote {g : Bytes} (hg : Blank g) : chQuote ∉ g := by
  intro h
  rcases hg _ h with h | h <;> exact absurd h (by decide)

theorem quotedP_trail {e : Bytes} : ∀ (a b : Bytes) (prev : UInt8), V e a b →
    ((quotedP prev a).2 ≠ [] → (quotedP prev b).1 = (quotedP prev a).1 ∧ (quotedP prev b).2 ≠ [] ∧ V e (quotedP prev a).2 (quotedP prev b).2) ∧
    ((quotedP prev a).2 = [] → chQuote ∉ e → (quotedP prev b).2 = []) := by
  intro a
  induction a with
  | nil =>
    intro b prev h
    refine ⟨fun h' => absurd rfl h', fun _ hq => ?_⟩
    rcases h with ⟨g, hg, rfl⟩ | ⟨_, rfl⟩
    · refine quotedP_none _ ?_ prev
      simp only [List.nil_append, List.mem_append, not_or]
      exact ⟨blank_no_quote hg, hq⟩
    · rfl
  | cons c a ih =>
    intro b prev h
    rcases h with ⟨g, hg, rfl⟩ | ⟨h, _⟩
    · simp only [List.cons_append, quotedP]
      by_cases hc : c = chQuote ∧ prev ≠ chBackslash
      · simp only [if_pos hc]
        exact ⟨fun _ => ⟨trivial, by simp, Or.inl ⟨g, hg, rfl⟩⟩, fun h' => absurd h' (by simp)⟩
      · simp only [if_neg hc]
        obtain ⟨i1, i2⟩ := ih (a ++ (g ++ e)) c (Or.inl ⟨g, hg, rfl⟩)
        exact ⟨fun h' => ⟨by rw [(i1 h').1], (i1 h').2⟩, i2⟩
    · cases h

/-- Same state, or the line is wrong and the trailer has a quote. -/
def AnnRel (e : Bytes) (x y : St × Bytes) : Prop :=
  (y.1 = x.1 ∧ V e x.2 y.2) ∨ (chQuote ∈ e ∧ x.1.result = .error)

theorem report_error (st : St) (line : Nat) : (st.report line .error).result = .error := by
  unfold St.report
  show Sev.max st.result .error = .error
  cases st.result <;> rfl

theorem dropWhile_length_le (p : UInt8 → Bool) (s : Bytes) : (s.dropWhile p).length ≤ s.length := by
  have := (List.dropWhile_suffix p (l := s)).length_le
  exact this

theorem quotedP_length : ∀ (s : Bytes) (prev : UInt8), (quotedP prev s).2.length ≤ s.length := by
  intro s
  induction s with
  | nil => intro prev; exact Nat.le_refl _
  | cons c s ih =>
    intro prev
    rw [quotedP]
    split
    · exact Nat.le_refl _
    · exact Nat.le_succ_of_le (ih c)

theorem annP_trail {e : Bytes} (he : Tail e) (line : Nat) (feature : Bytes) : ∀ (n m : Nat) (st : St) (a b : Bytes), V e a b → a ≠ [] →
    a.length < n → b.length < m → AnnRel e (annP line feature n st a) (annP line feature m st b) := by
  intro n
  induction n with
  | zero => intro m st a b _ _ h; omega
  | succ n ih =>
    intro m st a b h hne hn hm
    cases m with
    | zero => omega
    | succ m =>
      unfold annP
      have h1 := ((h.tail hne).blank he).v
      have h2 := h1.scan he isIdent neutral_ident
      have h3 := (h2.2.blank he).v
      dsimp only
      have hla : (((a.tail.dropWhile isBlank).dropWhile isIdent).dropWhile isBlank).length < a.length := by
        have := dropWhile_length_le isBlank ((a.tail.dropWhile isBlank).dropWhile isIdent)
        have := dropWhile_length_le isIdent (a.tail.dropWhile isBlank)
        have := dropWhile_length_le isBlank a.tail
        have : a.tail.length < a.length := by cases a with | nil => exact absurd rfl hne | cons c a => exact Nat.lt_succ_self _
        omega
      have hlb : (((b.tail.dropWhile isBlank).dropWhile isIdent).dropWhile isBlank).length ≤ b.length := by
        have := dropWhile_length_le isBlank ((b.tail.dropWhile isBlank).dropWhile isIdent)
        have := dropWhile_length_le isIdent (b.tail.dropWhile isBlank)
        have := dropWhile_length_le isBlank b.tail
        have : b.tail.length ≤ b.length := by rw [List.length_tail]; omega
        omega
      rw [h2.1]
      generalize ((a.tail.dropWhile isBlank).dropWhile isIdent).dropWhile isBlank = a1 at h3 hla ⊢
      generalize ((b.tail.dropWhile isBlank).dropWhile isIdent).dropWhile isBlank = b1 at h3 hlb ⊢
      have hc := h3.hd_iff he not_neutral_special.2.2.2.1
      by_cases h4 : hd a1 = chEq
      · rw [if_neg (c := hd a1 ≠ chEq) (fun h' => h' h4), if_neg (c := hd b1 ≠ chEq) (fun h' => h' (hc.2 h4))]
        have h5 := ((h3.tail (ne_nil_of_hd h4 (by decide))).blank he).v
        have hla2 : (a1.tail.dropWhile isBlank).length ≤ a1.length := by
          have := dropWhile_length_le isBlank a1.tail
          rw [List.length_tail] at this; omega
        have hlb2 : (b1.tail.dropWhile isBlank).length ≤ b1.length := by
          have := dropWhile_length_le isBlank b1.tail
          rw [List.length_tail] at this; omega
        generalize a1.tail.dropWhile isBlank = a2 at h5 hla2 ⊢
        generalize b1.tail.dropWhile isBlank = b2 at h5 hlb2 ⊢
        have hc := h5.hd_iff he not_neutral_special.2.2.2.2.2.2.2.2
        by_cases h6 : hd a2 = chQuote
        · rw [if_neg (c := hd a2 ≠ chQuote) (fun h' => h' h6), if_neg (c := hd b2 ≠ chQuote) (fun h' => h' (hc.2 h6))]
          obtain ⟨q1, q2⟩ := quotedP_trail _ _ chQuote (h5.tail (ne_nil_of_hd h6 (by decide)))
          have hlq := quotedP_length a2.tail chQuote
          have hlq' := quotedP_length b2.tail chQuote
          rw [List.length_tail] at hlq hlq'
          by_cases h7 : (quotedP chQuote a2.tail).2 = []
          · rw [if_pos h7]
            by_cases hq : chQuote ∈ e
            · exact Or.inr ⟨hq, report_error _ _⟩
            · rw [if_pos (q2 h7 hq), h7, q2 h7 hq]
              exact Or.inl ⟨rfl, Or.inr ⟨rfl, rfl⟩⟩
          · obtain ⟨q3, q4, q5⟩ := q1 h7
            rw [if_neg (c := (quotedP chQuote a2.tail).2 = []) h7, if_neg (c := (quotedP chQuote b2.tail).2 = []) q4, q3]
            have h8 := ((q5.tail h7).blank he).v
            have hl3 := dropWhile_length_le isBlank (quotedP chQuote a2.tail).2.tail
            have hl3' := dropWhile_length_le isBlank (quotedP chQuote b2.tail).2.tail
            rw [List.length_tail] at hl3 hl3'
            generalize (quotedP chQuote a2.tail).2.tail.dropWhile isBlank = a3 at h8 hl3 ⊢
            generalize (quotedP chQuote b2.tail).2.tail.dropWhile isBlank = b3 at h8 hl3' ⊢
            have hc := h8.hd_iff he not_neutral_special.2.2.2.2.2.2.2.1
            have hb1 : b1 ≠ [] := ne_nil_of_hd ((h3.hd_iff he not_neutral_special.2.2.2.1).2 h4) (by decide)
            by_cases h9 : hd a3 = chComma
            · rw [if_pos h9, if_pos (hc.2 h9)]
              have hb2 : b2 ≠ [] := ne_nil_of_hd ((h5.hd_iff he not_neutral_special.2.2.2.2.2.2.2.2).2 h6) (by decide)
              have : 0 < b2.length := List.length_pos_iff.2 hb2
              exact ih m _ a3 b3 h8 (ne_nil_of_hd h9 (by decide)) (by omega) (by omega)
            · rw [if_neg h9, if_neg (fun h' => h9 (hc.1 h'))]
              exact Or.inl ⟨rfl, h8⟩
        · rw [if_pos (c := hd a2 ≠ chQuote) h6, if_pos (c := hd b2 ≠ chQuote) (fun h' => h6 (hc.1 h'))]
          exact Or.inl ⟨rfl, h5⟩
      · rw [if_pos (c := hd a1 ≠ chEq) h4, if_pos (c := hd b1 ≠ chEq) (fun h' => h4 (hc.1 h'))]
        exact Or.inl ⟨rfl, h3⟩

/-! ## A whole line -/

/-- Same state, or the line is wrong and the trailer has a quote. -/
def EndRel (e : Bytes) (x y : St) : Prop := y = x ∨ (chQuote ∈ e ∧ x.result = .error)

theorem endP_trail {e a b : Bytes} (he : Tail e) (h : K e a b) (st : St) (line : Nat) : endP st line b = endP st line a := by
  unfold endP
  rcases h with ⟨rfl, rfl | rfl⟩ | ⟨ha, h⟩
  · rcases he with rfl | he | he
    · rfl
    · cases b with
      | nil => cases he
      | cons c b => cases he; rfl
    · cases b with
      | nil => cases he
      | cons c b => cases he; rfl
  · rfl
  · rw [h.hd_eq ha]
    have hb : b ≠ [] := by
      rcases h with ⟨g, hg, rfl⟩ | ⟨h, _⟩
      · simp [ha]
      · exact absurd h ha
    rw [if_pos (c := b ≠ []) hb, if_pos (c := a ≠ []) ha]

theorem annsP_trail {e a b : Bytes} (he : Tail e) (h : V e a b) (ha : a ≠ []) (ann : Bool) (st : St) (line : Nat) (feature : Bytes) :
    EndRel e (annsP ann st line feature a) (annsP ann st line feature b) := by
  unfold annsP
  cases ann with
  | false => exact Or.inl rfl
  | true =>
    simp only [if_true]
    rcases annP_trail he line feature (a.length + 1) (b.length + 1) st a b h ha (by omega) (by omega) with ⟨h1, h2⟩ | ⟨hq, h1⟩
    · have hc := h2.hd_iff he not_neutral_special.2.2.2.2.2.2.1
      rw [h1]
      by_cases h3 : hd (annP line feature (a.length + 1) st a).2 = chRBrace
      · rw [if_neg (fun h' => h' h3), if_neg (fun h' => h' (hc.2 h3))]; exact Or.inl rfl
      · rw [if_pos h3, if_pos (fun h' => h3 (hc.1 h'))]; exact Or.inl rfl
    · refine Or.inr ⟨hq, ?_⟩
      split
      · exact report_error _ _
      · exact h1

theorem tailP_trail {e a b : Bytes} (he : Tail e) (h : K e a b) (ann : Bool) (st : St) (line : Nat) (feature : Bytes) :
    EndRel e (tailP ann st line feature a) (tailP ann st line feature b) := by
  unfold tailP
  have hc := h.v.hd_iff he not_neutral_special.2.2.2.2.2.1
  by_cases h1 : hd a = chLBrace
  · rw [if_pos h1, if_pos (hc.2 h1)]
    exact annsP_trail he h.v (ne_nil_of_hd h1 (by decide)) ann st line feature
  · rw [if_neg h1, if_neg (fun h' => h1 (hc.1 h'))]
    exact Or.inl (endP_trail he h st line)

/-- Outcomes. -/
def ResRel (e : Bytes) (x y : Res St) : Prop := y = x ∨ (chQuote ∈ e ∧ ∃ st, x = .ok st ∧ st.result = .error)

theorem lineP_trail {e : Bytes} (he : Tail e) (g l : Bytes) (hg : Blank g) (hl : ¬ LineDangles l) (ann : Bool) (cb : List Event → Bool)
    (st : St) (line : Nat) : ResRel e (lineP ann cb st line l) (lineP ann cb st line (l ++ (g ++ e))) := by
  have h0 : V e l (l ++ (g ++ e)) := Or.inl ⟨g, hg, rfl⟩
  have h1 := (h0.blank he).v.scan he isIdent neutral_ident
  have h2 := h1.2.blank he
  rw [lineP_body, lineP_body, h1.1]
  unfold LineDangles at hl
  generalize (l.dropWhile isBlank).takeWhile isIdent = feature at hl ⊢
  generalize ((l.dropWhile isBlank).dropWhile isIdent).dropWhile isBlank = a at h2 hl ⊢
  generalize (((l ++ (g ++ e)).dropWhile isBlank).dropWhile isIdent).dropWhile isBlank = b at h2 ⊢
  unfold bodyP
  by_cases hf : feature.isEmpty
  · rw [if_pos hf, if_pos hf]
    rcases tailP_trail he h2 ann st line feature with h | ⟨h, h'⟩
    · exact Or.inl (by rw [h])
    · exact Or.inr ⟨h, _, rfl, h'⟩
  · rw [if_neg hf, if_neg hf]
    have h3 := rangeP_trail he h2.v
    rw [h3.1]
    cases hr : (rangeP a).1 with
    | noBracket => exact Or.inl rfl
    | inverted => exact Or.inl rfl
    | bits mx mn =>
      dsimp only
      have hnd : ¬ AssignDangles ((rangeP a).2.dropWhile isBlank) := fun h =>
        hl ⟨by intro h'; rw [h'] at hf; exact hf rfl, mx, mn, hr, h⟩
      obtain ⟨h4, h5, h6, h7⟩ := assignP_trail he (h3.2.blank he) hnd st line mx mn
      rw [h4, h5, h6]
      cases reportChunks cb line feature mn (assignP st line mx mn ((rangeP a).2.dropWhile isBlank)).2.1
        (assignP st line mx mn ((rangeP a).2.dropWhile isBlank)).2.2.1.length 0
        (assignP st line mx mn ((rangeP a).2.dropWhile isBlank)).2.2.1 (assignP st line mx mn ((rangeP a).2.dropWhile isBlank)).1 with
      | oob => exact Or.inl rfl
      | shift => exact Or.inl rfl
      | ok st' =>
        simp only [Res.bind]
        rcases tailP_trail he h7 ann st' line feature with h | ⟨h, h'⟩
        · exact Or.inl (by rw [h])
        · exact Or.inr ⟨h, _, rfl, h'⟩

/-! ## Lines that stop after a tick -/

theorem K.nil {e a : Bytes} (h : K e a []) : a = [] := by
  rcases h with ⟨h, _⟩ | ⟨ha, ⟨g, _, h⟩ | ⟨h, _⟩⟩
  · exact h
  · cases a with
    | nil => rfl
    | cons c a => cases h
  · exact h

theorem assign_dangles_trail {e a b : Bytes} (he : Tail e) (h : K e a b) (hb : AssignDangles b) : AssignDangles a := by
  obtain ⟨h1, h2, h3⟩ := hb
  have h1' := (h.v.hd_iff he not_neutral_special.2.2.2.1).1 h1
  have l2 := leadP_trail he ((h.v.tail (ne_nil_of_hd h1' (by decide))).blank he).v
  have l3 := (l2.2.blank he).v
  have h2' := (l3.hd_iff he not_neutral_special.2.2.2.2.1).1 h2
  have l4 := (l3.tail (ne_nil_of_hd h2' (by decide))).blank he
  rw [h3] at l4
  exact ⟨h1', h2', l4.nil⟩

theorem line_dangles_trail {e : Bytes} (he : Tail e) (g l : Bytes) (hg : Blank g) (h : LineDangles (l ++ (g ++ e))) : LineDangles l := by
  have h0 : V e l (l ++ (g ++ e)) := Or.inl ⟨g, hg, rfl⟩
  have h1 := (h0.blank he).v.scan he isIdent neutral_ident
  have h2 := h1.2.blank he
  obtain ⟨hf, mx, mn, hr, hd⟩ := h
  have h3 := rangeP_trail he h2.v
  exact ⟨by rw [← h1.1]; exact hf, mx, mn, by rw [← h3.1]; exact hr, assign_dangles_trail he (h3.2.blank he) hd⟩

theorem tail_of {e : Bytes} (h : e = [] ∨ e.head? = some 0x23 ∨ e.head? = some 0x0d) : Tail e := h

/-- A line with a trailer is a line. -/
theorem oneLine_trail {l t : Bytes} (hl : OneLine l) (ht : Trailer t) : OneLine (l ++ t) := by
  obtain ⟨g, e, rfl, hg, hn, he⟩ := ht
  refine ⟨?_, ?_⟩
  · intro h
    rcases List.mem_append.1 h with h | h
    · exact hl.1 h
    · rcases List.mem_append.1 h with h | h
      · rcases hg _ h with h | h <;> exact absurd h (by decide)
      · exact hn h
  · intro h
    exact hl.2 ((dangles_iff l).2 (line_dangles_trail (tail_of he) g l hg ((dangles_iff _).1 h)))

theorem lineP_trailer {l t : Bytes} (hl : OneLine l) (ht : Trailer t) (ann : Bool) (cb : List Event → Bool) (st : St) (line : Nat) :
    lineP ann cb st line (l ++ t) = lineP ann cb st line l ∨
      (0x22 ∈ t ∧ ∃ st', lineP ann cb st line l = .ok st' ∧ st'.result = .error) := by
  obtain ⟨g, e, rfl, hg, hn, he⟩ := ht
  rcases lineP_trail (tail_of he) g l hg (fun h => hl.2 ((dangles_iff l).2 h)) ann cb st line with h | ⟨h, h'⟩
  · exact Or.inl h
  · exact Or.inr ⟨List.mem_append_right _ h, h'⟩

theorem linesP_trailer (ann : Bool) (cb : List Event → Bool) : ∀ (ls : List (Bytes × Bytes)) (line : Nat) (st : St),
    (∀ x ∈ ls, OneLine x.1 ∧ Trailer x.2 ∧ 0x22 ∉ x.2) →
      linesP ann cb line st (ls.map fun x => x.1 ++ x.2) = linesP ann cb line st (ls.map (·.1)) := by
  intro ls
  induction ls with
  | nil => intro line st _; rfl
  | cons x ls ih =>
    intro line st h
    obtain ⟨h1, h2, h3⟩ := h x List.mem_cons_self
    simp only [List.map_cons, linesP]
    rcases lineP_trailer h1 h2 ann cb st ((line + 1) % 2 ^ 32) with h4 | ⟨h4, _⟩
    · rw [h4]
      congr 1
      funext st'
      exact ih _ st' fun y hy => h y (List.mem_cons_of_mem _ hy)
    · exact absurd h4 h3

end Verif.Fasm
