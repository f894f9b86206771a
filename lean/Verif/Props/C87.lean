import Verif.Props.C86
import Verif.Proofs.Tidy.Filter
/-! # C87: what of the output of the tool the lint script keeps for a file -/
namespace Verif.Props
open Verif.Tidy Verif.Spec.Tidy Re

/-- The lines of a text: all that end in a newline, and what is left behind the last one. -/
def textOf (lines : List Bytes) (last : Bytes) : Bytes := (lines.flatMap (· ++ [0x0a])) ++ last

open Classical in
/-- A line is kept exactly when the last line up to it that is about a file is about the given one, or no line up to it is about
a file.  Kept lines are written in order and unchanged, each with a newline. -/
theorem C87_filter (file : Bytes) (lines : List Bytes) (last : Bytes) (h : ∀ l ∈ lines, (0x0a : UInt8) ∉ l) (h' : (0x0a : UInt8) ∉ last) :
    filterCheckLines file (textOf lines last) =
      (List.range (lines ++ if last = [] then [] else [last]).length).flatMap fun i =>
        if Shown file ((lines ++ if last = [] then [] else [last]).take (i + 1)) then
          (lines ++ if last = [] then [] else [last])[i]?.getD [] ++ [0x0a]
        else [] := by
  unfold filterCheckLines textOf
  rw [getlines_text lines last h h', filterLines_eq file [] _ true ⟨fun _ n hn => (by cases hn), fun _ => rfl⟩]
  rfl

/-- The group of the pattern is the file the line is about; the pattern does not match exactly when the line cannot be read as about a file. -/
theorem C87_about (line : Bytes) :
    (∀ name, fullMatch fileWithTidy line = some name ↔ About line name) ∧ (fullMatch fileWithTidy line = none ↔ ∀ dir name, ¬ Located dir name line) :=
  ⟨fun _ => fullMatch_some, fullMatch_none⟩

/-- A line about a file: kept if it is the given one, dropped otherwise. -/
theorem C87_line (file name : Bytes) (before : List Bytes) (line : Bytes) (h : About line name) : Shown file (before ++ [line]) ↔ name = file := by
  unfold Shown
  have : [line].filterMap aboutOf = [name] := by simp [aboutOf_eq, fullMatch_some.2 h]
  rw [List.filterMap_append, this]
  simp only [List.getLast?_append, List.getLast?_singleton, Option.some_or, Option.some.injEq]
  exact ⟨fun h => h name rfl, fun h n hn => hn ▸ h⟩

/-- A line about no file goes with the lines before it. -/
theorem C87_note (file : Bytes) (before : List Bytes) (line : Bytes) (h : ∀ dir name, ¬ Located dir name line) :
    Shown file (before ++ [line]) ↔ Shown file before := by
  unfold Shown
  have : [line].filterMap aboutOf = [] := by simp [aboutOf_eq, fullMatch_none.2 h]
  rw [List.filterMap_append, this, List.append_nil]

private theorem peel {w z R R' : Bytes} (hw : (0x3a : UInt8) ∉ w) (e : w ++ 0x3a :: R = z ++ 0x3a :: R') :
    (z = w ∧ R = R') ∨ ∃ z', z = w ++ 0x3a :: z' ∧ R = z' ++ 0x3a :: R' := by
  rcases List.append_eq_append_iff.1 e with ⟨a, h1, h2⟩ | ⟨a, h1, h2⟩
  · cases a with
    | nil => simp at h1 h2; exact Or.inl ⟨h1, h2⟩
    | cons c a =>
      simp at h2
      obtain ⟨rfl, h2⟩ := h2
      exact Or.inr ⟨a, h1, h2⟩
  · cases a with
    | nil => simp at h1 h2; exact Or.inl ⟨h1.symm, h2.symm⟩
    | cons c a =>
      simp at h2
      exact absurd (by rw [h1, ← h2.1]; simp) hw

private theorem number_colon {w : Bytes} (h : Number w) : (0x3a : UInt8) ∉ w := fun hm => by
  have := (h.2 _ hm).2
  revert this
  decide

private theorem number_slash {w : Bytes} (h : Number w) : (0x2f : UInt8) ∉ w := fun hm => by
  have := (h.2 _ hm).1
  revert this
  decide

private theorem checkName_chars {w : Bytes} (h : CheckName w) : (0x3a : UInt8) ∉ w ∧ (0x2f : UInt8) ∉ w := by
  obtain ⟨a, b, _, _, ha, hb, rfl⟩ := h
  have l1 : ¬ Letter 0x3a := by unfold Letter; decide
  have l2 : ¬ Letter 0x2f := by unfold Letter; decide
  constructor <;> intro hm <;> simp only [List.mem_append, List.mem_singleton] at hm <;>
    rcases hm with (((hm | hm) | hm) | hm) | hm
  all_goals first
    | (revert hm; decide; done)
    | (rcases ha _ hm with h | h
       · first | exact l1 h | exact l2 h
       · revert h; decide)
    | (rcases hb _ hm with h | h | h
       · first | exact l1 h | exact l2 h
       · revert h; decide
       · revert h; decide)

/-- Lines as the tool prints them are understood: `directory/name:row:column: message [check]`, where the message has no slash and no digit
directly followed by a colon. -/
theorem C87_wellformed_partial (dir name row column message check : Bytes) (hd : Directory dir) (n : name ≠ []) (hn : (0x2f : UInt8) ∉ name)
    (hr : Number row) (hc : Number column) (hm : OneLine message) (hk : CheckName check)
    (hs : (0x2f : UInt8) ∉ message) (hdc : ∀ a d b, 0x30 ≤ d.toNat → d.toNat ≤ 0x39 → message ≠ a ++ [d, 0x3a] ++ b) :
    About (dir ++ name ++ (bytes!":" ++ row ++ bytes!":" ++ column ++ bytes!":" ++ message ++ check)) name := by
  refine ⟨dir, ⟨_, rfl, hd, n, hn, row, column, message, check, hr, hc, hm, hk, rfl⟩, ?_⟩
  rintro dir' name' ⟨rest', e, hd', n', hn', row', column', text', check', hr', hc', ht', hk', rfl⟩
  -- no digit and colon behind the place
  have absurdly : ∀ y w T : Bytes, Number w → message ++ check = y ++ (w ++ 0x3a :: T) → False := by
    intro y w T hw e
    obtain ⟨w0, d, rfl⟩ : ∃ w0 d, w = w0 ++ [d] := by
      rcases List.eq_nil_or_concat w with h | ⟨w0, d, h⟩
      · exact absurd h hw.1
      · exact ⟨w0, d, by simpa using h⟩
    have hdd := hw.2 d (by simp)
    have e' : message ++ check = (y ++ w0 ++ [d, 0x3a]) ++ T := by rw [e]; simp
    rcases List.append_eq_append_iff.1 e' with ⟨a, h1, h2⟩ | ⟨a, h1, h2⟩
    · -- the colon would be in the name of the check
      by_cases ha : a = []
      · rw [ha, List.append_nil] at h1
        exact hdc (y ++ w0) d [] hdd.1 hdd.2 (by rw [← h1]; simp)
      · have hlast : (0x3a : UInt8) ∈ a := by
          have h3 := congrArg List.getLast? h1
          have : (y ++ w0 ++ [d, 0x3a]).getLast? = some 0x3a := by simp
          rw [this, List.getLast?_append] at h3
          cases hg : a.getLast? with
          | none => exact absurd (List.getLast?_eq_none_iff.1 hg) ha
          | some c =>
            rw [hg] at h3
            simp at h3
            rw [h3]
            exact List.mem_of_getLast? hg
        exact (checkName_chars hk).1 (by rw [h2]; simp [hlast])
    · exact hdc (y ++ w0) d a hdd.1 hdd.2 (by rw [h1])
  have noslash : (0x2f : UInt8) ∉ name ++ (bytes!":" ++ row ++ bytes!":" ++ column ++ bytes!":" ++ message ++ check) := by
    intro h
    simp only [List.mem_append, List.mem_singleton] at h
    rcases h with h | (((((h | h) | h) | h) | h) | h) | h
    · exact hn h
    · revert h; decide
    · exact number_slash hr h
    · revert h; decide
    · exact number_slash hc h
    · revert h; decide
    · exact hs h
    · exact (checkName_chars hk).2 h
  have hle : dir'.length ≤ dir.length := by
    rcases hd' with h0 | ⟨x, _, hx⟩
    · rw [h0]; simp
    · rcases Nat.lt_or_ge dir.length dir'.length with hlt | hge
      · exfalso
        rw [List.append_assoc dir name, List.append_assoc dir' name'] at e
        rcases List.append_eq_append_iff.1 e with ⟨a, h1, h2⟩ | ⟨a, h1, h2⟩
        · have ha : a ≠ [] := by
            intro h0
            rw [h0, List.append_nil] at h1
            rw [h1] at hlt
            omega
          have hl : (0x2f : UInt8) ∈ a := by
            have h3 := congrArg List.getLast? h1
            rw [hx, List.getLast?_append, List.getLast?_append] at h3
            cases hg : a.getLast? with
            | none => exact absurd (List.getLast?_eq_none_iff.1 hg) ha
            | some c =>
              rw [hg] at h3
              simp at h3
              rw [h3]
              exact List.mem_of_getLast? hg
          exact noslash (by rw [h2]; simp [hl])
        · have := congrArg List.length h1
          simp at this
          omega
      · exact hge
  rcases Nat.lt_or_ge dir'.length dir.length with hlt | hge
  · exact Or.inl hlt
  · refine Or.inr ⟨by omega, ?_⟩
    rw [List.append_assoc dir name, List.append_assoc dir' name'] at e
    have e2 := (List.append_inj e (by omega)).2
    rcases Nat.lt_or_ge name.length name'.length with hlt | hge'
    · exfalso
      rcases List.append_eq_append_iff.1 e2 with ⟨z, h1, h2⟩ | ⟨z, h1, h2⟩
      · cases z with
        | nil => rw [List.append_nil] at h1; rw [h1] at hlt; omega
        | cons c z =>
          simp at h2
          obtain ⟨_, h2⟩ := h2
          rcases peel (number_colon hr) h2 with ⟨_, h3⟩ | ⟨z2, _, h3⟩
          · -- the column is taken for the row
            obtain ⟨_, _, h4⟩ := span_unique (p := fun c => decide (c ≠ 0x3a)) (fun c hc' => by simp only [decide_eq_true_eq]; intro e; exact number_colon hc (e ▸ hc'))
              (fun c hc'' => by simp only [decide_eq_true_eq]; intro e; exact number_colon hr' (e ▸ hc'')) (by decide) (by decide) h3
            exact absurdly [] column' _ hc' (by rw [h4]; rfl)
          · rcases peel (number_colon hc) h3 with ⟨_, h4⟩ | ⟨z3, _, h4⟩
            · exact absurdly [] row' _ hr' (by rw [h4]; rfl)
            · exact absurdly (z3 ++ bytes!":") row' (column' ++ 0x3a :: (text' ++ check')) hr' (by rw [h4]; simp)
      · have := congrArg List.length h1
        simp at this
        omega
    · exact hge'

/-- All of what the tool prints about the given file is kept if it prints it as one block of such a line and lines about no file (notes and
quoted source), and nothing of a block about another file is. -/
theorem C87_block (file name : Bytes) (before block : List Bytes) (line : Bytes) (h : About line name) (hb : ∀ l ∈ block, ∀ dir n, ¬ Located dir n l) (i : Nat) :
    Shown file (before ++ line :: block.take i) ↔ name = file := by
  induction i with
  | zero => simpa using C87_line file name before line h
  | succ i ih =>
    by_cases hi : i < block.length
    · have e : before ++ line :: block.take (i + 1) = (before ++ line :: block.take i) ++ [block[i]] := by
        rw [List.take_succ_eq_append_getElem hi]; simp
      rw [e, C87_note file _ _ (hb _ (List.getElem_mem hi)), ih]
    · rw [List.take_of_length_le (by omega)]
      rw [List.take_of_length_le (by omega)] at ih
      exact ih

/-- The pattern looks for the last slash and the last place in a line: of a finding whose message mentions a place in another file it takes that file.
`a.cc:1:2: see b/c.h:3:4: x [y-z]` counts as about `c.h`, and is dropped from the text for `a.cc`. -/
def sampleMention : Bytes :=
  bytes!"a.cc:1:2: see b/c.h:3:4: x [y-z]"

theorem C87_defect_message :
    Located [] bytes!"a.cc" sampleMention ∧ About sampleMention bytes!"c.h" ∧
      filterCheckLines bytes!"a.cc" (sampleMention ++ [0x0a]) = [] := by
  have hab : fullMatch fileWithTidy sampleMention = some bytes!"c.h" := by decide +kernel
  refine ⟨?_, fullMatch_some.1 hab, ?_⟩
  · refine ⟨_, rfl, Or.inl rfl, by decide, by decide, bytes!"1", bytes!"2", bytes!" see b/c.h:3:4: x ",
      bytes!"[y-z]", ⟨by decide, by decide⟩, ⟨by decide, by decide⟩, by unfold OneLine; decide, ⟨bytes!"y", bytes!"z", by decide, by decide, by unfold Letter; decide, by unfold Letter; decide, rfl⟩, rfl⟩
  · have : getlines (sampleMention ++ [0x0a]) = [sampleMention] := by decide +kernel
    unfold filterCheckLines
    rw [this, filterLines, hab]
    rfl

/-! ## Non-vacuity -/

/-- `a.cc:1:2: warning: x [bugprone-y]` is about `a.cc`. -/
theorem sampleFinding_about : About sampleFinding bytes!"a.cc" :=
  C87_wellformed_partial [] bytes!"a.cc" bytes!"1" bytes!"2" bytes!" warning: x " sampleCheck
    (Or.inl rfl) (by decide) (by decide) ⟨by decide, by decide⟩ ⟨by decide, by decide⟩ (by unfold OneLine; decide)
    ⟨bytes!"bugprone", bytes!"y", by decide, by decide, by unfold Letter; decide, by unfold Letter; decide, rfl⟩ (by decide)
    (by
      intro a d b h1 h2 e
      have h : ∀ c ∈ (bytes!" warning: x " : Bytes), ¬ (0x30 ≤ c.toNat ∧ c.toNat ≤ 0x39) := by decide
      exact h d (by rw [e]; simp) ⟨h1, h2⟩)

/-- A block: the finding, and a line of quoted source. -/
example : Shown bytes!"a.cc" ([] ++ sampleFinding :: [bytes!" x"].take 1) :=
  (C87_block bytes!"a.cc" bytes!"a.cc" [] [bytes!" x"] sampleFinding sampleFinding_about
    (by
      intro l hl
      rw [List.mem_singleton.1 hl]
      exact fullMatch_none.1 (by decide +kernel)) 1).2 rfl

/-- Dropped for another file. -/
example : ¬ Shown bytes!"b.h" ([] ++ [sampleFinding]) := fun h =>
  absurd ((C87_line bytes!"b.h" _ [] sampleFinding sampleFinding_about).1 h) (by decide)

end Verif.Props
