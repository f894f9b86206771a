import Verif.Spec.Tidy.ReportFiles
import Verif.Spec.Tidy.Run
/-! # A terminal, and what a progress display should show on it -/
namespace Verif.Spec.Tidy
open Verif.Tidy

/-- A terminal: the lines above, the line of the cursor, the column of the cursor.  No line is longer than the terminal is wide. -/
structure Screen where
  above : List Bytes
  line : Bytes
  col : Nat
deriving DecidableEq

/-- A character arrives: a newline begins a new line, a backspace moves the cursor to the left, anything else replaces what is at the cursor. -/
def Screen.put (s : Screen) (c : UInt8) : Screen :=
  if c = 0x0a then ⟨s.above ++ [s.line], [], 0⟩
  else if c = 0x08 then { s with col := s.col - 1 }
  else { s with line := s.line.take s.col ++ [c] ++ s.line.drop (s.col + 1), col := s.col + 1 }

/-- A text arrives. -/
def Screen.type (s : Screen) (text : Bytes) : Screen := text.foldl Screen.put s

/-- A number in at least five columns. -/
def Field (n : Nat) (f : Bytes) : Prop :=
  ∃ blanks d, (∀ c ∈ blanks, c = 0x20) ∧ PlainNumber d n ∧ (blanks ++ d).length = max 5 d.length ∧ f = blanks ++ d

/-- `hi`, `hi - 1` and so on, the last one `lo + 1`; each followed by five backspaces. -/
inductive CountsDown : Nat → Nat → Bytes → Prop
  | done {n} : CountsDown n n []
  | next {hi lo f rest} : lo ≤ hi → Field (hi + 1) f → CountsDown hi lo rest → CountsDown (hi + 1) lo (f ++ List.replicate 5 0x08 ++ rest)

/-- The line that says what is done. -/
def Announces (files jobs : Nat) (line : Bytes) : Prop :=
  ∃ a b, PlainNumber a files ∧ PlainNumber b jobs ∧ line = a ++ bytes!" files to process (w/ " ++ b ++ bytes!" jobs)..."

end Verif.Spec.Tidy
