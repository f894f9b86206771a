import Verif.Spec.Tidy.Work
/-! # Findings in what the tool printed -/
namespace Verif.Spec.Tidy
open Verif.Tidy

/-- `[group-name]`: in square brackets letters and dots, a dash, and letters, dots and dashes. -/
def CheckName (w : Bytes) : Prop :=
  ∃ a b, a ≠ [] ∧ b ≠ [] ∧ (∀ c ∈ a, Letter c ∨ c = 0x2e) ∧ (∀ c ∈ b, Letter c ∨ c = 0x2e ∨ c = 0x2d) ∧ w = bytes!"[" ++ a ++ bytes!"-" ++ b ++ bytes!"]"

/-- No line terminator. -/
def OneLine (w : Bytes) : Prop := ∀ c ∈ w, c ≠ 0x0a ∧ c ≠ 0x0d

/-- A line that ends in the name of a check. -/
def Finding (line check : Bytes) : Prop := ∃ pre, OneLine pre ∧ CheckName check ∧ line = pre ++ check

/-- The lines of a text that end in a newline (without it). -/
def completeLines : Bytes → List Bytes
  | [] => []
  | c :: r =>
    if c = 0x0a then [] :: completeLines r
    else match completeLines r with
      | [] => []
      | h :: t => (c :: h) :: t

open Classical in
/-- The check a line is about. -/
noncomputable def checkOf (line : Bytes) : Option Bytes := if h : ∃ c, Finding line c then some h.choose else none

/-- The finding lines that are counted, with the newlines around them: a line directly behind a counted one is not. -/
noncomputable def counted : Option Bytes → List Bytes → List (Bytes × Bytes)
  | _, [] => []
  | none, _ :: rest => counted (some [0x0a]) rest
  | some lead, line :: rest => match checkOf line with
    | some check => (lead ++ line ++ [0x0a], check) :: counted none rest
    | none => counted (some [0x0a]) rest

/-- A finding line in a text. -/
def HasFinding (text : Bytes) : Prop := ∃ line ∈ completeLines text, ∃ check, Finding line check

/-- `n` different texts among pairs with this second component. -/
def Distinct (all : List (Bytes × Bytes)) (check : Bytes) (n : Nat) : Prop :=
  ∃ l : List Bytes, l.Nodup ∧ (∀ x, x ∈ l ↔ (x, check) ∈ all) ∧ n = l.length

end Verif.Spec.Tidy
