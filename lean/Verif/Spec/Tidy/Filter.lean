import Verif.Spec.Tidy.Report
/-! # Which lines of what the tool printed are about a file -/
namespace Verif.Spec.Tidy
open Verif.Tidy

/-- Decimal digits, at least one. -/
def Number (w : Bytes) : Prop := w ≠ [] ∧ ∀ c ∈ w, 0x30 ≤ c.toNat ∧ c.toNat ≤ 0x39

/-- `:12:3: text [check]` -/
def Place (rest : Bytes) : Prop :=
  ∃ row column text check, Number row ∧ Number column ∧ OneLine text ∧ CheckName check ∧ rest = bytes!":" ++ row ++ bytes!":" ++ column ++ bytes!":" ++ text ++ check

/-- Nothing, or a text in one line that ends in a slash. -/
def Directory (dir : Bytes) : Prop := dir = [] ∨ ∃ x, OneLine x ∧ dir = x ++ bytes!"/"

/-- A line can be read as a directory, a file name and a place. -/
def Located (dir name line : Bytes) : Prop := ∃ rest, line = dir ++ name ++ rest ∧ Directory dir ∧ name ≠ [] ∧ (0x2f : UInt8) ∉ name ∧ Place rest

/-- The file a line is about: read with the longest directory, and then with the longest name. -/
def About (line name : Bytes) : Prop :=
  ∃ dir, Located dir name line ∧ ∀ dir' name', Located dir' name' line → dir'.length < dir.length ∨ (dir'.length = dir.length ∧ name'.length ≤ name.length)

open Classical in
/-- The file a line is about, if any. -/
noncomputable def aboutOf (line : Bytes) : Option Bytes := if h : ∃ n, About line n then some h.choose else none

/-- Among lines up to some line: the last that is about a file is about this one, or there is none. -/
def Shown (file : Bytes) (upTo : List Bytes) : Prop := ∀ n, (upTo.filterMap aboutOf).getLast? = some n → n = file

end Verif.Spec.Tidy
