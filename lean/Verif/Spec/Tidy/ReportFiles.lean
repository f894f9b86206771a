import Verif.Spec.Tidy.Report
import Verif.Spec.DbText
import Verif.Model.Tidy.ReportFiles
/-! # The report files of the lint script -/
namespace Verif.Spec.Tidy
open Verif.Tidy

/-- The details of some files: for each file about which there is a text, in order, its path, a colon, a newline and the text; nothing for the others. -/
inductive Details (text : Item → Bytes) : List Item → Bytes → Prop
  | done : Details text [] []
  | quiet {f files rest} : text f = [] → Details text files rest → Details text (f :: files) rest
  | about {f files rest} : text f ≠ [] → Details text files rest → Details text (f :: files) (f.path ++ bytes!":\n" ++ text f ++ rest)

/-- A number as one writes it: decimal digits, no zero in front. -/
def PlainNumber (d : Bytes) (n : Nat) : Prop := Spec.Decimal d n ∧ (d.head? = some 0x30 → d = [0x30])

/-- A line of the summary: the number, with blanks in front of it up to five columns, a blank, the name of the check. -/
def SummaryLine (e : Bytes × Nat) (line : Bytes) : Prop :=
  ∃ blanks d, (∀ c ∈ blanks, c = 0x20) ∧ PlainNumber d e.2 ∧ (blanks ++ d).length = max 5 d.length ∧ line = blanks ++ d ++ [0x20] ++ e.1 ++ [0x0a]

/-- The lines of a summary. -/
inductive Summary : List (Bytes × Nat) → Bytes → Prop
  | done : Summary [] []
  | line {e l line rest} : SummaryLine e line → Summary l rest → Summary (e :: l) (line ++ rest)

/-- A name under which a file can be created. -/
def Free (k : Disk) (name : Bytes) : Prop := k name = none ∨ ∃ c, k name = some (.file c)

end Verif.Spec.Tidy
