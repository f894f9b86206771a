import Verif.Spec.FasmGrammar
/-! # Specification: what may stand at the end of a line without meaning anything -/
namespace Verif.Spec
open Verif.Fasm

/-- Blanks; then perhaps a comment, or a carriage return with anything behind it. -/
def Trailer (t : Bytes) : Prop :=
  ∃ g e, t = g ++ e ∧ Blank g ∧ 0x0a ∉ e ∧ (e = [] ∨ e.head? = some 0x23 ∨ e.head? = some 0x0d)

/-- The text with every line ending in carriage return and newline. -/
def crlf (text : Bytes) : Bytes := text.flatMap fun c => if c = 0x0a then [0x0d, 0x0a] else [c]

/-- No newline at the beginning or behind another newline: no blank lines. -/
def NoBlankLine (text : Bytes) : Prop := ∀ pre post, text = pre ++ 0x0a :: post → pre ≠ [] ∧ pre.getLast? ≠ some 0x0a

/-- No blank lines, and no line that ends in a comma. -/
def NoOpenLine (text : Bytes) : Prop :=
  NoBlankLine text ∧ ∀ pre post, text = pre ++ 0x0a :: post → pre.getLast? ≠ some 0x2c

end Verif.Spec
