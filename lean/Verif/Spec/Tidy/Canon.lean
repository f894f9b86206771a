import Verif.Model.Basic
/-! # Paths relative to the project -/
namespace Verif.Spec.Tidy
open Verif

/-- Lines with newlines between them. -/
def joined : List Bytes → Bytes
  | [] => []
  | [l] => l
  | l :: ls => l ++ [0x0a] ++ joined ls

/-- A text without a prefix, or as it is if it does not begin with it. -/
def without (prefix_ text : Bytes) : Bytes := if prefix_ <+: text then text.drop prefix_.length else text

/-- A line without the first of the directories it is below, and without `./` behind that. -/
def relative (roots : List Bytes) (line : Bytes) : Bytes :=
  without bytes!"./" (match roots.find? fun p => p ++ bytes!"/" <+: line with
    | some p => line.drop (p.length + 1)
    | none => line)

/-- A line begins with a path and a slash, where dots in the path stand for any character but a line terminator. -/
def Under (path line : Bytes) : Prop :=
  ∃ q rest, line = q ++ bytes!"/" ++ rest ∧ q.length = path.length ∧
    ∀ (i : Nat) (p c : UInt8), path[i]? = some p → q[i]? = some c → (p ≠ 0x2e → c = p) ∧ (p = 0x2e → c ≠ 0x0a ∧ c ≠ 0x0d)

open Classical in
/-- As `relative`, with dots that stand for any character. -/
noncomputable def relativePattern (roots : List Bytes) (line : Bytes) : Bytes :=
  without bytes!"./" (match roots.find? fun p => decide (Under p line) with
    | some p => line.drop (p.length + 1)
    | none => line)

/-- Characters with a meaning in patterns, besides the dot. -/
def PatternChar (c : UInt8) : Prop := c ∈ bytes!"^$\\*+?()[]{}|"

/-- A path without newline whose characters stand for themselves in patterns, dots excepted. -/
def PlainPath (p : Bytes) : Prop := ∀ c ∈ p, c ≠ 0x0a ∧ ¬ PatternChar c

end Verif.Spec.Tidy
