import Verif.Model.Basic
/-! # Specification: listings of numbers in an AUX file -/
namespace Verif.Spec

/-- The upper-case digit of a value below 16. -/
def upperDigit (d : Nat) : Char :=
  match "0123456789ABCDEF".toList[d]? with
  | some c => c
  | none => '?'

/-- The last `n` hexadecimal digits of `v`. -/
def fixedHex : Nat → Nat → List Char
  | 0, _ => []
  | n + 1, v => fixedHex n (v / 16) ++ [upperDigit (v % 16)]

/-- A line: a label, then every number after a blank, with `n` digits. -/
def listing (label : String) (n : Nat) (vs : List Nat) : List Char :=
  label.toList ++ (vs.flatMap fun v => ' ' :: fixedHex n v) ++ ['\n']

/-- The value of an upper-case digit. -/
def upperValue (c : Char) : Nat := if c.toNat < 65 then c.toNat - 48 else c.toNat - 55

/-- Reading the numbers of a line after its label back: a blank begins a number. -/
def readNumbers : List Char → List Nat → List Nat
  | [], acc => acc.reverse
  | c :: cs, acc =>
    if c = '\n' then acc.reverse
    else if c = ' ' then readNumbers cs (0 :: acc)
    else match acc with
      | [] => readNumbers cs []
      | v :: acc => readNumbers cs ((v * 16 + upperValue c) :: acc)

/-- Reading a line: everything up to the colon is the label. -/
def readListing (line : List Char) : List Nat :=
  readNumbers ((line.dropWhile (· != ':')).drop 1) []

/-- `pattern` occurs in `l` at position `i`. -/
def OccursAt {α : Type} (pattern l : List α) (i : Nat) : Prop := ∃ u, l.drop i = pattern ++ u

end Verif.Spec
