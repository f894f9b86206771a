import Verif.Spec.DbText
/-! # Specification: numbers as C reads them -/
namespace Verif.Spec

/-- `d` are digits of the base, of value `n`. -/
def DigitsOf (base : Nat) (d : Bytes) (n : Nat) : Prop :=
  ∃ ds : List Nat, d.map digitValue = ds.map some ∧ (∀ x ∈ ds, x < base) ∧ ds.foldl (fun v x => v * base + x) 0 = n

/-- The text does not begin with a digit of the base. -/
def NoDigit (base : Nat) (rest : Bytes) : Prop := ∀ c, rest.head? = some c → ∀ x, digitValue c = some x → base ≤ x

/-- A number without sign, and text after it: `0x` and hexadecimal digits, `0` and octal digits, or decimal digits, as
many as there are.  Text that does not begin with a digit counts as 0. -/
inductive Magnitude : Bytes → Nat → Prop
  | hex (x : UInt8) (d rest : Bytes) (n : Nat) : x = 0x78 ∨ x = 0x58 → d ≠ [] → DigitsOf 16 d n → NoDigit 16 rest →
      Magnitude (0x30 :: x :: (d ++ rest)) n
  | octal (d rest : Bytes) (n : Nat) : DigitsOf 8 d n → NoDigit 8 rest →
      (∀ x c r, d ++ rest = x :: c :: r → x = 0x78 ∨ x = 0x58 → digitValue c = none) → Magnitude (0x30 :: (d ++ rest)) n
  | decimal (d rest : Bytes) (n : Nat) : d.head? ≠ some 0x30 → DigitsOf 10 d n → NoDigit 10 rest → Magnitude (d ++ rest) n

/-- White space, a sign, a number. -/
def CNumber (s : Bytes) (i : Int) : Prop :=
  ∃ w sign t n, s = w ++ sign ++ t ∧ White w ∧ Magnitude t n ∧
    ((sign = [] ∧ (∀ c, t.head? = some c → ¬ White [c] ∧ c ≠ 0x2b ∧ c ≠ 0x2d) ∧ i = n) ∨
     (sign = bytes!"+" ∧ i = n) ∨ (sign = bytes!"-" ∧ i = -(n : Int)))

/-- A base address: a number that fits a signed 64-bit integer, stored as an unsigned one. -/
def AddressText (s : Bytes) (a : Nat) : Prop :=
  ∃ i : Int, CNumber s i ∧ -2 ^ 63 ≤ i ∧ i < 2 ^ 63 ∧ (a : Int) = i % 2 ^ 64

end Verif.Spec
