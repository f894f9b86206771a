import Verif.Model.DbJson
/-! # Specification: JSON texts (RFC 8259)

The grammar of RFC 8259 with the value of each text; written without reference to a parser. -/
namespace Verif.Spec.JsonGrammar
open Verif.Db

/-- `ws`: blanks, tabs, line feeds, carriage returns. -/
def White (s : Bytes) : Prop := ∀ c ∈ s, c = 0x20 ∨ c = 0x09 ∨ c = 0x0a ∨ c = 0x0d

/-- A hexadecimal digit. -/
def Hex (c : UInt8) (n : Nat) : Prop :=
  (n < 10 ∧ c.toNat = 0x30 + n) ∨ (10 ≤ n ∧ n < 16 ∧ (c.toNat = 0x41 + (n - 10) ∨ c.toNat = 0x61 + (n - 10)))

/-- Four hexadecimal digits. -/
def Hex4 (t : Bytes) (n : Nat) : Prop :=
  ∃ a b c d x y z u, t = [a, b, c, d] ∧ Hex a x ∧ Hex b y ∧ Hex c z ∧ Hex d u ∧ n = x * 4096 + y * 256 + z * 16 + u

/-- The UTF-8 encoding of a code point (RFC 3629). -/
def Utf8 (cp : Nat) (bytes : Bytes) : Prop :=
  (cp < 0x80 ∧ bytes.map UInt8.toNat = [cp]) ∨
  (0x80 ≤ cp ∧ cp < 0x800 ∧ bytes.map UInt8.toNat = [0xc0 + cp / 2 ^ 6, 0x80 + cp % 2 ^ 6]) ∨
  (0x800 ≤ cp ∧ cp < 0x10000 ∧ bytes.map UInt8.toNat = [0xe0 + cp / 2 ^ 12, 0x80 + cp / 2 ^ 6 % 2 ^ 6, 0x80 + cp % 2 ^ 6]) ∨
  (0x10000 ≤ cp ∧ cp < 0x110000 ∧
    bytes.map UInt8.toNat = [0xf0 + cp / 2 ^ 18, 0x80 + cp / 2 ^ 12 % 2 ^ 6, 0x80 + cp / 2 ^ 6 % 2 ^ 6, 0x80 + cp % 2 ^ 6])

/-- The two-character escapes: the character behind the backslash, the byte it stands for. -/
def escapes : List (UInt8 × UInt8) :=
  [(0x22, 0x22), (0x5c, 0x5c), (0x2f, 0x2f), (0x62, 0x08), (0x66, 0x0c), (0x6e, 0x0a), (0x72, 0x0d), (0x74, 0x09)]

/-- The text between the quotes of a string, and the string. -/
inductive Chars : Bytes → Bytes → Prop
  | nil : Chars [] []
  | plain (c : UInt8) {t v : Bytes} : 0x20 ≤ c.toNat → c ≠ 0x22 → c ≠ 0x5c → Chars t v → Chars (c :: t) (c :: v)
  | esc (c b : UInt8) {t v : Bytes} : (c, b) ∈ escapes → Chars t v → Chars (0x5c :: c :: t) (b :: v)
  | code (h : Bytes) (cp : Nat) (u : Bytes) {t v : Bytes} : Hex4 h cp → (cp < 0xd800 ∨ 0xdfff < cp) → Utf8 cp u → Chars t v →
      Chars (0x5c :: 0x75 :: (h ++ t)) (u ++ v)
  | pair (h l : Bytes) (hi lo : Nat) (u : Bytes) {t v : Bytes} : Hex4 h hi → Hex4 l lo → (0xd800 ≤ hi ∧ hi < 0xdc00) →
      (0xdc00 ≤ lo ∧ lo < 0xe000) → Utf8 (0x10000 + (hi - 0xd800) * 0x400 + (lo - 0xdc00)) u → Chars t v →
      Chars (0x5c :: 0x75 :: (h ++ 0x5c :: 0x75 :: (l ++ t))) (u ++ v)

/-- A string in quotes. -/
def Str (t v : Bytes) : Prop := ∃ body, t = 0x22 :: (body ++ bytes!"\"") ∧ Chars body v

def Digit (c : UInt8) : Prop := 0x30 ≤ c.toNat ∧ c.toNat ≤ 0x39

/-- One or more digits. -/
def Digits (t : Bytes) : Prop := t ≠ [] ∧ ∀ c ∈ t, Digit c

/-- `int`: digits, without leading zero. -/
def IntText (t : Bytes) : Prop := Digits t ∧ (t.head? = some 0x30 → t = bytes!"0")

/-- The number written. -/
def decimal (t : Bytes) : Nat := t.foldl (fun n c => n * 10 + (c.toNat - 0x30)) 0

def FracText (t : Bytes) : Prop := t = [] ∨ ∃ d, Digits d ∧ t = 0x2e :: d

def ExpText (t : Bytes) : Prop :=
  t = [] ∨ ∃ e sign d, (e = 0x65 ∨ e = 0x45) ∧ (sign = [] ∨ sign = bytes!"+" ∨ sign = bytes!"-") ∧ Digits d ∧ t = e :: (sign ++ d)

/-- A number and its value: an integer of 64 bits (signed or not) or some `double`; those which are `big` have none. -/
def Num (big : Bytes → Bool) (t : Bytes) (v : Json) : Prop :=
  ∃ sign i f e, t = sign ++ i ++ f ++ e ∧ (sign = [] ∨ sign = bytes!"-") ∧ IntText i ∧ FracText f ∧ ExpText e ∧
    ((f = [] ∧ e = [] ∧ ∃ n : Int, n = (if sign = [] then (decimal i : Int) else -(decimal i : Int)) ∧ -(2 ^ 63) ≤ n ∧ n < 2 ^ 64 ∧ v = .int n) ∨
     (¬ (f = [] ∧ e = [] ∧ -(2 ^ 63) ≤ (if sign = [] then (decimal i : Int) else -(decimal i : Int)) ∧
          (if sign = [] then (decimal i : Int) else -(decimal i : Int)) < 2 ^ 64) ∧ big t = false ∧ v = .dbl))

mutual
/-- A value without white space around it. -/
inductive Value (big : Bytes → Bool) : Bytes → Json → Prop
  | null : Value big bytes!"null" .null
  | true : Value big bytes!"true" (.bool Bool.true)
  | false : Value big bytes!"false" (.bool Bool.false)
  | str {t v : Bytes} : Str t v → Value big t (.str v)
  | num {t : Bytes} {v : Json} : Num big t v → Value big t v
  | emptyObj (w : Bytes) : White w → Value big (0x7b :: (w ++ bytes!"}")) (.obj [])
  | obj (w : Bytes) {t : Bytes} {ms : List (Bytes × Json)} : White w → Members big t ms → Value big (0x7b :: (w ++ (t ++ bytes!"}"))) (.obj ms)
  | emptyArr (w : Bytes) : White w → Value big (0x5b :: (w ++ bytes!"]")) (.arr [])
  | arr (w : Bytes) {t : Bytes} {vs : List Json} : White w → Elements big t vs → Value big (0x5b :: (w ++ (t ++ bytes!"]"))) (.arr vs)
/-- One or more `name : value`, separated by commas, with the white space behind them. -/
inductive Members (big : Bytes → Bool) : Bytes → List (Bytes × Json) → Prop
  | last {n name w1 w2 t w3 : Bytes} {v : Json} : Str n name → White w1 → White w2 → Value big t v → White w3 →
      Members big (n ++ (w1 ++ 0x3a :: (w2 ++ (t ++ w3)))) [(name, v)]
  | cons {n name w1 w2 t w3 w4 t' : Bytes} {v : Json} {ms : List (Bytes × Json)} : Str n name → White w1 → White w2 → Value big t v →
      White w3 → White w4 → Members big t' ms →
      Members big (n ++ (w1 ++ 0x3a :: (w2 ++ (t ++ (w3 ++ 0x2c :: (w4 ++ t')))))) ((name, v) :: ms)
/-- One or more values, separated by commas, with the white space behind them. -/
inductive Elements (big : Bytes → Bool) : Bytes → List Json → Prop
  | last {t w : Bytes} {v : Json} : Value big t v → White w → Elements big (t ++ w) [v]
  | cons {t w1 w2 t' : Bytes} {v : Json} {vs : List Json} : Value big t v → White w1 → White w2 → Elements big t' vs →
      Elements big (t ++ (w1 ++ 0x2c :: (w2 ++ t'))) (v :: vs)
end

/-- The text is JSON and says `v`. -/
def Text (big : Bytes → Bool) (s : Bytes) (v : Json) : Prop :=
  ∃ w t w', s = w ++ (t ++ w') ∧ White w ∧ Value big t v ∧ White w'

/-- The bytes of a file are read as `v`: the whole file is a JSON text, or its part up to a NUL byte; in front there may be
bytes of a byte order mark. -/
def Reads (big : Bytes → Bool) (file : Bytes) (v : Json) : Prop :=
  ∃ mark text rest, file = mark ++ (text ++ rest) ∧ mark.Sublist [0xef, 0xbb, 0xbf] ∧ Text big text v ∧
    (rest = [] ∨ rest.head? = some 0)

/-- Values with integers of 64 bits only. -/
inductive Plain : Json → Prop
  | null : Plain .null
  | bool (b : Bool) : Plain (.bool b)
  | int (i : Int) : -(2 ^ 63) ≤ i → i < 2 ^ 64 → Plain (.int i)
  | str (s : Bytes) : Plain (.str s)
  | arr (vs : List Json) : (∀ v ∈ vs, Plain v) → Plain (.arr vs)
  | obj (ms : List (Bytes × Json)) : (∀ m ∈ ms, Plain m.2) → Plain (.obj ms)

end Verif.Spec.JsonGrammar
