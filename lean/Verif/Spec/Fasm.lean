import Verif.Model.Fasm
/-! # Specification of the FASM text format

Only the types of the parser's interface (`Event`, `Sev`, `St`) are shared with the model. -/
namespace Verif.Spec

open Verif.Fasm (Event Sev St)

/-- A text made of newline-terminated lines. -/
def unlines (ls : List Bytes) : Bytes := ls.flatMap fun l => l ++ [0x0a]

/-- Spaces and tabs. -/
def Blank (s : Bytes) : Prop := ∀ c ∈ s, c = 0x20 ∨ c = 0x09

/-- The uncommented part of the line does not end in a tick followed by blanks only. -/
def NoDanglingTick (s : Bytes) : Prop :=
  ∀ pre blanks, Blank blanks → s = pre ++ 0x27 :: blanks → 0x23 ∈ pre

/-- A line body: contains no newline and no dangling tick. -/
def Line (s : Bytes) : Prop := 0x0a ∉ s ∧ NoDanglingTick s

/-- If the text ends in a tick followed by blanks and the final newline, that tick is in a comment. -/
def NoFinalTick (content : Bytes) : Prop :=
  ∀ pre blanks, Blank blanks → content = pre ++ 0x27 :: (blanks ++ [0x0a]) →
    ∃ a b, pre = a ++ 0x23 :: b ∧ 0x0a ∉ b

/-! ## Numbers -/

/-- Value of a digit character. -/
def digitValue (c : UInt8) : Option Nat :=
  if 0x30 ≤ c ∧ c ≤ 0x39 then some (c.toNat - 0x30)
  else if 0x61 ≤ c ∧ c ≤ 0x66 then some (c.toNat - 0x61 + 10)
  else if 0x41 ≤ c ∧ c ≤ 0x46 then some (c.toNat - 0x41 + 10)
  else none

/-- Digit strings of a radix; `_` separates digits. -/
def DigitString (radix : Nat) (s : Bytes) : Prop :=
  ∀ c ∈ s, c = 0x5f ∨ ∃ d, digitValue c = some d ∧ d < radix

/-- The digits of a digit string. -/
def digitsOf (s : Bytes) : List Nat := s.filterMap digitValue

/-- Value of a digit string, most significant digit first. -/
def numVal (radix : Nat) (s : Bytes) : Nat := (digitsOf s).foldl (fun v d => v * radix + d) 0

/-! ## Feature lines -/

/-- Number formats of `width'<letter>digits`. -/
inductive Base where
  | bin | oct | dec | hex
deriving DecidableEq, Repr

/-- `b`, `o`, `d`, `h`. -/
def Base.letter : Base → UInt8
  | .bin => 0x62 | .oct => 0x6f | .dec => 0x64 | .hex => 0x68

def Base.radix : Base → Nat
  | .bin => 2 | .oct => 8 | .dec => 10 | .hex => 16

/-- Bits per digit of the formats that support wide values. -/
def Base.digitBits : Base → Nat
  | .bin => 1 | .hex => 4 | _ => 0

/-- The value part of a feature line. -/
inductive ValueText where
  | absent
  | plain (digits : Bytes)
  | based (width : Bytes) (base : Base) (digits : Bytes)
deriving DecidableEq, Repr

/-- The range part: absent, `[bit]` or `[hi:lo]`. -/
inductive RangeText where
  | absent
  | bit (digits : Bytes)
  | span (hi lo : Bytes)
deriving DecidableEq, Repr

/-- A feature line. -/
structure FeatureText where
  name : Bytes
  range : RangeText
  value : ValueText
deriving DecidableEq, Repr

/-- Characters of feature and annotation names. -/
def NameChar (c : UInt8) : Prop :=
  (0x30 ≤ c ∧ c ≤ 0x39) ∨ (0x41 ≤ c ∧ c ≤ 0x5a) ∨ (0x61 ≤ c ∧ c ≤ 0x7a) ∨ c = 0x2e ∨ c = 0x5f

instance (c : UInt8) : Decidable (NameChar c) := by unfold NameChar; infer_instance

/-- The range as written, with gap `g i` of white space at each place one is allowed. -/
def RangeText.text (g : Nat → Bytes) : RangeText → Bytes
  | .absent => []
  | .bit d => 0x5b :: (g 2 ++ d ++ g 3 ++ 0x5d :: g 6)
  | .span hi lo => 0x5b :: (g 2 ++ hi ++ g 3 ++ 0x3a :: (g 4 ++ lo ++ g 5 ++ 0x5d :: g 6))

/-- The value as written. -/
def ValueText.text (g : Nat → Bytes) : ValueText → Bytes
  | .absent => []
  | .plain d => 0x3d :: (g 7 ++ d ++ g 8)
  | .based w b d => 0x3d :: (g 7 ++ w ++ g 8 ++ 0x27 :: (g 9 ++ b.letter :: (g 10 ++ d ++ g 11)))

/-- The whole feature as written. -/
def FeatureText.text (g : Nat → Bytes) (f : FeatureText) : Bytes :=
  g 0 ++ f.name ++ g 1 ++ f.range.text g ++ f.value.text g

def RangeText.hi : RangeText → Nat
  | .absent => 0
  | .bit d => numVal 10 d
  | .span hi _ => numVal 10 hi

def RangeText.lo : RangeText → Nat
  | .absent => 0
  | .bit d => numVal 10 d
  | .span _ lo => numVal 10 lo

/-- Number of bits of the range. -/
def RangeText.width (r : RangeText) : Nat := r.hi - r.lo + 1

/-- Value assigned; a feature without assignment is set to 1. -/
def ValueText.val : ValueText → Nat
  | .absent => 1
  | .plain d => numVal 10 d
  | .based _ b d => numVal b.radix d

/-- Number of value bits written out (formats `b` and `h`). -/
def ValueText.digitBits : ValueText → Nat
  | .based _ b d => b.digitBits * (digitsOf d).length
  | _ => 0

/-- Values read as a single 64-bit integer: plain, decimal and octal numbers. -/
def ValueText.IsInteger : ValueText → Prop
  | .absent => False
  | .plain _ => True
  | .based _ b _ => b = .dec ∨ b = .oct

def RangeText.WellFormed : RangeText → Prop
  | .absent => True
  | .bit d => DigitString 10 d ∧ digitsOf d ≠ [] ∧ numVal 10 d < 65536
  | .span hi lo => DigitString 10 hi ∧ digitsOf hi ≠ [] ∧ numVal 10 hi < 65536 ∧
      DigitString 10 lo ∧ digitsOf lo ≠ [] ∧ numVal 10 lo ≤ numVal 10 hi

def ValueText.WellFormed : ValueText → Prop
  | .absent => True
  | .plain d => DigitString 10 d ∧ digitsOf d ≠ []
  | .based w b d => DigitString 10 w ∧ numVal 10 w < 2 ^ 64 ∧ DigitString b.radix d ∧ digitsOf d ≠ []

/-- A well-formed feature line. -/
def FeatureText.WellFormed (f : FeatureText) : Prop :=
  f.name ≠ [] ∧ (∀ c ∈ f.name, NameChar c) ∧ f.range.WellFormed ∧ f.value.WellFormed

/-- What may follow a feature: nothing, a `#` comment, or a carriage return. -/
def LineEnd (e : Bytes) : Prop := 0x0a ∉ e ∧ (e = [] ∨ e.head? = some 0x23 ∨ e = [0x0d])

/-- Warnings of a well-formed line: a declared width that exceeds the range, or a range without
value. -/
def FeatureText.warnings (f : FeatureText) : List Sev :=
  match f.value with
  | .absent => if f.range.lo ≠ f.range.hi then [.info] else []
  | .plain _ => []
  | .based w _ _ => if numVal 10 w > f.range.width then [.nonCritical] else []

/-- The feature calls that deliver the low `width` bits of `v` in 64-bit chunks, low chunk first. -/
def wideEvents (line : Nat) (name : Bytes) (lo width v : Nat) : List Event :=
  (List.range ((width + 63) / 64)).map fun i =>
    .feature line name ((lo + 64 * i : Nat) : Int) ((min 64 (width - 64 * i) : Nat) : Int)
      (v / 2 ^ (64 * i) % 2 ^ min 64 (width - 64 * i))

/-- Value delivered by feature calls, each placed at its start bit relative to `lo`. -/
def deliveredValue (lo : Nat) : List Event → Nat
  | [] => 0
  | .feature _ _ start _ bits :: es => bits * 2 ^ (start - lo).toNat + deliveredValue lo es
  | .annotation .. :: es => deliveredValue lo es

/-- The value a wide number of `n` digit bits is taken for: its low `n % 64` bits (64 if that is 0)
fill the lowest 64-bit chunk, the rest starts at bit 64. -/
def misread (n v : Nat) : Nat :=
  let low := if n % 64 = 0 then 64 else n % 64
  v % 2 ^ low + 2 ^ 64 * (v / 2 ^ low)

/-! ## Results -/

/-- How bad a result is: success, information, strange but harmless, a line skipped, stopped by the caller, error. -/
def severity : Sev → Nat
  | .success => 0 | .info => 1 | .nonCritical => 2 | .skipped => 3 | .userAbort => 4 | .error => 5

/-- The worst of a list of severities. -/
def worst : List Sev → Sev
  | [] => .success
  | s :: ss => if severity (worst ss) < severity s then s else worst ss

/-- Line number of an event. -/
def eventLine : Event → Nat
  | .feature l .. => l
  | .annotation l .. => l

/-- The event as it would be reported `k` lines further down. -/
def renumber (k : Nat) : Event → Event
  | .feature l n s w b => .feature (l + k) n s w b
  | .annotation l f n v => .annotation (l + k) f n v

/-- The event without its line number. -/
def eraseLine : Event → Event
  | .feature _ n s w b => .feature 0 n s w b
  | .annotation _ f n v => .annotation 0 f n v

/-- Feature calls only. -/
def isFeature : Event → Bool
  | .feature .. => true
  | .annotation .. => false

/-- Severity contributed by the calls: every feature call answered `false` is a user abort. -/
def abortsOf (cb : List Event → Bool) (trace : List Event) : List Sev :=
  (List.range trace.length).filterMap fun i =>
    if (trace.take (i + 1)).getLast?.any isFeature && !cb (trace.take (i + 1)) then some .userAbort else none

/-- Report of parsing first one text and then, `k` lines further down, another. -/
def combine (k : Nat) (a b : St) : St :=
  { result := if severity a.result < severity b.result then b.result else a.result,
    trace := a.trace ++ b.trace.map (renumber k),
    diags := a.diags ++ b.diags.map fun d => (d.1 + k, d.2) }

/-! ## Annotations -/

/-- A quoted value: every quote in it follows a backslash, and it does not end in one. -/
def Quotable (v : Bytes) : Prop :=
  0x0a ∉ v ∧ v.getLast? ≠ some 0x5c ∧ ∀ pre post, v = pre ++ 0x22 :: post → pre.getLast? = some 0x5c

/-- `name = "value"` with white space allowed. -/
def annotationText (g : Nat → Bytes) (a : Bytes × Bytes) : Bytes :=
  g 0 ++ a.1 ++ g 1 ++ 0x3d :: (g 2 ++ 0x22 :: (a.2 ++ 0x22 :: g 3))

/-- `{ a, b, … }`. -/
def annotationsText (g : Nat → Bytes) (as : List (Bytes × Bytes)) : Bytes :=
  0x7b :: ((bytes!"," : Bytes).intercalate (as.map (annotationText g)) ++ bytes!"}")

end Verif.Spec
