import Verif.Spec.Fasm
/-! # Specification: what every line of a FASM text is read as

`Spec/Fasm.lean` says what a *well-formed* line is.  Here is the rest: the shapes any line can have,
without conditions on the values, and the reading each shape is given. -/
namespace Verif.Spec

open Verif.Fasm (Event Sev St)

/-- Digits of a radix and the separator `_`. -/
def DigitChar (radix : Nat) (c : UInt8) : Prop := c = 0x5f ∨ ∃ d, digitValue c = some d ∧ d < radix

/-- Blank character. -/
def BlankChar (c : UInt8) : Prop := c = 0x20 ∨ c = 0x09

/-- The numbers of a range are strings of decimal digits and `_`, possibly empty. -/
def RangeText.Shaped : RangeText → Prop
  | .absent => True
  | .bit d => DigitString 10 d
  | .span hi lo => DigitString 10 hi ∧ DigitString 10 lo

/-- The numbers of a value are strings of digits and `_`, possibly empty. -/
def ValueText.Shaped : ValueText → Prop
  | .absent => True
  | .plain d => DigitString 10 d
  | .based w b d => DigitString 10 w ∧ DigitString b.radix d

/-- A name, optionally a range, optionally a value. -/
def FeatureText.Shaped (f : FeatureText) : Prop :=
  f.name ≠ [] ∧ (∀ c ∈ f.name, NameChar c) ∧ f.range.Shaped ∧ f.value.Shaped

/-- Bit numbers are taken modulo 2^16. -/
def RangeText.first (r : RangeText) : Nat := r.lo % 65536
def RangeText.last (r : RangeText) : Nat := r.hi % 65536
/-- Number of bits of the range as read. -/
def RangeText.size (r : RangeText) : Nat := r.last - r.first + 1

/-- `[3:5]`: the range is the wrong way round. -/
def RangeText.Inverted (r : RangeText) : Prop := r.last < r.first

/-- Number of 64-bit chunks the value is written with. -/
def ValueText.chunks (v : ValueText) : Nat := max 1 ((v.digitBits + 63) / 64)

/-- The value has as many chunks as the range. -/
def FeatureText.FitsRange (f : FeatureText) : Prop := f.value.chunks = (f.range.size + 63) / 64

/-- Plain, decimal or octal value for more than 64 bits. -/
def FeatureText.TooWide (f : FeatureText) : Prop := 64 < f.range.size ∧ f.value.IsInteger

/-- Warnings: a declared width (modulo 2^64) that exceeds the range, or a range without value. -/
def FeatureText.notes (f : FeatureText) : List Sev :=
  match f.value with
  | .absent => if f.range.first ≠ f.range.last then [.info] else []
  | .plain _ => []
  | .based w _ _ => if numVal 10 w % 2 ^ 64 > f.range.size then [.nonCritical] else []

/-- Feature calls of a feature that fits its range. -/
def FeatureText.calls (line : Nat) (f : FeatureText) : List Event :=
  wideEvents line f.name f.range.first f.range.size (misread f.value.digitBits f.value.val)

/-- The calls actually made when `calls` are due after `before`: the callback is asked after each,
and the rest is dropped when it refuses. -/
def heard (cb : List Event → Bool) (before : List Event) : List Event → List Event
  | [] => []
  | e :: es => e :: if cb (before ++ [e]) then heard cb (before ++ [e]) es else []

/-- Whether one of them is refused. -/
def refused (cb : List Event → Bool) (before : List Event) : List Event → Bool
  | [] => false
  | e :: es => !cb (before ++ [e]) || refused cb (before ++ [e]) es

/-- What follows the feature `f` does not continue it. -/
def Follows (g : Nat → Bytes) (f : FeatureText) (post : Bytes) : Prop :=
  ∀ c, post.head? = some c → ¬ BlankChar c ∧
    match f.value with
    | .absent => c ≠ 0x3d ∧
        match f.range with
        | .absent => c ≠ 0x5b ∧ (g 1 = [] → ¬ NameChar c)
        | _ => True
    | .plain d => c ≠ 0x27 ∧ (g 8 = [] ∨ d = [] → ¬ DigitChar 10 c)
    | .based _ b d => g 11 = [] ∨ d = [] → ¬ DigitChar b.radix c

/-- `{ a, b, … }` followed by anything; every annotation with white space of its own. -/
def annotationList (as : List ((Nat → Bytes) × Bytes × Bytes)) : Bytes :=
  0x7b :: ((bytes!"," : Bytes).intercalate (as.map fun a => annotationText a.1 a.2) ++ bytes!"}")

/-- Annotations as they may be written. -/
def AnnotationsOk (as : List ((Nat → Bytes) × Bytes × Bytes)) : Prop :=
  as ≠ [] ∧ ∀ a ∈ as, (∀ i, Blank (a.1 i)) ∧ (∀ c ∈ a.2.1, NameChar c) ∧ Quotable a.2.2

/-- What may follow a feature (or stand on its own): nothing, a comment, a carriage return and
whatever follows it, or annotations and whatever follows them.  Without an annotation callback
everything from a `{` on is ignored.  `as` are the annotations delivered. -/
inductive Ending (ann : Bool) : Bytes → List (Bytes × Bytes) → Prop where
  | done : Ending ann [] []
  | comment (s) : Ending ann (0x23 :: s) []
  | cr (s) : Ending ann (0x0d :: s) []
  | brace (s) (h : ann = false) : Ending ann (0x7b :: s) []
  | annotations (as) (s) (h : ann = true) (has : AnnotationsOk as) :
      Ending ann (annotationList as ++ s) (as.map (·.2))

/-- A range that is not closed, up to the place where `]` is missing. -/
def RangeText.openText (g : Nat → Bytes) : RangeText → Bytes
  | .absent => []
  | .bit d => 0x5b :: (g 2 ++ d ++ g 3)
  | .span hi lo => 0x5b :: (g 2 ++ hi ++ g 3 ++ 0x3a :: (g 4 ++ lo ++ g 5))

/-- `post` does not continue the unclosed range `r`, and does not close it. -/
def BreaksRange (g : Nat → Bytes) (r : RangeText) (post : Bytes) : Prop :=
  r ≠ .absent ∧ ∀ c, post.head? = some c → ¬ BlankChar c ∧ c ≠ 0x5d ∧
    match r with
    | .absent => False
    | .bit d => c ≠ 0x3a ∧ (g 3 = [] ∨ d = [] → ¬ DigitChar 10 c)
    | .span _ lo => g 5 = [] ∨ lo = [] → ¬ DigitChar 10 c

/-- The letters of the number formats. -/
def FormatLetter (c : UInt8) : Prop := ∃ b : Base, c = b.letter

/-- The shapes of a line. -/
inductive LineShape where
  /-- no feature name: white space, then `post` -/
  | bare (g : Nat → Bytes) (post : Bytes)
  /-- a feature and what follows it -/
  | feature (g : Nat → Bytes) (f : FeatureText) (post : Bytes)
  /-- a feature whose range is not closed -/
  | openRange (g : Nat → Bytes) (name : Bytes) (r : RangeText) (post : Bytes)
  /-- a feature whose range is the wrong way round, then anything -/
  | inverted (g : Nat → Bytes) (name : Bytes) (r : RangeText) (post : Bytes)
  /-- a value with an unknown format letter -/
  | badFormat (g : Nat → Bytes) (name : Bytes) (r : RangeText) (w : Bytes) (c : UInt8) (post : Bytes)
  /-- a value that ends after the tick -/
  | dangling (g : Nat → Bytes) (name : Bytes) (r : RangeText) (w : Bytes)

/-- The line as written. -/
def LineShape.text : LineShape → Bytes
  | .bare g post => g 0 ++ post
  | .feature g f post => f.text g ++ post
  | .openRange g name r post => g 0 ++ name ++ g 1 ++ r.openText g ++ post
  | .inverted g name r post => g 0 ++ name ++ g 1 ++ r.text g ++ post
  | .badFormat g name r w c post =>
    g 0 ++ name ++ g 1 ++ r.text g ++ 0x3d :: (g 7 ++ w ++ g 8 ++ 0x27 :: (g 9 ++ c :: post))
  | .dangling g name r w =>
    g 0 ++ name ++ g 1 ++ r.text g ++ 0x3d :: (g 7 ++ w ++ g 8 ++ 0x27 :: g 9)

/-- A name. -/
def IsName (name : Bytes) : Prop := name ≠ [] ∧ ∀ c ∈ name, NameChar c

/-- Conditions on the parts of a shape. -/
def LineShape.Ok : LineShape → Prop
  | .bare g post => (∀ i, Blank (g i)) ∧ ∀ c, post.head? = some c → ¬ BlankChar c ∧ ¬ NameChar c
  | .feature g f post => (∀ i, Blank (g i)) ∧ f.Shaped ∧ ¬ f.range.Inverted ∧ Follows g f post
  | .openRange g name r post => (∀ i, Blank (g i)) ∧ IsName name ∧ r.Shaped ∧ BreaksRange g r post
  | .inverted g name r _ => (∀ i, Blank (g i)) ∧ IsName name ∧ r.Shaped ∧ r.Inverted
  | .badFormat g name r w c _ => (∀ i, Blank (g i)) ∧ IsName name ∧ r.Shaped ∧ ¬ r.Inverted ∧ DigitString 10 w ∧
      ¬ BlankChar c ∧ ¬ FormatLetter c
  | .dangling g name r w => (∀ i, Blank (g i)) ∧ IsName name ∧ r.Shaped ∧ ¬ r.Inverted ∧ DigitString 10 w

/-- The line stops right after the tick of its value. -/
def Dangles (l : Bytes) : Prop := ∃ g name r w, (LineShape.dangling g name r w).Ok ∧ l = (LineShape.dangling g name r w).text

/-- A line that stands for itself. -/
def OneLine (l : Bytes) : Prop := 0x0a ∉ l ∧ ¬ Dangles l

/-- How a text is read: a line that stops after the tick takes the newline and all of the next line
with it, and is read as if it ended in an unknown format letter (`?`).  `ms` are the lines as read; the
flag says that there is no next line to take. -/
inductive Reads : List Bytes → List Bytes → Bool → Prop where
  | nil : Reads [] [] false
  | last (l) (h : Dangles l) : Reads [l] [] true
  | line {l ls ms b} (h : ¬ Dangles l) (t : Reads ls ms b) : Reads (l :: ls) (l :: ms) b
  | swallow {l l2 ls ms b} (h : Dangles l) (t : Reads ls ms b) : Reads (l :: l2 :: ls) ((l ++ bytes!"?") :: ms) b

/-- A line the format allows: white space or a feature that fits its range, and a proper ending. -/
def Statement (ann : Bool) (l : Bytes) : Prop :=
  ∃ g, (∀ i, Blank (g i)) ∧ ∃ tail as, Ending ann tail as ∧
    (l = g 0 ++ tail ∨
     ∃ f : FeatureText, f.Shaped ∧ ¬ f.range.Inverted ∧ ¬ f.TooWide ∧ f.FitsRange ∧ l = f.text g ++ tail)

end Verif.Spec
