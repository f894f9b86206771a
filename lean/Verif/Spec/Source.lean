import Verif.Spec.Assembler
import Verif.Spec.Fasm
/-! # Designs as written

What a FASM text says, without reference to the parser: lines of blanks and comments, and statements
`name[hi:lo] = value {annotations} # comment` with white space anywhere it may be. -/
namespace Verif.Spec
open Verif.Db Verif.Asm

/-- A line of a FASM file. -/
inductive SourceLine where
  /-- blanks, then nothing, a `#` comment or a carriage return -/
  | empty (blanks ending : Bytes)
  /-- a statement; `gap i` is the white space at the `i`-th place where it is allowed -/
  | statement (gap : Nat → Bytes) (feature : FeatureText) (annotations : List (Bytes × Bytes)) (ending : Bytes)

/-- The characters of the line. -/
def SourceLine.text : SourceLine → Bytes
  | .empty b e => b ++ e
  | .statement g f as e => f.text g ++ (if as = [] then [] else annotationsText g as) ++ e

/-- The value fits: a range of at most 64 bits with a value of at most 64 written bits, or a wider range with a
hexadecimal or binary value whose length is a multiple of 64 bits and reaches the last 64-bit group of the range. -/
def FeatureText.Fits (f : FeatureText) : Prop :=
  (f.range.width ≤ 64 ∧ f.value.digitBits ≤ 64) ∨
  (0 < f.value.digitBits ∧ f.value.digitBits % 64 = 0 ∧ (f.value.digitBits + 63) / 64 = (f.range.width + 63) / 64)

/-- A correct line. -/
def SourceLine.Ok : SourceLine → Prop
  | .empty b e => Blank b ∧ LineEnd e
  | .statement g f as e => (∀ i, Blank (g i)) ∧ f.WellFormed ∧ f.Fits ∧ LineEnd e ∧
      ∀ a ∈ as, (∀ c ∈ a.1, NameChar c) ∧ Quotable a.2

/-- The statements a line makes: bits `lo..hi` get the value, in groups of 64 bits. -/
def SourceLine.features : SourceLine → List FasmFeature
  | .empty _ _ => []
  | .statement _ f _ _ => (List.range ((f.range.width + 63) / 64)).map fun i =>
      { line := 1, name := f.name, start := ((f.range.lo + 64 * i : Nat) : Int),
        width := ((min 64 (f.range.width - 64 * i) : Nat) : Int),
        bits := f.value.val / 2 ^ (64 * i) % 2 ^ min 64 (f.range.width - 64 * i) }

/-- Made by a line of the file. -/
def Source (ls : List SourceLine) (F : FasmFeature) : Prop := ∃ l ∈ ls, F ∈ l.features

/-- The text of the file. -/
def sourceText (ls : List SourceLine) : Bytes := unlines (ls.map SourceLine.text)

/-- The statements of the file and of the PUDC_B pin. -/
def SourceBasic (tiles : Tiles) (ls : List SourceLine) (F : FasmFeature) : Prop := PudcFeature tiles.grid F ∨ Source ls F

/-- All statements of the design. -/
def SourceDesign (tiles : Tiles) (ls : List SourceLine) (F : FasmFeature) : Prop :=
  SourceBasic tiles ls F ∨ StepdownFeature tiles (SourceBasic tiles ls) F

/-- Everything needed to assemble the design. -/
def SourceAssembles (tiles : Tiles) (ls : List SourceLine) : Prop :=
  StepdownOk tiles (SourceBasic tiles ls) ∧ (∀ F, SourceDesign tiles ls F → FeatureOk tiles F) ∧ PudcOk tiles.grid

end Verif.Spec
