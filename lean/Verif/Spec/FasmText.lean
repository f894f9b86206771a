import Verif.Spec.FasmGrammar
/-! # Specification: what is printed about a FASM text

For every line shape of `Spec/FasmGrammar.lean`, the messages; `TextSays` is the whole of it. -/
namespace Verif.Spec

/-- An ASCII text. -/
def ascii (s : String) : Bytes := s.toList.map fun c => UInt8.ofNat c.toNat

/-- A number in decimal. -/
def dec (n : Nat) : Bytes := ascii (toString n)

/-- A message about a line. -/
def about (line : Nat) (body : Bytes) : Bytes := dec line ++ ascii ": " ++ body ++ ascii "\n"

/-- `NAME[7:0]`; a feature without range is shown as `NAME[0:0]`. -/
def featureShown (name : Bytes) (r : RangeText) : Bytes :=
  name ++ ascii "[" ++ dec r.last ++ ascii ":" ++ dec r.first ++ ascii "]"

/-- The next character; at the end of the line the newline. -/
def nextChar (s : Bytes) : UInt8 := s.headD 0x0a

/-- What a C function prints of a text that may contain a NUL. -/
def upToNul (s : Bytes) : Bytes := s.takeWhile (· ≠ 0)

/-- The declared width is larger than the range. -/
def widthSays (line : Nat) (name : Bytes) (r : RangeText) (w : Bytes) : List Bytes :=
  if numVal 10 w % 2 ^ 64 > r.size then
    [about line (ascii "WARN Attempt to assign more bits (" ++ dec (numVal 10 w % 2 ^ 64) ++ ascii "') for " ++
      featureShown name r ++ ascii " with supported bit width of " ++ dec r.size)]
  else []

/-- About the feature itself. -/
def FeatureText.noteTexts (line : Nat) (f : FeatureText) : List Bytes :=
  match f.value with
  | .absent => if f.range.first ≠ f.range.last then
      [about line (ascii "INFO Range of bits " ++ featureShown f.name f.range ++ ascii ", but no assignment")] else []
  | .plain _ => []
  | .based w _ _ => widthSays line f.name f.range w

/-- About a plain, decimal or octal value for more than 64 bits. -/
def FeatureText.wideText (line : Nat) (f : FeatureText) : Bytes :=
  about line (ascii "ERR: Sorry, can only deal with ranges <= 64 bit currently for integers " ++
    featureShown f.name f.range ++ ascii "; trimming width " ++ dec f.range.size ++ ascii " to 64")

/-- The closing brace is missed at `s`. -/
def braceSays (line : Nat) (s : Bytes) : List Bytes :=
  if nextChar s = 0x7d then []
  else [about line (ascii "annotations: expected ',' or '}'; got '" ++ [nextChar s] ++ ascii "'")]

/-- Annotations that are all right, each followed by a comma. -/
def annotationsBefore (as : List ((Nat → Bytes) × Bytes × Bytes)) : Bytes :=
  (as.map fun a => annotationText a.1 a.2 ++ bytes!",").flatten

/-- `as` may be written before a mistake. -/
def AnnotationsFine (as : List ((Nat → Bytes) × Bytes × Bytes)) : Prop :=
  ∀ a ∈ as, (∀ i, Blank (a.1 i)) ∧ (∀ c ∈ a.2.1, NameChar c) ∧ Quotable a.2.2

/-- What follows does not continue white space. -/
def NoBlankAt (s : Bytes) : Prop := ∀ c, s.head? = some c → ¬ BlankChar c

/-- What is printed about what follows a feature. -/
inductive EndingSays (ann : Bool) (line : Nat) (feature : Bytes) : Bytes → List Bytes → Prop where
  /-- a proper ending: nothing -/
  | fine (s as) (h : Ending ann s as) : EndingSays ann line feature s []
  /-- some other character -/
  | other (c s) (h : c ≠ 0x7b ∧ c ≠ 0x23 ∧ c ≠ 0x0d) :
      EndingSays ann line feature (c :: s) [about line (ascii "expected newline, got '" ++ [c] ++ ascii "'")]
  /-- annotations without closing brace -/
  | unclosed (as a s) (h : ann = true) (has : AnnotationsFine (as ++ [a])) (hb : NoBlankAt s)
      (hc : nextChar s ≠ 0x2c) (hc' : nextChar s ≠ 0x7d) :
      EndingSays ann line feature (0x7b :: (annotationsBefore as ++ (annotationText a.1 a.2 ++ s))) (braceSays line s)
  /-- an annotation without `=` -/
  | noEquals (as g0 name g1 s) (h : ann = true) (has : AnnotationsFine as) (h0 : Blank g0) (hn : ∀ c ∈ name, NameChar c)
      (h1 : Blank g1) (hb : NoBlankAt s) (hc : nextChar s ≠ 0x3d)
      (hi : g1 = [] ∨ name = [] → ∀ c, s.head? = some c → ¬ NameChar c) :
      EndingSays ann line feature (0x7b :: (annotationsBefore as ++ (g0 ++ (name ++ (g1 ++ s)))))
        (about line (ascii "annotation " ++ name ++ ascii ": expected '='") :: braceSays line s)
  /-- an annotation whose value is not quoted -/
  | noQuote (as g0 name g1 g2 s) (h : ann = true) (has : AnnotationsFine as) (h0 : Blank g0) (hn : ∀ c ∈ name, NameChar c)
      (h1 : Blank g1) (h2 : Blank g2) (hb : NoBlankAt s) (hc : nextChar s ≠ 0x22) :
      EndingSays ann line feature (0x7b :: (annotationsBefore as ++ (g0 ++ (name ++ (g1 ++ 0x3d :: (g2 ++ s))))))
        (about line (feature ++ ascii " : annotation '" ++ name ++ ascii "': value not quoted") :: braceSays line s)
  /-- an annotation whose value does not end: every quote in it is escaped -/
  | unfinished (as g0 name g1 g2 v) (h : ann = true) (has : AnnotationsFine as) (h0 : Blank g0) (hn : ∀ c ∈ name, NameChar c)
      (h1 : Blank g1) (h2 : Blank g2) (hv : ∀ pre post, v = pre ++ 0x22 :: post → pre.getLast? = some 0x5c) :
      EndingSays ann line feature (0x7b :: (annotationsBefore as ++ (g0 ++ (name ++ (g1 ++ 0x3d :: (g2 ++ 0x22 :: v))))))
        [about line (ascii "annotation not finished before end of line"),
         about line (ascii "annotations: expected ',' or '}'; got '" ++ [0x0a] ++ ascii "'")]

/-- An unknown format letter. -/
def baseText (line : Nat) (c : UInt8) : Bytes :=
  about line (ascii "unknown base signifier '" ++ [c] ++ ascii "'; expected one of b, d, h, o")

/-- What is printed about a line.  A line that stops after the tick is read as if the newline were the format letter. -/
inductive LineSays (ann : Bool) (line : Nat) : LineShape → List Bytes → Prop where
  | bare (g post ts) (h : EndingSays ann line [] post ts) : LineSays ann line (.bare g post) ts
  | feature (g f post ts) (hw : ¬ f.TooWide) (h : EndingSays ann line f.name post ts) :
      LineSays ann line (.feature g f post) (f.noteTexts line ++ ts)
  | wide (g f post ts) (hw : f.TooWide) (h : EndingSays ann line f.name post ts) :
      LineSays ann line (.feature g f post) (f.noteTexts line ++ f.wideText line :: ts)
  | openRange (g name r post) :
      LineSays ann line (.openRange g name r post)
        [about line (ascii "ERR expected ']' : '" ++ upToNul (name ++ g 1 ++ r.openText g ++ [nextChar post]) ++ ascii "'")]
  | inverted (g name r post) :
      LineSays ann line (.inverted g name r post) [about line (ascii "SKIP inverted range " ++ featureShown name r)]
  | badFormat (g name r w c post) :
      LineSays ann line (.badFormat g name r w c post) (widthSays line name r w ++ [baseText line c])
  | dangling (g name r w) :
      LineSays ann line (.dangling g name r w) (widthSays line name r w ++ [baseText line 0x0a])

/-- The shape swallows the next line. -/
def LineShape.Swallows : LineShape → Bool
  | .dangling .. => true
  | _ => false

/-- What is printed about lines, the first of which has the number `n + 1`. -/
inductive TextSays (ann : Bool) : Nat → List Bytes → List Bytes → Prop where
  | nil (n) : TextSays ann n [] []
  | line {n ls ts us} (s : LineShape) (hok : s.Ok) (hs : s.Swallows = false) (h : LineSays ann (n + 1) s ts)
      (t : TextSays ann (n + 1) ls us) : TextSays ann n (s.text :: ls) (ts ++ us)
  | swallow {n ls ts us} (s : LineShape) (l2 : Bytes) (hok : s.Ok) (hs : s.Swallows = true) (h : LineSays ann (n + 1) s ts)
      (t : TextSays ann (n + 1) ls us) : TextSays ann n (s.text :: l2 :: ls) (ts ++ us)

/-- The message for a text that does not end in a newline. -/
def noNewlineText : Bytes := ascii "content does not end with a newline\n"

/-- The message `t` belongs to a diagnostic of severity `sev` about line `line` (0: about the text as a whole). -/
def Belongs (line : Nat) (sev : Verif.Fasm.Sev) (t : Bytes) : Prop :=
  if line = 0 then t = noNewlineText
  else ∃ body, t = about line body ∧
    (sev = .skipped → ascii "SKIP " <+: body) ∧ (sev = .info → ascii "INFO " <+: body) ∧
    (sev = .nonCritical → ascii "WARN " <+: body)

end Verif.Spec
