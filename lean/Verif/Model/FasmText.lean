import Verif.Model.Fasm
/-! # What the FASM parser prints: the messages of `/repo/fpga/fasm-parser.h`

The parser of `Model/Fasm.lean` once more, with the text of every `fprintf(errstream, …)`.  That both are the same parser apart from
the texts is proved (`C92_same_parser`).  Functions that print nothing are shared.

Simplification: names and lines shorter than 2^31 characters (a longer one makes the precision of `%.*s` negative). -/
namespace Verif.Fasm

/-- A string literal of the source (ASCII). -/
def lit (s : String) : Bytes := s.toList.map fun c => UInt8.ofNat c.toNat

/-- `%u`, and `PRIu64`. -/
def printU (n : Nat) : Bytes := (Nat.toDigits 10 n).map fun c => UInt8.ofNat c.toNat

/-- `%d` given an unsigned 32-bit number. -/
def printD (n : Nat) : Bytes := if toInt32 n < 0 then 0x2d :: printU (-toInt32 n).toNat else printU (toInt32 n).toNat

/-- `%.*s` given the length of the text: stops at a NUL. -/
def printS (text : Bytes) : Bytes := text.takeWhile (· ≠ 0)

/-- Parser state and the texts printed, one for each call of `fprintf`. -/
structure Log where
  st : St := {}
  out : List Bytes := []
deriving DecidableEq

/-- Print a message and raise `result` (see `St.report`). -/
def Log.print (o : Log) (line : Nat) (sev : Sev) (text : Bytes) : Log := ⟨o.st.report line sev, o.out ++ [text]⟩

/-- `%.*s[%d:%d]` with the feature and its range (`max_bit`, `min_bit` are promoted to `int`). -/
def printRange (name : Bytes) (maxBit minBit : Nat) : Bytes :=
  printS name ++ lit "[" ++ printD maxBit ++ lit ":" ++ printD minBit ++ lit "]"

/-- fasm-parser.h:220-221 -/
def msgBracket (line : Nat) (shown : Bytes) : Bytes := printU line ++ lit ": ERR expected ']' : '" ++ printS shown ++ lit "'\n"
/-- fasm-parser.h:228-230 -/
def msgInverted (line : Nat) (name : Bytes) (maxBit minBit : Nat) : Bytes :=
  printU line ++ lit ": SKIP inverted range " ++ printRange name maxBit minBit ++ lit "\n"
/-- fasm-parser.h:259-264 -/
def msgMoreBits (line declared : Nat) (name : Bytes) (maxBit minBit width : Nat) : Bytes :=
  printU line ++ lit ": WARN Attempt to assign more bits (" ++ printU declared ++ lit "') for " ++ printRange name maxBit minBit ++
    lit " with supported bit width of " ++ printU width ++ lit "\n"
/-- fasm-parser.h:274-279, 309-314 -/
def msgTooWide (line : Nat) (name : Bytes) (maxBit minBit width : Nat) : Bytes :=
  printU line ++ lit ": ERR: Sorry, can only deal with ranges <= 64 bit currently for integers " ++ printRange name maxBit minBit ++
    lit "; trimming width " ++ printU width ++ lit " to 64\n"
/-- fasm-parser.h:296-299 -/
def msgBase (line : Nat) (c : UInt8) : Bytes :=
  printU line ++ lit ": unknown base signifier '" ++ [c] ++ lit "'; expected one of b, d, h, o\n"
/-- fasm-parser.h:324-327 -/
def msgNoAssignment (line : Nat) (name : Bytes) (maxBit minBit : Nat) : Bytes :=
  printU line ++ lit ": INFO Range of bits " ++ printRange name maxBit minBit ++ lit ", but no assignment\n"
/-- fasm-parser.h:365-366 -/
def msgAnnotationEq (line : Nat) (aname : Bytes) : Bytes := printD line ++ lit ": annotation " ++ printS aname ++ lit ": expected '='\n"
/-- fasm-parser.h:374-377 -/
def msgNotQuoted (line : Nat) (feature aname : Bytes) : Bytes :=
  printD line ++ lit ": " ++ printS feature ++ lit " : annotation '" ++ printS aname ++ lit "': value not quoted\n"
/-- fasm-parser.h:390-392 -/
def msgUnfinished (line : Nat) : Bytes := printD line ++ lit ": annotation not finished before end of line\n"
/-- fasm-parser.h:403-404 -/
def msgBrace (line : Nat) (c : UInt8) : Bytes := printD line ++ lit ": annotations: expected ',' or '}'; got '" ++ [c] ++ lit "'\n"
/-- fasm-parser.h:417 -/
def msgNewline (line : Nat) (c : UInt8) : Bytes := printD line ++ lit ": expected newline, got '" ++ [c] ++ lit "'\n"
/-- fasm-parser.h:181 -/
def msgNoNewline : Bytes := lit "content does not end with a newline\n"

/-- Result of reading the optional bit range, with the numbers of an inverted one. -/
inductive RangeM where
  | bits (max min : Nat)
  | noBracket
  | inverted (max min : Nat)
deriving DecidableEq

/-- The optional `[max:min]` — fasm-parser.h:206-235. -/
def parseRangeM (input : Bytes) : Res (RangeM × Bytes) := do
  let c ← cur input
  if c = chLBrack then
    let (maxBit, input) ← number 10 16 0 (adv input)
    let input ← skipBlank input
    let (minBit, input) ← rangeMin maxBit input
    let c ← cur input
    if c ≠ chRBrack then pure (.noBracket, input)
    else if maxBit < minBit then pure (.inverted maxBit minBit, adv input)
    else pure (.bits maxBit minBit, adv input)
  else pure (.bits 0 0, input)

/-- fasm-parser.h:269-282 and 308-318. -/
def clampWidthM (o : Log) (line : Nat) (name : Bytes) (maxBit minBit width : Nat) (integer : Bool) : Log × Nat :=
  if width > 64 ∧ integer then (o.print line .error (msgTooWide line name maxBit minBit width), 64) else (o, width)

/-- fasm-parser.h:284-305. -/
def parseValueM (o : Log) (line : Nat) (format : UInt8) (input : Bytes) : Res (Log × List Nat × Bytes) :=
  if format = 0x68 then do                                   -- 'h'
    let (v, input) ← longNumber 4 input
    pure (o, v, input)
  else if format = 0x62 then do                              -- 'b'
    let (v, input) ← longNumber 1 input
    pure (o, v, input)
  else if format = 0x6f then do                              -- 'o'
    let (v, input) ← number 8 64 0 input
    pure (o, [v], input)
  else if format = 0x64 then do                              -- 'd'
    let (v, input) ← number 10 64 0 input
    pure (o, [v], input)
  else do
    let input ← skipToEol input
    pure (o.print line .error (msgBase line format), [1], input)

/-- fasm-parser.h:253-306. -/
def parseTickedM (o : Log) (line : Nat) (name : Bytes) (maxBit minBit width declared : Nat) (input : Bytes) :
    Res (Log × Nat × List Nat × Bytes) := do
  let input ← skipBlank input
  let o := if declared > width then o.print line .nonCritical (msgMoreBits line declared name maxBit minBit width) else o
  let format ← cur input
  let (o, width) := clampWidthM o line name maxBit minBit width (format = 0x64 ∨ format = 0x6f)
  let (o, bitset, input) ← parseValueM o line format (adv input)
  let input ← skipBlank input
  pure (o, width, bitset, input)

/-- fasm-parser.h:238-330. -/
def parseAssignM (o : Log) (line : Nat) (name : Bytes) (maxBit minBit : Nat) (input : Bytes) :
    Res (Log × Nat × List Nat × Bytes) := do
  let width := maxBit - minBit + 1
  let c ← cur input
  if c = chEq then
    let input ← skipBlank (adv input)
    let (valueOrWidth, input) ← leadNumber input
    let input ← skipBlank input
    let c ← cur input
    if c = chTick then parseTickedM o line name maxBit minBit width valueOrWidth (adv input)
    else
      let (o, width) := clampWidthM o line name maxBit minBit width true
      pure (o, width, [valueOrWidth], input)
  else
    let o := if minBit ≠ maxBit then o.print line .info (msgNoAssignment line name maxBit minBit) else o
    pure (o, width, [1], input)

/-- fasm-parser.h:353-401. -/
def annotationsM (line : Nat) (feature : Bytes) : Nat → Log → Bytes → Res (Log × Bytes)
  | 0, _, _ => .oob
  | fuel + 1, o, input => do
    let input ← skipBlank (adv input)
    let (aname, input) ← ident input
    let input ← skipBlank input
    let c ← cur input
    if c ≠ chEq then pure (o.print line .error (msgAnnotationEq line aname), input)
    else
      let input ← skipBlank (adv input)
      let c ← cur input
      if c ≠ chQuote then pure (o.print line .error (msgNotQuoted line feature aname), input)
      else
        let (value, input) ← quoted chQuote (adv input)
        let c ← cur input
        if c = chNl then pure (o.print line .error (msgUnfinished line), input)
        else
          let o : Log := { o with st := { o.st with trace := o.st.trace ++ [.annotation line feature aname value] } }
          let input ← skipBlank (adv input)
          let c ← cur input
          if c = chComma then annotationsM line feature fuel o input
          else pure (o, input)

/-- fasm-parser.h:350-411. -/
def parseAnnotationsM (ann : Bool) (o : Log) (line : Nat) (feature : Bytes) (input : Bytes) : Res (Log × Bytes) :=
  if ann then do
    let (o, input) ← annotationsM line feature (input.length + 1) o input
    let c ← cur input
    let o := if c ≠ chRBrace then o.print line .error (msgBrace line c) else o
    let input ← skipToEol input
    pure (o, input)
  else do
    let input ← skipToEol input
    pure (o, input)

/-- fasm-parser.h:413-423. -/
def parseEndM (o : Log) (line : Nat) (input : Bytes) : Res (Log × Bytes) := do
  let c ← cur input
  if c = chHash ∨ c = chCr then
    let input ← skipToEol input
    pure (o, adv input)
  else if c ≠ chNl then
    let input ← skipToEol input
    pure (o.print line .error (msgNewline line c), adv input)
  else pure (o, adv input)

/-- fasm-parser.h:350-424. -/
def parseTailM (ann : Bool) (o : Log) (line : Nat) (feature : Bytes) (input : Bytes) : Res (Log × Bytes) := do
  let c ← cur input
  if c = chLBrace then
    let (o, input) ← parseAnnotationsM ann o line feature input
    parseEndM o line input
  else parseEndM o line input

/-- fasm-parser.h:190-425.  `int(it + 1 - start_feature)` characters from `start_feature` on are the line from there up to and
including the character that should have been `]`. -/
def parseLineM (ann : Bool) (cb : List Event → Bool) (o : Log) (line : Nat) (input : Bytes) : Res (Log × Bytes) := do
  let start ← skipBlank input
  let (feature, input) ← ident start
  let input ← skipBlank input
  if feature.isEmpty then parseTailM ann o line feature input
  else
    let (range, input) ← parseRangeM input
    match range with
    | .noBracket =>
      let o := o.print line .error (msgBracket line (start.take (start.length - input.length + 1)))
      let input ← skipToEol input
      pure (o, adv input)
    | .inverted maxBit minBit =>
      let o := o.print line .skipped (msgInverted line feature maxBit minBit)
      let input ← skipToEol input
      pure (o, adv input)
    | .bits maxBit minBit =>
      let input ← skipBlank input
      let (o, width, bitset, input) ← parseAssignM o line feature maxBit minBit input
      let st ← reportChunks cb line feature minBit width bitset.length 0 bitset o.st
      parseTailM ann { o with st := st } line feature input

/-- fasm-parser.h:190-425. -/
def parseLinesM (ann : Bool) (cb : List Event → Bool) : Nat → Nat → Log → Bytes → Res Log
  | _, _, o, [] => .ok o
  | 0, _, _, _ :: _ => .oob
  | fuel + 1, line, o, input => do
    let line := (line + 1) % 2 ^ 32
    let (o, input) ← parseLineM ann cb o line input
    parseLinesM ann cb fuel line o input

/-- `fasm::Parse` — fasm-parser.h:174-427, with what it prints. -/
def parseM (ann : Bool) (cb : List Event → Bool) (content : Bytes) : Res Log :=
  match content.getLast? with
  | none => .ok {}
  | some c => if c ≠ chNl then .ok (({} : Log).print 0 .error msgNoNewline)
    else parseLinesM ann cb content.length 0 {} content

end Verif.Fasm
