import Verif.Model.Basic
/-! # The FASM parser: `/repo/fpga/fasm-parser.h`

The content is a byte list; the pointer `it` is the suffix it points at.  Dereferencing at the end
of the buffer is the outcome `oob`; shifting a 64-bit value by 64 or more is the outcome `shift`.

Callbacks: all calls, in order, are recorded in a trace; `cb trace` is the Boolean the feature
callback returns for the last call of `trace` (it may depend on the whole history).  `ann` says
whether an annotation callback was supplied. -/
namespace Verif.Fasm

/-- `ParseResult` — fasm-parser.h:45-52, by severity. -/
inductive Sev where
  | success | info | nonCritical | skipped | userAbort | error
deriving DecidableEq, Repr

/-- Numeric value of the enumerator. -/
def Sev.rank : Sev → Nat
  | .success => 0 | .info => 1 | .nonCritical => 2 | .skipped => 3 | .userAbort => 4 | .error => 5

/-- `std::max` on `ParseResult`. -/
def Sev.max (a b : Sev) : Sev := if a.rank < b.rank then b else a

/-- Outcome of a piece of parser code. -/
inductive Res (α : Type) where
  | ok (a : α)
  /-- a read outside the buffer -/
  | oob
  /-- a shift by 64 or more -/
  | shift
deriving DecidableEq, Repr

/-- Sequencing. -/
@[simp] def Res.bind {α β : Type} : Res α → (α → Res β) → Res β
  | .ok a, f => f a
  | .oob, _ => .oob
  | .shift, _ => .shift

instance : Monad Res where
  pure := .ok
  bind := Res.bind

@[simp] theorem Res.pure_eq {α : Type} (a : α) : (pure a : Res α) = .ok a := rfl
@[simp] theorem Res.bind_ok {α β : Type} (a : α) (f : α → Res β) : (Res.ok a >>= f) = f a := rfl
@[simp] theorem Res.bind_oob {α β : Type} (f : α → Res β) : ((Res.oob : Res α) >>= f) = .oob := rfl
@[simp] theorem Res.bind_shift {α β : Type} (f : α → Res β) : ((Res.shift : Res α) >>= f) = .shift := rfl

/-- A callback invocation: `ParseCallback` — fasm-parser.h:34-36 — or `AnnotationCallback` — 40-42. -/
inductive Event where
  | feature (line : Nat) (name : Bytes) (start width : Int) (bits : Nat)
  | annotation (line : Nat) (feature name value : Bytes)
deriving DecidableEq, Repr

/-- Parser state: `result`, the calls made so far, and the diagnostics printed to `errstream`
(line number and severity; the texts are in `Model/FasmText.lean`). -/
structure St where
  result : Sev := .success
  trace : List Event := []
  diags : List (Nat × Sev) := []
deriving DecidableEq, Repr

/-- Print a diagnostic and raise `result`.  The code writes `result = kError` for errors and
`result = std::max(result, …)` otherwise; `kError` is the maximum, so both are `max`. -/
def St.report (st : St) (line : Nat) (sev : Sev) : St :=
  { st with result := st.result.max sev, diags := st.diags ++ [(line, sev)] }

/-! ## Tables -/

/-- `kDigitToInt` — fasm-parser.h:91-108. -/
def digitTable : List Int := [
   99, 99, 99, 99, 99, 99, 99, 99, 99, 99, 99, 99, 99, 99, 99, 99,
   99, 99, 99, 99, 99, 99, 99, 99, 99, 99, 99, 99, 99, 99, 99, 99,
   99, 99, 99, 99, 99, 99, 99, 99, 99, 99, 99, 99, 99, 99, 99, 99,
   0, 1, 2, 3, 4, 5, 6, 7, 8, 9, 99, 99, 99, 99, 99, 99,
   99, 10, 11, 12, 13, 14, 15, 99, 99, 99, 99, 99, 99, 99, 99, 99,
   99, 99, 99, 99, 99, 99, 99, 99, 99, 99, 99, 99, 99, 99, 99, -1,
   99, 10, 11, 12, 13, 14, 15, 99, 99, 99, 99, 99, 99, 99, 99, 99,
   99, 99, 99, 99, 99, 99, 99, 99, 99, 99, 99, 99, 99, 99, 99, 99,
   99, 99, 99, 99, 99, 99, 99, 99, 99, 99, 99, 99, 99, 99, 99, 99,
   99, 99, 99, 99, 99, 99, 99, 99, 99, 99, 99, 99, 99, 99, 99, 99,
   99, 99, 99, 99, 99, 99, 99, 99, 99, 99, 99, 99, 99, 99, 99, 99,
   99, 99, 99, 99, 99, 99, 99, 99, 99, 99, 99, 99, 99, 99, 99, 99,
   99, 99, 99, 99, 99, 99, 99, 99, 99, 99, 99, 99, 99, 99, 99, 99,
   99, 99, 99, 99, 99, 99, 99, 99, 99, 99, 99, 99, 99, 99, 99, 99,
   99, 99, 99, 99, 99, 99, 99, 99, 99, 99, 99, 99, 99, 99, 99, 99,
   99, 99, 99, 99, 99, 99, 99, 99, 99, 99, 99, 99, 99, 99, 99, 99]

/-- `kValidIdentifier` — fasm-parser.h:111-128. -/
def identTable : List Nat := [
   0, 0, 0, 0, 0, 0, 0, 0, 0, 0, 0, 0, 0, 0, 0, 0,
   0, 0, 0, 0, 0, 0, 0, 0, 0, 0, 0, 0, 0, 0, 0, 0,
   0, 0, 0, 0, 0, 0, 0, 0, 0, 0, 0, 0, 0, 0, 1, 0,
   1, 1, 1, 1, 1, 1, 1, 1, 1, 1, 0, 0, 0, 0, 0, 0,
   0, 1, 1, 1, 1, 1, 1, 1, 1, 1, 1, 1, 1, 1, 1, 1,
   1, 1, 1, 1, 1, 1, 1, 1, 1, 1, 1, 0, 0, 0, 0, 1,
   0, 1, 1, 1, 1, 1, 1, 1, 1, 1, 1, 1, 1, 1, 1, 1,
   1, 1, 1, 1, 1, 1, 1, 1, 1, 1, 1, 0, 0, 0, 0, 0,
   0, 0, 0, 0, 0, 0, 0, 0, 0, 0, 0, 0, 0, 0, 0, 0,
   0, 0, 0, 0, 0, 0, 0, 0, 0, 0, 0, 0, 0, 0, 0, 0,
   0, 0, 0, 0, 0, 0, 0, 0, 0, 0, 0, 0, 0, 0, 0, 0,
   0, 0, 0, 0, 0, 0, 0, 0, 0, 0, 0, 0, 0, 0, 0, 0,
   0, 0, 0, 0, 0, 0, 0, 0, 0, 0, 0, 0, 0, 0, 0, 0,
   0, 0, 0, 0, 0, 0, 0, 0, 0, 0, 0, 0, 0, 0, 0, 0,
   0, 0, 0, 0, 0, 0, 0, 0, 0, 0, 0, 0, 0, 0, 0, 0,
   0, 0, 0, 0, 0, 0, 0, 0, 0, 0, 0, 0, 0, 0, 0, 0]

/-- `internal::kDigitToInt[(uint8_t)c]`. -/
def digitOf (c : UInt8) : Int := digitTable.getD c.toNat 99

/-- `internal::kValidIdentifier[(uint8_t)c]`. -/
def isIdent (c : UInt8) : Bool := identTable.getD c.toNat 0 != 0

/-! ## Character classes used by the macros -/

/-- ' ' -/ abbrev chSpace : UInt8 := 0x20
/-- '\t' -/ abbrev chTab : UInt8 := 0x09
/-- '\n' -/ abbrev chNl : UInt8 := 0x0a
/-- '\r' -/ abbrev chCr : UInt8 := 0x0d
/-- '#' -/ abbrev chHash : UInt8 := 0x23
/-- '[' -/ abbrev chLBrack : UInt8 := 0x5b
/-- ']' -/ abbrev chRBrack : UInt8 := 0x5d
/-- ':' -/ abbrev chColon : UInt8 := 0x3a
/-- '=' -/ abbrev chEq : UInt8 := 0x3d
/-- '\'' -/ abbrev chTick : UInt8 := 0x27
/-- '{' -/ abbrev chLBrace : UInt8 := 0x7b
/-- '}' -/ abbrev chRBrace : UInt8 := 0x7d
/-- ',' -/ abbrev chComma : UInt8 := 0x2c
/-- '"' -/ abbrev chQuote : UInt8 := 0x22
/-- '\\' -/ abbrev chBackslash : UInt8 := 0x5c

/-! ## Scanning macros -/

/-- `fasm_skip_blank()` — fasm-parser.h:137-138. -/
def skipBlank : Bytes → Res Bytes
  | [] => .oob
  | c :: cs => if c = chSpace ∨ c = chTab then skipBlank cs else .ok (c :: cs)

/-- `fasm_skip_to_eol()` — fasm-parser.h:141-142. -/
def skipToEol : Bytes → Res Bytes
  | [] => .oob
  | c :: cs => if c = chNl then .ok (c :: cs) else skipToEol cs

/-- The digit loop of `fasm_parse_number_with_base` — fasm-parser.h:152-155, with `v` an unsigned
variable of `bits` bits (`v * base + d` is truncated when stored). -/
def digits (base bits : Nat) : Nat → Bytes → Res (Nat × Bytes)
  | _, [] => .oob
  | v, c :: cs =>
    if digitOf c < (base : Int) then
      if digitOf c = -1 then digits base bits v cs
      else digits base bits ((v * base + (digitOf c).toNat) % 2 ^ bits) cs
    else .ok (v, c :: cs)

/-- `fasm_parse_number_with_base(v, base)` — fasm-parser.h:150-155. -/
def number (base bits v : Nat) (input : Bytes) : Res (Nat × Bytes) := do
  let input ← skipBlank input
  digits base bits v input

/-- The digit loop of `fasm_parse_long_number_with_base` — fasm-parser.h:160-170.  `v` holds the
vector with its last element first, so the final `std::reverse` (172) is the identity on it.  `n`
counts modulo 2^32. -/
def longDigits (l2base : Nat) : Nat → List Nat → Bytes → Res (List Nat × Bytes)
  | _, _, [] => .oob
  | n, v, c :: cs =>
    if digitOf c < ((2 ^ l2base : Nat) : Int) then
      if digitOf c = -1 then longDigits l2base n v cs
      else
        let v := if n % 64 = 0 then 0 :: v else v
        match v with
        | [] => .oob  -- `back()` of an empty vector; cannot happen, the first digit has n = 0
        | b :: bs =>
          longDigits l2base ((n + l2base) % 2 ^ 32)
            ((b * 2 ^ l2base + (digitOf c).toNat) % 2 ^ 64 :: bs) cs
    else .ok (v, c :: cs)

/-- `fasm_parse_long_number_with_base(v, l2base)` on an empty vector — fasm-parser.h:158-172; the
result lists chunk 0 first. -/
def longNumber (l2base : Nat) (input : Bytes) : Res (List Nat × Bytes) := do
  let input ← skipBlank input
  let (v, input) ← longDigits l2base 0 [] input
  pure (if v.isEmpty then [0] else v, input)

/-- The identifier loops — fasm-parser.h:197-201 and 356-360. -/
def ident : Bytes → Res (Bytes × Bytes)
  | [] => .oob
  | c :: cs => if isIdent c then do
      let (name, rest) ← ident cs
      pure (c :: name, rest)
    else .ok ([], c :: cs)

/-- `*it`. -/
def cur : Bytes → Res UInt8
  | [] => .oob
  | c :: _ => .ok c

/-- `++it` (the pointer itself may reach the end of the buffer). -/
def adv (input : Bytes) : Bytes := input.tail

/-! ## One line -/

/-- Result of reading the optional bit range. -/
inductive Range where
  | bits (max min : Nat)
  | noBracket
  | inverted
deriving DecidableEq, Repr

/-- The optional `:min` — fasm-parser.h:212-218. -/
def rangeMin (maxBit : Nat) (input : Bytes) : Res (Nat × Bytes) := do
  let c ← cur input
  if c = chColon then
    let (minBit, input) ← number 10 16 0 (adv input)
    let input ← skipBlank input
    pure (minBit, input)
  else pure (maxBit, input)

/-- The optional `[max:min]` — fasm-parser.h:206-235; `max_bit`, `min_bit` are `uint16_t`. -/
def parseRange (input : Bytes) : Res (Range × Bytes) := do
  let c ← cur input
  if c = chLBrack then
    let (maxBit, input) ← number 10 16 0 (adv input)
    let input ← skipBlank input
    let (minBit, input) ← rangeMin maxBit input
    let c ← cur input
    if c ≠ chRBrack then pure (.noBracket, input)
    else if maxBit < minBit then pure (.inverted, adv input)
    else pure (.bits maxBit minBit, adv input)
  else pure (.bits 0 0, input)

/-- The number after `=`: a width or a decimal value — fasm-parser.h:246-250. -/
def leadNumber (input : Bytes) : Res (Nat × Bytes) := do
  let c ← cur input
  if digitOf c ≤ 9 then number 10 64 0 input else pure (0, input)

/-- Clamping of ranges wider than 64 bits for integer formats — fasm-parser.h:269-282 and 308-318. -/
def clampWidth (st : St) (line width : Nat) (integer : Bool) : St × Nat :=
  if width > 64 ∧ integer then (st.report line .error, 64) else (st, width)

/-- The value after the format character — fasm-parser.h:284-305. -/
def parseValue (st : St) (line : Nat) (format : UInt8) (input : Bytes) : Res (St × List Nat × Bytes) :=
  if format = 0x68 then do                                   -- 'h'
    let (v, input) ← longNumber 4 input
    pure (st, v, input)
  else if format = 0x62 then do                              -- 'b'
    let (v, input) ← longNumber 1 input
    pure (st, v, input)
  else if format = 0x6f then do                              -- 'o'
    let (v, input) ← number 8 64 0 input
    pure (st, [v], input)
  else if format = 0x64 then do                              -- 'd'
    let (v, input) ← number 10 64 0 input
    pure (st, [v], input)
  else do
    let input ← skipToEol input
    pure (st.report line .error, [1], input)

/-- After the tick of `=<width>'<format><digits>` — fasm-parser.h:253-306: new state, width, the
vector of 64-bit values (chunk 0 first), rest. -/
def parseTicked (st : St) (line width declared : Nat) (input : Bytes) :
    Res (St × Nat × List Nat × Bytes) := do
  let input ← skipBlank input
  let st := if declared > width then st.report line .nonCritical else st
  let format ← cur input
  let (st, width) := clampWidth st line width (format = 0x64 ∨ format = 0x6f)
  let (st, bitset, input) ← parseValue st line format (adv input)
  let input ← skipBlank input
  pure (st, width, bitset, input)

/-- The optional assignment — fasm-parser.h:238-330: new state, width, the vector of 64-bit values
(chunk 0 first), rest.  `width` is `uint32_t`, at most 65536. -/
def parseAssign (st : St) (line maxBit minBit : Nat) (input : Bytes) :
    Res (St × Nat × List Nat × Bytes) := do
  let width := maxBit - minBit + 1
  let c ← cur input
  if c = chEq then
    let input ← skipBlank (adv input)
    let (valueOrWidth, input) ← leadNumber input
    let input ← skipBlank input
    let c ← cur input
    if c = chTick then parseTicked st line width valueOrWidth (adv input)
    else
      let (st, width) := clampWidth st line width true
      pure (st, width, [valueOrWidth], input)
  else
    let st := if minBit ≠ maxBit then st.report line .info else st
    pure (st, width, [1], input)

/-- `value_width` — fasm-parser.h:335-338; unsigned 32-bit arithmetic. -/
def valueWidth (width total chunk : Nat) : Nat :=
  if chunk = total - 1 then ((BitVec.ofNat 32 width) - (BitVec.ofNat 32 (64 * (total - 1)))).toNat
  else 64

/-- Conversion of an unsigned 32-bit value to `int`. -/
def toInt32 (n : Nat) : Int := (BitVec.ofNat 32 n).toInt

/-- The chunk loop — fasm-parser.h:333-347: `total` is `bitset.size()`, the list holds the chunks
still to do, the first being number `chunk`. -/
def reportChunks (cb : List Event → Bool) (line : Nat) (name : Bytes) (minBit width total : Nat) :
    Nat → List Nat → St → Res St
  | _, [], st => .ok st
  | chunk, value :: more, st =>
    let vw := valueWidth width total chunk
    let amount := ((64#32 : BitVec 32) - BitVec.ofNat 32 vw).toNat
    if amount ≥ 64 then .shift
    else
      let value := value &&& ((2 ^ 64 - 1) >>> amount)
      let trace := st.trace ++ [.feature line name (toInt32 (minBit + chunk * 64)) (toInt32 vw) value]
      if cb trace then reportChunks cb line name minBit width total (chunk + 1) more { st with trace := trace }
      else .ok { st with trace := trace, result := st.result.max .userAbort }

/-- The quoted value — fasm-parser.h:381-388: from the character after the opening quote; `prev` is
`*(it - 1)`.  Returns the value and the rest at the closing quote or at the newline. -/
def quoted (prev : UInt8) : Bytes → Res (Bytes × Bytes)
  | [] => .oob
  | c :: cs =>
    if c = chNl then .ok ([], c :: cs)
    else if c = chQuote ∧ prev ≠ chBackslash then .ok ([], c :: cs)
    else do
      let (value, rest) ← quoted c cs
      pure (c :: value, rest)

/-- The annotation loop — fasm-parser.h:353-401; `input` is at the `{` or `,`.  Ends by
`break` (after a diagnostic) or when the next character is not `,`.  Every iteration
consumes a character, so the buffer length is enough fuel (running out is reported as `oob`, which
C24 excludes). -/
def annotations (line : Nat) (feature : Bytes) : Nat → St → Bytes → Res (St × Bytes)
  | 0, _, _ => .oob
  | fuel + 1, st, input => do
    let input ← skipBlank (adv input)
    let (aname, input) ← ident input
    let input ← skipBlank input
    let c ← cur input
    if c ≠ chEq then pure (st.report line .error, input)
    else
      let input ← skipBlank (adv input)
      let c ← cur input
      if c ≠ chQuote then pure (st.report line .error, input)
      else
        let (value, input) ← quoted chQuote (adv input)
        let c ← cur input
        if c = chNl then pure (st.report line .error, input)
        else
          let st := { st with trace := st.trace ++ [.annotation line feature aname value] }
          let input ← skipBlank (adv input)
          let c ← cur input
          if c = chComma then annotations line feature fuel st input
          else pure (st, input)

/-- The `{…}` part — fasm-parser.h:350-411. -/
def parseAnnotations (ann : Bool) (st : St) (line : Nat) (feature : Bytes) (input : Bytes) :
    Res (St × Bytes) :=
  if ann then do
    let (st, input) ← annotations line feature (input.length + 1) st input
    let c ← cur input
    let st := if c ≠ chRBrace then st.report line .error else st
    let input ← skipToEol input
    pure (st, input)
  else do
    let input ← skipToEol input
    pure (st, input)

/-- Comment and end of line — fasm-parser.h:413-422. -/
def parseEnd (st : St) (line : Nat) (input : Bytes) : Res (St × Bytes) := do
  let c ← cur input
  if c = chHash ∨ c = chCr then
    let input ← skipToEol input
    pure (st, adv input)
  else if c ≠ chNl then
    let input ← skipToEol input
    pure (st.report line .error, adv input)
  else pure (st, adv input)

/-- Annotations, comment and end of line — fasm-parser.h:350-422.  (After a skip to the end of the
line the next character is the newline, so the tests that follow it have a known answer.) -/
def parseTail (ann : Bool) (st : St) (line : Nat) (feature : Bytes) (input : Bytes) :
    Res (St × Bytes) := do
  let c ← cur input
  if c = chLBrace then
    let (st, input) ← parseAnnotations ann st line feature input
    parseEnd st line input
  else parseEnd st line input

/-- One iteration of the `while (it < end)` loop — fasm-parser.h:190-423. -/
def parseLine (ann : Bool) (cb : List Event → Bool) (st : St) (line : Nat) (input : Bytes) :
    Res (St × Bytes) := do
  let input ← skipBlank input
  let (feature, input) ← ident input
  let input ← skipBlank input
  if feature.isEmpty then parseTail ann st line feature input
  else
    let (range, input) ← parseRange input
    match range with
    | .noBracket =>
      let input ← skipToEol input
      pure (st.report line .error, adv input)
    | .inverted =>
      let input ← skipToEol input
      pure (st.report line .skipped, adv input)
    | .bits maxBit minBit =>
      let input ← skipBlank input
      let (st, width, bitset, input) ← parseAssign st line maxBit minBit input
      let st ← reportChunks cb line feature minBit width bitset.length 0 bitset st
      parseTail ann st line feature input

/-- The `while (it < end)` loop — fasm-parser.h:190-423.  Every iteration consumes a character, so
the length is enough fuel (running out is reported as `oob`, which C24 excludes). -/
def parseLines (ann : Bool) (cb : List Event → Bool) : Nat → Nat → St → Bytes → Res St
  | _, _, st, [] => .ok st
  | 0, _, _, _ :: _ => .oob
  | fuel + 1, line, st, input => do
    let line := (line + 1) % 2 ^ 32
    let (st, input) ← parseLine ann cb st line input
    parseLines ann cb fuel line st input

/-- `fasm::Parse(content, errstream, parse_callback, annotation_callback)` — fasm-parser.h:174-425.
The diagnostic for a missing final newline has no line number (recorded as line 0). -/
def parse (ann : Bool) (cb : List Event → Bool) (content : Bytes) : Res St :=
  match content.getLast? with
  | none => .ok {}
  | some c => if c ≠ chNl then .ok (({} : St).report 0 .error)
    else parseLines ann cb content.length 0 {} content

/-- The same loop on a content that lies in a larger buffer: `after` is what follows it in memory (reading beyond
that is `oob`); `it < end` is "more is left than `after`". -/
def parseLinesIn (ann : Bool) (cb : List Event → Bool) (after : Bytes) : Nat → Nat → St → Bytes → Res St
  | fuel, line, st, input =>
    if input.length ≤ after.length then .ok st
    else match fuel with
      | 0 => .oob
      | fuel + 1 => do
        let line := (line + 1) % 2 ^ 32
        let (st, input) ← parseLine ann cb st line input
        parseLinesIn ann cb after fuel line st input

/-- `fasm::Parse` of a content that is followed by `after` in memory — fasm-parser.h:174-425. -/
def parseIn (ann : Bool) (cb : List Event → Bool) (content after : Bytes) : Res St :=
  match content.getLast? with
  | none => .ok {}
  | some c => if c ≠ chNl then .ok (({} : St).report 0 .error)
    else parseLinesIn ann cb after content.length 0 {} (content ++ after)

end Verif.Fasm
