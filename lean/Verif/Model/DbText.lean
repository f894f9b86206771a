import Verif.Model.Text
import Verif.Model.DbTypes
/-! # Text database parsers: `/repo/fpga/database-parsers.cc:401-645, 658-836`

`after` is the byte located behind the last byte of the text, `none` when that location cannot be
read.  `junk s` is what `absl::SimpleAtoi` leaves in its output for an unparsable text `s`
(unspecified by absl).  Error messages are not modelled. -/
namespace Verif.Db
open Verif.Text

/-- `skip_to_eol()` — database-parsers.cc:405-407: the characters up to the newline or the end, and the
position reached.  `*it` is evaluated before `it < end`, so at the end one byte behind is read. -/
def skipToEol (after : Option UInt8) : Bytes → Outcome (Bytes × Bytes)
  | [] => match after with
    | none => .ub
    | some _ => .ok ([], [])
  | c :: r =>
    if c ≠ 0x0a then do
      let (line, rest) ← skipToEol after r
      pure (c :: line, rest)
    else .ok ([], c :: r)

/-- Loop of `LinesGenerator` — database-parsers.cc:422-429.  `line_number` is a `uint32_t`.  The sink is a
state transformer.  The first argument bounds the number of iterations (each consumes at least one
byte; it is called with the length of the text). -/
def linesLoop {σ : Type} (after : Option UInt8) (sink : σ → Nat → Bytes → Outcome σ) :
    Nat → Bytes → Nat → σ → Outcome σ
  | 0, _, _, st => .ok st
  | fuel + 1, it, n, st =>
    match it with
    | [] => .ok st
    | _ :: _ => do
      let n' := (n + 1) % 2 ^ 32
      let (line, rest) ← skipToEol after it
      let st' ← sink st n' line
      linesLoop after sink fuel rest.tail n' st'

/-- `LinesGenerator` — database-parsers.cc:413-431. -/
def linesGenerator {σ : Type} (after : Option UInt8) (content : Bytes)
    (sink : σ → Nat → Bytes → Outcome σ) (st : σ) : Outcome σ :=
  linesLoop after sink content.length content 0 st

/-! ## Pseudo PIPs -/

/-- `ParsePseudoPIPTypeFromString` — database-parsers.cc:441-455: `always`, `default`, `hint`. -/
def ppipType (s : Bytes) : Outcome PseudoPIPType :=
  if s = bytes!"always" then .ok .always
  else if s = bytes!"default" then .ok .default
  else if s = bytes!"hint" then .ok .hint
  else .err

/-- `ParsePseudoPIPDatabaseLine` — database-parsers.cc:457-473. -/
def ppipLine (out : PseudoPIPs) (_lineCount : Nat) (line : Bytes) : Outcome PseudoPIPs :=
  if line = [] then .ok out
  else match fields line with
    | [name, t] => do
      let type ← ppipType t
      pure (insertNew out name type)
    | _ => .err

/-- `ParsePseudoPIPsDatabase` — database-parsers.cc:476-489. -/
def parsePseudoPIPs (after : Option UInt8) (content : Bytes) : Outcome PseudoPIPs :=
  if content = [] then .ok [] else linesGenerator after content ppipLine []

/-! ## Segment bits -/

/-- `ParseTileFeatureNameAndAddress` — database-parsers.cc:494-519. -/
def featureNameAndAddress (junk : Bytes → Nat) (value : Bytes) : TileFeature :=
  if endsWith 0x5d value then
    match rfind 0x5b value with
    | none => (value, 0)
    | some pos =>
      let inner := (value.drop (pos + 1)).take (value.length - pos - 2)
      match atoiU32 inner with
      | none => (value, junk inner)
      | some a => (value.take pos, a)
  else (value, 0)

/-- One bit of a segbits line — database-parsers.cc:534-552. -/
def segmentBit (bit : Bytes) : Outcome SegmentBit :=
  let set := bit.head? ≠ some 0x21
  match splitBy (· = 0x5f) (if set then bit else bit.drop 1) with
  | [c0, c1] =>
    match atoiU32 c0 with
    | none => .err
    | some wc =>
      match atoiU32 c1 with
      | none => .err
      | some wb => .ok { wordColumn := wc, wordBit := wb, isSet := set }
  | _ => .err

/-- `ParseSegmentsBitsDatabaseLine` — database-parsers.cc:521-557. -/
def segbitsLine (junk : Bytes → Nat) (out : SegmentsBits) (_lineCount : Nat) (line : Bytes) :
    Outcome SegmentsBits :=
  match fields line with
  | [] => .ok out
  | [_] => .err
  | name :: bits => do
    let bs ← bits.mapM segmentBit
    pure (insertNew out (featureNameAndAddress junk name) bs)

/-- `ParseSegmentsBitsDatabase` — database-parsers.cc:560-574. -/
def parseSegmentsBits (junk : Bytes → Nat) (after : Option UInt8) (content : Bytes) : Outcome SegmentsBits :=
  if content = [] then .ok [] else linesGenerator after content (segbitsLine junk) []

/-! ## Package pins -/

/-- `kHeader` — database-parsers.cc:578-580: `pin`, `bank`, `site`, `tile`, `pin_function`. -/
def csvHeader : List Bytes :=
  [bytes!"pin", bytes!"bank", bytes!"site", bytes!"tile",
   bytes!"pin_function"]

/-- `ParsePackagePinCSVLine`, with `IsValidPackagePinCSVHeader` and `StripAsciiWhitespaces` —
database-parsers.cc:577-629. -/
def csvLine (out : PackagePins) (lineCount : Nat) (line : Bytes) : Outcome PackagePins :=
  let segments := (skipEmpty (splitBy (· = 0x2c) line)).map strip
  if lineCount = 1 then (if segments = csvHeader then .ok out else .err)
  else match segments with
    | [] => .ok out
    | [s0, s1, s2, s3, s4] =>
      match atoiU32 s1 with
      | none => .err
      | some bank => .ok (out ++ [{ pin := s0, bank := bank, site := s2, tile := s3, pinFunction := s4 }])
    | _ => .err

/-- `ParsePackagePins` — database-parsers.cc:632-645. -/
def parsePackagePins (after : Option UInt8) (content : Bytes) : Outcome PackagePins :=
  if content = [] then .ok [] else linesGenerator after content csvLine []

/-! ## Mapping YAML -/

/-- `RemoveSurroundingQuotes` — database-parsers.cc:666-676. -/
def removeQuotes (s : Bytes) : Bytes :=
  if 2 ≤ s.length then
    if (s.head? = some 0x22 ∧ s.getLast? = some 0x22) ∨ (s.head? = some 0x27 ∧ s.getLast? = some 0x27) then
      (s.drop 1).dropLast
    else s
  else s

/-- Local variables of `ParseMappingYAML`: `current_key`, `properties` and the state of the sink. -/
structure YamlSt (σ : Type) where
  key : Bytes := []
  props : List (Bytes × Bytes) := []
  out : σ

/-- Call the sink for the finished entry, if there is one — database-parsers.cc:717-722, 755-760. -/
def yamlFlush {σ : Type} (sink : σ → Bytes → List (Bytes × Bytes) → Outcome σ) (st : YamlSt σ) : Outcome σ :=
  if st.key ≠ [] then sink st.out st.key st.props else .ok st.out

/-- Body of the line loop of `ParseMappingYAML` — database-parsers.cc:702-752. -/
def yamlLine {σ : Type} (sink : σ → Bytes → List (Bytes × Bytes) → Outcome σ) (st : YamlSt σ) (line : Bytes) :
    Outcome (YamlSt σ) :=
  let trimmed := strip line
  if trimmed = [] ∨ trimmed.head? = some 0x23 then .ok st
  else
    let indent := line.length - (stripLeading line).length
    if indent = 0 then do
      let out ← yamlFlush sink st
      if endsWith 0x3a trimmed then
        pure { key := removeQuotes trimmed.dropLast, props := [], out := out }
      else .err
    else match find 0x3a trimmed with
      | none => .err
      | some pos =>
        let key := strip (trimmed.take pos)
        let value := removeQuotes (strip (trimmed.drop (pos + 1)))
        .ok { st with props := assign st.props key value }

/-- `ParseMappingYAML` — database-parsers.cc:696-763. -/
def parseMappingYAML {σ : Type} (content : Bytes) (sink : σ → Bytes → List (Bytes × Bytes) → Outcome σ)
    (st : σ) : Outcome σ := do
  let s ← (splitBy (· = 0x0a) content).foldlM (yamlLine sink) { out := st }
  yamlFlush sink s

/-- `fabric` -/
def kFabric : Bytes := bytes!"fabric"
/-- `device` -/
def kDevice : Bytes := bytes!"device"
/-- `package` -/
def kPackage : Bytes := bytes!"package"
/-- `speedgrade` -/
def kSpeedgrade : Bytes := bytes!"speedgrade"

/-- `ValueOrStatus` — database-parsers.cc:775-784. -/
def valueOrStatus (m : List (Bytes × Bytes)) (k : Bytes) : Outcome Bytes :=
  match m.lookup k with
  | none => .err
  | some v => .ok v

/-- Sink of the devices mapping — database-parsers.cc:793-803. -/
def fabricSink (fabrics : List (Bytes × Bytes)) (part : Bytes) (props : List (Bytes × Bytes)) :
    Outcome (List (Bytes × Bytes)) := do
  let fabric ← valueOrStatus props kFabric
  pure (insertNew fabrics part fabric)

/-- Sink of the parts mapping — database-parsers.cc:809-833. -/
def partSink (fabrics : List (Bytes × Bytes)) (infos : List (Bytes × PartInfo)) (part : Bytes)
    (props : List (Bytes × Bytes)) : Outcome (List (Bytes × PartInfo)) := do
  let device ← valueOrStatus props kDevice
  let package ← valueOrStatus props kPackage
  let speedgrade ← valueOrStatus props kSpeedgrade
  let fabric ← valueOrStatus fabrics device
  pure (insertNew infos part { device, fabric, package, speedgrade })

/-- `ParsePartsInfos` — database-parsers.cc:787-836. -/
def parsePartsInfos (partsYaml devicesYaml : Bytes) : Outcome (List (Bytes × PartInfo)) := do
  let fabrics ← parseMappingYAML devicesYaml fabricSink []
  parseMappingYAML partsYaml (partSink fabrics) []

end Verif.Db
