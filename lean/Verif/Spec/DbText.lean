import Verif.Model.DbTypes
import Verif.Spec.Fasm
/-! # Specification of the text files of the database

Only the record types of `Verif.Db` are shared with the model. -/
namespace Verif.Spec
open Verif.Db

/-- ASCII white space. -/
def White (s : Bytes) : Prop :=
  ∀ c ∈ s, c = 0x20 ∨ c = 0x09 ∨ c = 0x0a ∨ c = 0x0b ∨ c = 0x0c ∨ c = 0x0d

/-- No white space at all. -/
def NoWhite (s : Bytes) : Prop :=
  ∀ c ∈ s, c ≠ 0x20 ∧ c ≠ 0x09 ∧ c ≠ 0x0a ∧ c ≠ 0x0b ∧ c ≠ 0x0c ∧ c ≠ 0x0d

/-- The lines of a text; the last one may lack its newline. -/
def LinesOf (content : Bytes) (ls : List Bytes) : Prop :=
  (∀ l ∈ ls, 0x0a ∉ l) ∧
  (content = unlines ls ∨ ∃ init last, ls = init ++ [last] ∧ last ≠ [] ∧ content = unlines init ++ last)

/-- The white-space separated fields of a line. -/
inductive Fields : Bytes → List Bytes → Prop
  | blank (s : Bytes) : White s → Fields s []
  | cons (w f rest : Bytes) (fs : List Bytes) : White w → f ≠ [] → NoWhite f →
      (∀ c, rest.head? = some c → White [c]) → Fields rest fs → Fields (w ++ f ++ rest) (f :: fs)

/-- `d` are decimal digits with value `n`. -/
def Decimal (d : Bytes) (n : Nat) : Prop :=
  d ≠ [] ∧ (∀ c ∈ d, 0x30 ≤ c ∧ c ≤ 0x39) ∧ d.foldl (fun v c => v * 10 + (c.toNat - 0x30)) 0 = n

/-- An unsigned 32-bit number as accepted in the database: digits, maybe with a plus sign and
surrounding white space. -/
def UIntText (s : Bytes) (n : Nat) : Prop :=
  ∃ w sign d w', s = w ++ sign ++ d ++ w' ∧ White w ∧ White w' ∧ (sign = [] ∨ sign = bytes!"+") ∧
    Decimal d n ∧ n < 2 ^ 32

/-- A signed 32-bit number. -/
def IntText (s : Bytes) (i : Int) : Prop :=
  ∃ w sign d w' n, s = w ++ sign ++ d ++ w' ∧ White w ∧ White w' ∧ Decimal d n ∧
    (((sign = [] ∨ sign = bytes!"+") ∧ i = n ∧ n < 2 ^ 31) ∨ (sign = bytes!"-" ∧ i = -(n : Int) ∧ n ≤ 2 ^ 31))

/-! ## Segment bits -/

/-- `c_b` or `!c_b`. -/
def BitText (s : Bytes) (b : SegmentBit) : Prop :=
  ∃ c0 c1, s = (if b.isSet then [] else bytes!"!") ++ c0 ++ 0x5f :: c1 ∧
    UIntText c0 b.wordColumn ∧ UIntText c1 b.wordBit

/-- A feature name with an address in brackets. -/
def Addressed (s name : Bytes) (addr : Nat) : Prop :=
  ∃ t, s = name ++ 0x5b :: (t ++ bytes!"]") ∧ UIntText t addr

/-- A feature name without address: it does not end in `]`, or has no `[`. -/
def Unaddressed (s : Bytes) : Prop := s.getLast? ≠ some 0x5d ∨ 0x5b ∉ s

/-- `s` names feature `name` at address `addr`. -/
def FeatureKey (s : Bytes) (k : TileFeature) : Prop :=
  Addressed s k.1 k.2 ∨ (Unaddressed s ∧ k = (s, 0))

/-- What a segbits line says: nothing, or the bits of a feature. -/
inductive SegLine : Bytes → Option (TileFeature × List SegmentBit) → Prop
  | blank (l : Bytes) : White l → SegLine l none
  | entry (l name : Bytes) (k : TileFeature) (bits : List (Bytes × SegmentBit)) :
      Fields l (name :: bits.map (·.1)) → bits ≠ [] → FeatureKey name k →
      (∀ b ∈ bits, BitText b.1 b.2) → SegLine l (some (k, bits.map (·.2)))

/-- A malformed segbits line: it has a field, and no second one or one that is not a bit. -/
def BadSegLine (l : Bytes) : Prop :=
  ∃ name bits, Fields l (name :: bits) ∧ (bits = [] ∨ ∃ b ∈ bits, ∀ v, ¬ BitText b v)

/-! ## Pseudo PIPs -/

/-- `always`, `default`, `hint`. -/
def pipWord : PseudoPIPType → Bytes
  | .always => bytes!"always"
  | .default => bytes!"default"
  | .hint => bytes!"hint"

/-- What a line of a ppips file says. -/
inductive PipLine : Bytes → Option (Bytes × PseudoPIPType) → Prop
  | empty : PipLine [] none
  | entry (l name : Bytes) (t : PseudoPIPType) : Fields l [name, pipWord t] → PipLine l (some (name, t))

/-! ## Package pins -/

/-- The comma-separated pieces of a line. -/
inductive Pieces : Bytes → List Bytes → Prop
  | last (s : Bytes) : 0x2c ∉ s → Pieces s [s]
  | cons (s rest : Bytes) (ps : List Bytes) : 0x2c ∉ s → Pieces rest ps → Pieces (s ++ 0x2c :: rest) (s :: ps)

/-- `s` is `core` with white space around it; `core` neither starts nor ends with white space. -/
def Padded (s core : Bytes) : Prop :=
  ∃ w w', s = w ++ core ++ w' ∧ White w ∧ White w' ∧
    (∀ c, core.head? = some c → NoWhite [c]) ∧ (∀ c, core.getLast? = some c → NoWhite [c])

/-- The cells of a line: its non-empty pieces without surrounding white space. -/
def Cells (l : Bytes) (cs : List Bytes) : Prop :=
  ∃ ps : List (Bytes × Bytes), Pieces l (ps.map (·.1)) ∧ (∀ p ∈ ps, p.1 ≠ [] → Padded p.1 p.2) ∧
    cs = (ps.filter (fun p => p.1 ≠ [])).map (·.2)

/-- `pin,bank,site,tile,pin_function`. -/
def headerCells : List Bytes :=
  [bytes!"pin", bytes!"bank", bytes!"site", bytes!"tile",
   bytes!"pin_function"]

/-- What a data row says. -/
inductive PinRow : Bytes → Option PackagePin → Prop
  | blank (l : Bytes) : Cells l [] → PinRow l none
  | row (l : Bytes) (p : PackagePin) (bank : Bytes) :
      Cells l [p.pin, bank, p.site, p.tile, p.pinFunction] → UIntText bank p.bank → PinRow l (some p)

end Verif.Spec

namespace Verif.Spec
open Verif.Db

/-! ## Mapping YAML -/

/-- What a line of a mapping file is. -/
inductive YamlKind where
  | skip
  | key (k : Bytes)
  | prop (k v : Bytes)
deriving DecidableEq, Repr

/-- `q` is `s` in single or double quotes, or `s` itself when it is not quoted. -/
def Quoted (q s : Bytes) : Prop :=
  q = 0x22 :: (s ++ bytes!"\"") ∨ q = 0x27 :: (s ++ bytes!"'") ∨
  (q = s ∧ ∀ t, q ≠ 0x22 :: (t ++ bytes!"\"") ∧ q ≠ 0x27 :: (t ++ bytes!"'"))

/-- Blank lines and comments; `key:` at the left margin; indented `property: value`. -/
inductive YamlLine : Bytes → YamlKind → Prop
  | blank (l : Bytes) : White l → YamlLine l .skip
  | comment (l r : Bytes) : Padded l (0x23 :: r) → YamlLine l .skip
  | key (q w k : Bytes) : White w → (∀ c, (q ++ bytes!":").head? = some c → NoWhite [c] ∧ c ≠ 0x23) → Quoted q k →
      YamlLine (q ++ 0x3a :: w) (.key k)
  | prop (l a b q k v : Bytes) : (∀ c, l.head? = some c → White [c]) → Padded l (a ++ 0x3a :: b) → 0x3a ∉ a →
      (a ++ bytes!":").head? ≠ some 0x23 → Padded a k → Padded b q → Quoted q v → YamlLine l (.prop k v)

/-- A line that is none of these: text at the left margin that does not end in a colon, or indented
text without colon. -/
def BadYamlLine (l : Bytes) : Prop :=
  ∃ core, Padded l core ∧ core ≠ [] ∧ core.head? ≠ some 0x23 ∧
    ((∃ c, l.head? = some c ∧ NoWhite [c]) ∧ core.getLast? ≠ some 0x3a ∨
     (∃ c, l.head? = some c ∧ White [c]) ∧ 0x3a ∉ core)

/-- The properties up to the next key. -/
def propsUntilKey : List YamlKind → List (Bytes × Bytes)
  | [] => []
  | .skip :: r => propsUntilKey r
  | .prop k v :: r => (k, v) :: propsUntilKey r
  | .key _ :: _ => []

/-- The entries: every key with the properties that follow it. -/
def entriesOf : List YamlKind → List (Bytes × List (Bytes × Bytes))
  | [] => []
  | .key k :: r => (k, propsUntilKey r) :: entriesOf r
  | _ :: r => entriesOf r

/-- The value of a property: the last one given. -/
def propValue (props : List (Bytes × Bytes)) (k : Bytes) : Option Bytes := props.reverse.lookup k

/-- `fabric`, `device`, `package`, `speedgrade`. -/
def nameFabric : Bytes := bytes!"fabric"
def nameDevice : Bytes := bytes!"device"
def namePackage : Bytes := bytes!"package"
def nameSpeedgrade : Bytes := bytes!"speedgrade"

/-- The entry of a name: the first with that name.  Entries with an empty name do not count. -/
def entryOf (kinds : List YamlKind) (name : Bytes) : Option (List (Bytes × Bytes)) :=
  if name = [] then none else (entriesOf kinds).lookup name

/-- Fabric of a device. -/
def fabricOf (devices : List YamlKind) (device : Bytes) : Option Bytes :=
  (entryOf devices device).bind (propValue · nameFabric)

/-- The record of an entry of the parts mapping. -/
def infoOf (devices : List YamlKind) (props : List (Bytes × Bytes)) : Option PartInfo :=
  (propValue props nameDevice).bind fun d =>
  (propValue props namePackage).bind fun p =>
  (propValue props nameSpeedgrade).bind fun s =>
  (fabricOf devices d).map fun f => { device := d, fabric := f, package := p, speedgrade := s }

end Verif.Spec
