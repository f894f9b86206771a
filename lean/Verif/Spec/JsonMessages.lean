import Verif.Spec.DbMessages
import Verif.Spec.DbJson
import Verif.Spec.CNumber
import Verif.Model.DbMessages
/-! # Specification: what happens with a JSON file that does not describe a tile grid or a part

How `rapidjson::Writer` writes a value is an input (`LibTexts.render`). -/
namespace Verif.Spec
open Verif.Db

/-- What a bad value leads to. -/
inductive Trouble where
  /-- An error with this message. -/
  | says (message : Bytes)
  /-- A failed `CHECK`. -/
  | terminated
  /-- Undefined behaviour. -/
  | undefined
deriving DecidableEq, Repr

/-- Things are looked at in this order, and the first with trouble decides. -/
def FirstOf (cs : List (Trouble → Prop)) (t : Trouble) : Prop :=
  ∃ pre c post, cs = pre ++ c :: post ∧ (∀ p ∈ pre, ∀ t', ¬ p t') ∧ c t

/-- Name of the type of a value. -/
def kindWord : Json → Bytes
  | .null => ascii "null"
  | .bool _ => ascii "boolean"
  | .int _ => ascii "number"
  | .dbl => ascii "number"
  | .str _ => ascii "string"
  | .arr _ => ascii "array"
  | .obj _ => ascii "object"

/-- Not a value of the expected type. -/
def WrongType (x : LibTexts) (expected : Json → Prop) (v : Json) (t : Trouble) : Prop :=
  ¬ expected v ∧ t = .says (ascii "could not unmarshal " ++ x.render v ++ ascii ", unexpected type: " ++ kindWord v)

def IsString (v : Json) : Prop := ∃ s, v = .str s
def IsU32 (v : Json) : Prop := ∃ n, U32Json v n
def IsI32 (v : Json) : Prop := ∃ i, I32Json v i
def IsObj (v : Json) : Prop := ∃ ms, v = .obj ms

/-- Not an object. -/
def NotObject (v : Json) (t : Trouble) : Prop := ¬ IsObj v ∧ t = .says (ascii "json value not an object")

/-- A required member: the value is not an object, the member is missing, or there is trouble inside. -/
inductive Attribute (x : LibTexts) (name : Bytes) (inside : Json → Trouble → Prop) (j : Json) : Trouble → Prop where
  | noObject (t : Trouble) (h : NotObject j t) : Attribute x name inside j t
  | missing (h : NoMember j name) :
      Attribute x name inside j (.says (ascii "json attribute \"" ++ name ++ ascii "\" not found in " ++ x.render j))
  | within (v : Json) (t : Trouble) (h : Member j name v) (ht : inside v t) : Attribute x name inside j t

/-- An optional member. -/
inductive OptAttribute (name : Bytes) (inside : Json → Trouble → Prop) (j : Json) : Trouble → Prop where
  | noObject (t : Trouble) (h : NotObject j t) : OptAttribute name inside j t
  | within (v : Json) (t : Trouble) (h : Member j name v) (ht : inside v t) : OptAttribute name inside j t

/-- A map from strings to strings. -/
def MapTrouble (x : LibTexts) (j : Json) (t : Trouble) : Prop :=
  NotObject j t ∨ ∃ ms, j = .obj ms ∧ FirstOf (ms.map fun e => WrongType x IsString e.2) t

/-- A list of strings. -/
def ListTrouble (x : LibTexts) (j : Json) (t : Trouble) : Prop :=
  ((∀ is, j ≠ .arr is) ∧ t = .says (ascii "json value not an array")) ∨ ∃ is, j = .arr is ∧ FirstOf (is.map (WrongType x IsString)) t

/-- A base address: not a string, or a number that does not fit. -/
def AddressTrouble (x : LibTexts) (j : Json) (t : Trouble) : Prop :=
  WrongType x IsString j t ∨
  ∃ s i, j = .str s ∧ CNumber s i ∧ ¬ (-2 ^ 63 ≤ i ∧ i < 2 ^ 63) ∧
    t = .says (ascii "could not parse " ++ s ++ ascii " to bits address")

def AliasTrouble (x : LibTexts) (j : Json) : Trouble → Prop :=
  FirstOf [Attribute x bytes!"sites" (MapTrouble x) j, Attribute x bytes!"start_offset" (WrongType x IsU32) j,
    Attribute x bytes!"type" (WrongType x IsString) j]

def BlockTrouble (x : LibTexts) (j : Json) : Trouble → Prop :=
  FirstOf [OptAttribute bytes!"alias" (AliasTrouble x) j, Attribute x bytes!"baseaddr" (AddressTrouble x) j,
    Attribute x bytes!"frames" (WrongType x IsU32) j, Attribute x bytes!"offset" (WrongType x IsI32) j,
    Attribute x bytes!"words" (WrongType x IsU32) j]

/-- An entry keyed by the name of a bus. -/
def BusTrouble (what : String) (inside : Json → Trouble → Prop) (e : Bytes × Json) (t : Trouble) : Prop :=
  ((∀ b, untilNul e.1 ≠ busName b) ∧ t = .says (quoting what (untilNul e.1))) ∨ ((∃ b, untilNul e.1 = busName b) ∧ inside e.2 t)

/-- The bits of a tile.  That they are not an object is not noticed. -/
def BitsTrouble (x : LibTexts) (j : Json) (t : Trouble) : Prop :=
  (¬ IsObj j ∧ t = .undefined) ∨ ∃ ms, j = .obj ms ∧ FirstOf (ms.map (BusTrouble "unknown frame block type" (BlockTrouble x))) t

def TileTrouble (x : LibTexts) (j : Json) : Trouble → Prop :=
  FirstOf [Attribute x bytes!"type" (WrongType x IsString) j, Attribute x bytes!"grid_x" (WrongType x IsU32) j,
    Attribute x bytes!"grid_y" (WrongType x IsU32) j, OptAttribute bytes!"clock_region" (WrongType x IsString) j,
    Attribute x bytes!"bits" (BitsTrouble x) j, Attribute x bytes!"pin_functions" (MapTrouble x) j,
    Attribute x bytes!"sites" (MapTrouble x) j, Attribute x bytes!"prohibited_sites" (ListTrouble x) j]

/-- A tile, with its name in front of the message. -/
def NamedTileTrouble (x : LibTexts) (e : Bytes × Json) (t : Trouble) : Prop :=
  (∃ why, TileTrouble x e.2 (.says why) ∧ t = .says (ascii "could not unmarshal tile " ++ untilNul e.1 ++ ascii ": " ++ why)) ∨
  (TileTrouble x e.2 t ∧ (t = .terminated ∨ t = .undefined))

/-- A tile grid. -/
def GridTrouble (x : LibTexts) (j : Json) (t : Trouble) : Prop :=
  NotObject j t ∨ ∃ ms, j = .obj ms ∧ FirstOf (ms.map (NamedTileTrouble x)) t

/-! ## Parts -/

/-- `cannot parse "key" for value` -/
def badKey (x : LibTexts) (key : Bytes) (whole : Json) : Trouble :=
  .says (ascii "cannot parse \"" ++ key ++ ascii "\" for " ++ x.render whole)

/-- The key of entry `i` of a sequence: not a number, or not `i`. -/
inductive KeyTrouble (x : LibTexts) (whole : Json) (i : Nat) (key : Bytes) : Trouble → Prop where
  | text (h : ∀ n, ¬ IntText (untilNul key) n) : KeyTrouble x whole i key (badKey x (untilNul key) whole)
  | smallest (h : IntText (untilNul key) (-2 ^ 31)) : KeyTrouble x whole i key .undefined
  | order (n : Int) (h : IntText (untilNul key) n) (h1 : n ≠ -2 ^ 31) (h2 : n ≠ i) : KeyTrouble x whole i key .terminated

/-- Objects with keys 0, 1, 2, … in this order. -/
def SequenceTrouble (x : LibTexts) (inside : Json → Trouble → Prop) (j : Json) (t : Trouble) : Prop :=
  NotObject j t ∨ ∃ ms, j = .obj ms ∧
    FirstOf (ms.zipIdx.map fun e => FirstOf [KeyTrouble x j e.2 e.1.1, inside e.1.2]) t

/-- The columns of a bus. -/
def ColumnsTrouble (x : LibTexts) : Json → Trouble → Prop := SequenceTrouble x (Attribute x bytes!"frame_count" (WrongType x IsU32))

/-- The buses of a row. -/
def RowTrouble (x : LibTexts) (j : Json) (t : Trouble) : Prop :=
  NotObject j t ∨ ∃ ms, j = .obj ms ∧
    FirstOf (ms.map (BusTrouble "unknown config bus type" (Attribute x bytes!"configuration_columns" (ColumnsTrouble x)))) t

/-- The rows of a half. -/
def HalfTrouble (x : LibTexts) : Json → Trouble → Prop := SequenceTrouble x (Attribute x bytes!"configuration_buses" (RowTrouble x))

/-- The rows at the bottom or at the top. -/
def RowsTrouble (x : LibTexts) (side : String) (j : Json) (t : Trouble) : Prop :=
  (∃ half rows, Member j (ascii side) half ∧ Member half bytes!"rows" rows ∧ HalfTrouble x rows t) ∨
  ((¬ ∃ half rows, Member j (ascii side) half ∧ Member half bytes!"rows" rows) ∧
    t = .says (ascii "could not find global_clock_region " ++ ascii side ++ ascii " rows"))

def RegionsTrouble (x : LibTexts) (j : Json) : Trouble → Prop := FirstOf [RowsTrouble x "bottom" j, RowsTrouble x "top" j]

/-- The banks.  That they are not an object, or a location not a string, is not noticed. -/
def BanksTrouble (x : LibTexts) (j : Json) (t : Trouble) : Prop :=
  (¬ IsObj j ∧ t = .undefined) ∨ ∃ ms, j = .obj ms ∧
    FirstOf (ms.map fun e t => ((∀ n, ¬ UIntText (untilNul e.1) n) ∧ t = badKey x (untilNul e.1) j) ∨
      ((∃ n, UIntText (untilNul e.1) n) ∧ ¬ IsString e.2 ∧ t = .undefined)) t

/-- A part. -/
def PartTrouble (x : LibTexts) (j : Json) : Trouble → Prop :=
  FirstOf [Attribute x bytes!"idcode" (WrongType x IsU32) j, OptAttribute bytes!"iobanks" (BanksTrouble x) j,
    Attribute x bytes!"global_clock_regions" (RegionsTrouble x) j]

end Verif.Spec
