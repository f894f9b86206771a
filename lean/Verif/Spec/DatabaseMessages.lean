import Verif.Spec.Directory
import Verif.Spec.YamlMessages
import Verif.Spec.JsonMessages
/-! # Specification: what is said about a database that cannot be loaded

Texts made by libraries (how a JSON value is written, why a text is no JSON, why a file cannot be opened) are inputs (`LibTexts`). -/
namespace Verif.Spec
open Verif.Db

/-- A path as text: its components with slashes between them.  An absolute component (such as a root directory) replaces what is
before it, and no slash is added behind another one. -/
inductive PathText : Path → Bytes → Prop where
  | nil : PathText [] []
  | absolute (p : Path) (c : Bytes) (h : c.head? = some 0x2f) : PathText (p ++ [c]) c
  | joined {p : Path} {t : Bytes} (c : Bytes) (hp : PathText p t) (h : c.head? ≠ some 0x2f) (ht : t = [] ∨ t.getLast? = some 0x2f) :
      PathText (p ++ [c]) (t ++ c)
  | slash {p : Path} {t : Bytes} (c : Bytes) (hp : PathText p t) (h : c.head? ≠ some 0x2f) (ht : t ≠ []) (hs : t.getLast? ≠ some 0x2f) :
      PathText (p ++ [c]) (t ++ 0x2f :: c)

/-- A file that cannot be opened: its path and the reason. -/
def Unopened (x : LibTexts) (env : Env) (p : Path) (t : Trouble) : Prop :=
  env.read p = none ∧ ∃ text, PathText p text ∧ t = .says (ascii "could not open file: " ++ text ++ ascii ": " ++ x.strerror p)

/-- A file with a JSON document: it cannot be opened, is no JSON (the reason and the offset), or there is trouble inside. -/
inductive JsonFileTrouble (x : LibTexts) (env : Env) (p : Path) (inside : Json → Trouble → Prop) : Trouble → Prop where
  | unopened (t : Trouble) (h : Unopened x env p t) : JsonFileTrouble x env p inside t
  | noJson (content : Bytes) (behind : Option UInt8) (h : env.read p = some (content, behind)) (hj : env.json content = none) :
      JsonFileTrouble x env p inside
        (.says (ascii "json parsing error, " ++ (x.jsonError content).1 ++ ascii " (" ++ dec (x.jsonError content).2 ++ ascii ")"))
  | within (content : Bytes) (behind : Option UInt8) (j : Json) (t : Trouble) (h : env.read p = some (content, behind))
      (hj : env.json content = some j) (ht : inside j t) : JsonFileTrouble x env p inside t

/-- `root/mapping/parts.yaml` -/
def partsPath (root : Path) : Path := root ++ [bytes!"mapping", bytes!"parts.yaml"]
/-- `root/mapping/devices.yaml` -/
def devicesPath (root : Path) : Path := root ++ [bytes!"mapping", bytes!"devices.yaml"]

/-- The first problem of devices.yaml. -/
def DevicesTrouble (env : Env) (root : Path) (t : Trouble) : Prop :=
  ∃ ls m, HasLines env (devicesPath root) ls ∧ YamlComplaint DeviceComplaint ls m ∧ t = .says m

/-- The first problem of parts.yaml; devices.yaml has none. -/
def PartsTrouble (env : Env) (root : Path) (t : Trouble) : Prop :=
  ∃ (devices : List (Bytes × YamlKind)) (ls : List Bytes) (m : Bytes), HasLines env (devicesPath root) (devices.map (·.1)) ∧
    (∀ l ∈ devices, YamlLine l.1 l.2) ∧ AllFine DeviceComplaint (entriesOf (devices.map (·.2))) ∧ HasLines env (partsPath root) ls ∧
    YamlComplaint (PartComplaint (devices.map (·.2))) ls m ∧ t = .says m

/-- The part is not in the table. -/
def UnknownPart (env : Env) (root : Path) (part : Bytes) (t : Trouble) : Prop :=
  PartTable env root part none ∧ t = .says (quoting "invalid or unknown part" part)

/-- The tile grid of the fabric of the part. -/
def FabricTrouble (x : LibTexts) (env : Env) (root : Path) (part : Bytes) (t : Trouble) : Prop :=
  ∃ info, PartTable env root part (some info) ∧
    JsonFileTrouble x env (root ++ [info.fabric, bytes!"tilegrid.json"]) (GridTrouble x) t

/-- The database directory cannot be listed. -/
def Unlisted (env : Env) (root : Path) (t : Trouble) : Prop :=
  env.listing root = none ∧ t = .says (ascii "could not initialize directory iterator")

/-- A line of a pins file with number `n`: the first line is the header. -/
def PinLineTrouble (n : Nat) (l : Bytes) (t : Trouble) : Prop :=
  (n = 1 ∧ ¬ Cells l headerCells ∧ t = .says (atLine 1 (ascii "missing header"))) ∨
  (n ≠ 1 ∧ ∃ what, PinComplaint l what ∧ t = .says (atLine n what))

/-- The lines of a pins file.  Its last line can only be read if it ends in a newline or a byte can be read behind the content.  Line
numbers have 32 bits. -/
def PinLinesTrouble (content : Bytes) (behind : Option UInt8) (t : Trouble) : Prop :=
  ∃ ls, LinesOf content ls ∧ FirstOf (ls.zipIdx.map fun e => FirstOf
    [fun t => behind = none ∧ content ≠ unlines ls ∧ e.2 + 1 = ls.length ∧ t = .undefined, PinLineTrouble ((e.2 + 1) % 2 ^ 32) e.1]) t

/-- A pins file. -/
def PinFileTrouble (x : LibTexts) (env : Env) (p : Path) (t : Trouble) : Prop :=
  Unopened x env p t ∨ ∃ content behind, env.read p = some (content, behind) ∧ PinLinesTrouble content behind t

/-- The database: the files are looked at in this order. -/
def DatabaseTrouble (x : LibTexts) (env : Env) (root : Path) (part : Bytes) : Trouble → Prop :=
  FirstOf [Unopened x env (partsPath root), Unopened x env (devicesPath root), DevicesTrouble env root, PartsTrouble env root,
    UnknownPart env root part, FabricTrouble x env root part, Unlisted env root,
    JsonFileTrouble x env (root ++ [part, bytes!"part.json"]) (PartTrouble x),
    PinFileTrouble x env (root ++ [part, bytes!"package_pins.csv"])]

end Verif.Spec
