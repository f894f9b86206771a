import Verif.Spec.Database
import Verif.Spec.DbJson
/-! # Specification of a database directory -/
namespace Verif.Spec
open Verif.Db

/-- The file can be read and has these lines.  If no byte can be read behind its content, the last line ends in a
newline (see C65 for when that matters). -/
def TextFile (env : Env) (p : Path) (ls : List Bytes) : Prop :=
  ∃ content behind, env.read p = some (content, behind) ∧ LinesOf content ls ∧ (behind = none → content = unlines ls)

/-- The file can be read and has these lines; what is behind its content does not matter. -/
def HasLines (env : Env) (p : Path) (ls : List Bytes) : Prop :=
  ∃ content behind, env.read p = some (content, behind) ∧ LinesOf content ls

/-- The file can be read and holds a JSON document that means `a`. -/
def JsonFile {α : Type} (env : Env) (p : Path) (means : Json → α → Prop) (a : α) : Prop :=
  ∃ content j, env.read p = some content ∧ env.json content.1 = some j ∧ means j a

/-- `root/mapping/parts.yaml` and `root/mapping/devices.yaml` are well-formed, every part is complete and every device
has a fabric; the entry of the part is `info` (`none`: there is no entry). -/
def PartTable (env : Env) (root : Path) (name : Bytes) (info : Option PartInfo) : Prop :=
  ∃ parts devices : List (Bytes × YamlKind),
    HasLines env (root ++ [bytes!"mapping",
      bytes!"parts.yaml"]) (parts.map (·.1)) ∧
    HasLines env (root ++ [bytes!"mapping",
      bytes!"devices.yaml"]) (devices.map (·.1)) ∧
    (∀ l ∈ parts, YamlLine l.1 l.2) ∧ (∀ l ∈ devices, YamlLine l.1 l.2) ∧
    (∀ e ∈ entriesOf (devices.map (·.2)), e.1 ≠ [] → (propValue e.2 nameFabric).isSome) ∧
    (∀ e ∈ entriesOf (parts.map (·.2)), e.1 ≠ [] → (infoOf (devices.map (·.2)) e.2).isSome) ∧
    info = (entryOf (parts.map (·.2)) name).bind (infoOf (devices.map (·.2)))

/-- `root/part/package_pins.csv` lists the pins. -/
def PinFile (env : Env) (root : Path) (name : Bytes) (pins : PackagePins) : Prop :=
  ∃ (header : Bytes) (rows : List (Bytes × Option PackagePin)),
    TextFile env (root ++ [name, bytes!"package_pins.csv"]) (header :: rows.map (·.1)) ∧
    Cells header headerCells ∧ (∀ r ∈ rows, PinRow r.1 r.2) ∧ rows.length < 2 ^ 32 ∧ pins = rows.filterMap (·.2)

/-- The directory describes the part: tile grid, part and pins. -/
structure PartDir (env : Env) (root : Path) (name : Bytes) (grid : TileGrid) (part : Db.Part) (pins : PackagePins) :
    Prop where
  /-- root/fabric/tilegrid.json, the fabric taken from the part table -/
  grid : ∃ info, PartTable env root name (some info) ∧
    JsonFile env (root ++ [info.fabric, bytes!"tilegrid.json"])
      (GridJson HexText) grid
  /-- root/part/part.json -/
  part : JsonFile env (root ++ [name, bytes!"part.json"]) PartJson part
  pins : PinFile env root name pins

/-- A segbits file: absent, or its entries. -/
def SegFile (env : Env) (p : Path) (entries : Option (List (TileFeature × List SegmentBit))) : Prop :=
  (env.fileExists p = false ∧ entries = none) ∨
  (env.fileExists p = true ∧ ∃ ls : List (Bytes × Option (TileFeature × List SegmentBit)),
    TextFile env p (ls.map (·.1)) ∧ (∀ l ∈ ls, SegLine l.1 l.2) ∧ entries = some (ls.filterMap (·.2)))

/-- A pseudo PIP file: absent, or its entries. -/
def PipFile (env : Env) (p : Path) (entries : List (Bytes × PseudoPIPType)) : Prop :=
  (env.fileExists p = false ∧ entries = []) ∨
  (env.fileExists p = true ∧ ∃ ls : List (Bytes × Option (Bytes × PseudoPIPType)),
    TextFile env p (ls.map (·.1)) ∧ (∀ l ∈ ls, PipLine l.1 l.2) ∧ entries = ls.filterMap (·.2))

/-- The files of tile type `T`, next to the first `tile_type_T.json` found below the root. -/
def TypeFiles (env : Env) (root : Path) (T : Bytes) (clb ram : Option (List (TileFeature × List SegmentBit)))
    (pips : List (Bytes × PseudoPIPType)) : Prop :=
  ∃ entries dir, env.listing root = some entries ∧ FirstTypeDir entries T dir ∧
    SegFile env (dir ++ [segbitsFile (lowerCase T)]) clb ∧ SegFile env (dir ++ [blockRamFile (lowerCase T)]) ram ∧
    PipFile env (dir ++ [ppipsFile (lowerCase T)]) pips

/-- Segment bits that say what the files say. -/
def SaysSame (sb : SegBits) (clb ram : Option (List (TileFeature × List SegmentBit)))
    (pips : List (Bytes × PseudoPIPType)) : Prop :=
  (∀ k, listed sb k .clbIoClk = clb.bind (·.lookup k)) ∧ (∀ k, listed sb k .blockRam = ram.bind (·.lookup k)) ∧
  (∀ k, listed sb k .cfgClb = none) ∧ ∀ n, sb.pips.lookup n = pips.lookup n

end Verif.Spec
