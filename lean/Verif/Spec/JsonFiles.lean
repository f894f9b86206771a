import Verif.Spec.Directory
import Verif.Spec.JsonText
/-! # Specification: the files of a database directory, byte by byte -/
namespace Verif.Spec
open Verif.Db

/-- The file can be read and its bytes are JSON text for a value that means `a`. -/
def JsonBytes {α : Type} (big : Bytes → Bool) (env : Env) (p : Path) (means : Json → α → Prop) (a : α) : Prop :=
  ∃ content j, env.read p = some content ∧ JsonGrammar.Reads big content.1 j ∧ means j a

/-- The files of a part under `root`, as `PartDir`, down to the bytes of the JSON files. -/
structure PartFiles (big : Bytes → Bool) (env : Env) (root : Path) (name : Bytes) (grid : TileGrid) (part : Db.Part) (pins : PackagePins) :
    Prop where
  /-- root/fabric/tilegrid.json, the fabric taken from the part table -/
  grid : ∃ info, PartTable env root name (some info) ∧
    JsonBytes big env (root ++ [info.fabric, bytes!"tilegrid.json"])
      (GridJson HexText) grid
  /-- root/part/part.json -/
  part : JsonBytes big env (root ++ [name, bytes!"part.json"]) PartJson part
  pins : PinFile env root name pins

end Verif.Spec
