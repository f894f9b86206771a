import Verif.Spec.Directory
import Verif.Spec.Concern
/-! # Specification: the files of a database that a design needs -/
namespace Verif.Spec
open Verif.Db Verif.Asm

/-- The design asks for a bit of a tile whose features are listed under the tile type. -/
def NamesType (tiles : Tiles) (text type : Bytes) : Prop :=
  ∃ tile feature addr t f, AsksFor tiles text tile feature addr ∧ tiles.grid.lookup tile = some t ∧ KnownAs t feature type f

/-- There in both, with the same bytes, or in neither. -/
def SameFile (env env' : Env) (p : Path) : Prop :=
  env'.fileExists p = env.fileExists p ∧ (env.fileExists p = true → env'.read p = env.read p)

/-- The two directories have the same part table, the same grid for the fabric of the part, the same description and pins of the
part, and for each of the tile types the same segbits and ppips files next to its first `tile_type_*.json`.  Nothing is said of any
other file. -/
structure NeededAlike (env env' : Env) (root : Path) (name : Bytes) (types : Bytes → Prop) : Prop where
  json_eq : env'.json = env.json
  junk_eq : env'.junk = env.junk
  root_eq : env'.fileExists root = env.fileExists root
  parts : env'.read (root ++ [bytes!"mapping", bytes!"parts.yaml"]) = env.read (root ++ [bytes!"mapping", bytes!"parts.yaml"])
  devices : env'.read (root ++ [bytes!"mapping", bytes!"devices.yaml"]) = env.read (root ++ [bytes!"mapping", bytes!"devices.yaml"])
  grid : ∀ info, PartTable env root name (some info) →
    env'.read (root ++ [info.fabric, bytes!"tilegrid.json"]) = env.read (root ++ [info.fabric, bytes!"tilegrid.json"])
  part : env'.read (root ++ [name, bytes!"part.json"]) = env.read (root ++ [name, bytes!"part.json"])
  pins : env'.read (root ++ [name, bytes!"package_pins.csv"]) = env.read (root ++ [name, bytes!"package_pins.csv"])
  listed : env.listing root = none ↔ env'.listing root = none
  dirs : ∀ entries entries', env.listing root = some entries → env'.listing root = some entries' → ∀ T, types T →
    ∀ dir, FirstTypeDir entries T dir ↔ FirstTypeDir entries' T dir
  files : ∀ entries, env.listing root = some entries → ∀ T, types T → ∀ dir, FirstTypeDir entries T dir →
    SameFile env env' (dir ++ [segbitsFile (lowerCase T)]) ∧ SameFile env env' (dir ++ [blockRamFile (lowerCase T)]) ∧
    SameFile env env' (dir ++ [ppipsFile (lowerCase T)])

end Verif.Spec
