import Verif.Spec.Directory
import Verif.Spec.Ending
import Verif.Spec.CNumber
/-! # Specification: files the program asks about -/
namespace Verif.Spec
open Verif.Db Verif.Asm

/-- `mask_t.db` -/
def maskFile (t : Bytes) : Bytes := bytes!"mask_" ++ t ++ bytes!".db"

/-- Next to every regular file `tile_type_T.json` below the root, the program asks whether there are four other files. -/
def AsksAbout (env : Env) (root : Path) (p : Path) : Prop :=
  ∃ entries dir T name, env.listing root = some entries ∧ (dir ++ [tileTypeFile T], true) ∈ entries ∧ p = dir ++ [name] ∧
    (name = segbitsFile (lowerCase T) ∨ name = blockRamFile (lowerCase T) ∨ name = ppipsFile (lowerCase T) ∨ name = maskFile (lowerCase T))

/-- The part is in the part table, and its tile grid can be read. -/
def GridLoads (env : Env) (root : Path) (part : Bytes) : Prop :=
  ∃ info grid, PartTable env root part (some info) ∧
    JsonFile env (root ++ [info.fabric, bytes!"tilegrid.json"]) (GridJson AddressText) grid

/-- The program asks about a path on which the system refuses to answer. -/
inductive NoAnswer (refuses : Path → Bool) (env : Env) (inv : Invocation) : Prop where
  /-- the database directory -/
  | directory (path : Bytes) (h : inv.args.length ≤ 2) (h1 : Setting inv.dbFlag inv.dbEnv path) (h2 : path ≠ []) (h3 : refuses [path] = true)
  /-- a file next to a tile type file -/
  | file (path : Bytes) (p : Path) (h : Configured env inv path) (h1 : refuses [path] = false) (h2 : GridLoads env [path] inv.part)
      (h3 : AsksAbout env [path] p) (h4 : refuses p = true)

/-- Some name below the database directory is longer than the 255 bytes Linux allows. -/
def longName (p : Path) : Bool := (p.drop 1).any fun c => decide (255 < c.length)

/-- A directory as one can be: everything in it is below the root, and no name is longer than 255 bytes. -/
def RealListing (env : Env) (path : Bytes) : Prop :=
  ∀ entries, env.listing [path] = some entries → ∀ e ∈ entries, ∃ r, r ≠ [] ∧ e.1 = path :: r ∧ ∀ c ∈ r, c.length ≤ 255

end Verif.Spec
