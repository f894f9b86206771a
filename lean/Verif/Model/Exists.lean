import Verif.Model.Assembler
/-! # Model: `std::filesystem::exists` can throw

The overload the program calls throws `filesystem_error` when the system refuses to say whether a path exists
(`ENAMETOOLONG`, `EACCES`, `ELOOP`, `EIO`); only "no such file" and "not a directory" count as answers.  Nothing
catches it: the program is terminated (`Outcome.abort`).  `Model/Database` and `Model/Assembler` assume that every
question is answered; here it is modelled that some are not.  Trusted: which errors throw (libstdc++ `status`). -/
namespace Verif.Asm
open Verif.Db Verif.Text
open Verif.Xc7 (OStream)

/-- `mask_` -/
def maskPrefix : Bytes := bytes!"mask_"

/-- `std::filesystem::exists`; `refuses`: the paths about which the system refuses to answer. -/
def existsT (refuses : Path → Bool) (env : Env) (p : Path) : Outcome Bool :=
  if refuses p then .abort else .ok (env.fileExists p)

/-- `if (exists(p)) out.emplace(p)`. -/
def ifExistsT (refuses : Path → Bool) (env : Env) (p : Path) : Outcome (Option Path) :=
  existsT refuses env p >>= fun b => .ok (if b then some p else none)

/-- `GetDatabasePaths` — database.cc:158-202, with the question about the mask file, whose answer nothing reads. -/
def databasePathsT (refuses : Path → Bool) (env : Env) (path : Path) : Outcome (Bytes × DbPaths) :=
  let filename := path.getLast?.getD []
  let base := path.dropLast
  let tileType := (filename.drop tileTypePrefix.length).take
    (filename.length - tileTypePrefix.length - jsonSuffix.length)
  let lower := tileType.map toLower
  ifExistsT refuses env (base ++ [segbitsPrefix ++ lower ++ dbSuffix]) >>= fun segbits =>
  ifExistsT refuses env (base ++ [segbitsPrefix ++ lower ++ blockRamSuffix]) >>= fun blockRam =>
  ifExistsT refuses env (base ++ [ppipsPrefix ++ lower ++ dbSuffix]) >>= fun ppips =>
  ifExistsT refuses env (base ++ [maskPrefix ++ lower ++ dbSuffix]) >>= fun _ =>
  .ok (tileType, { segbits, blockRam, ppips })

/-- One entry of the directory — database.cc:226-243. -/
def indexStepT (refuses : Path → Bool) (env : Env) (m : List (Bytes × DbPaths)) (e : Path × Bool) :
    Outcome (List (Bytes × DbPaths)) :=
  let filename := e.1.getLast?.getD []
  if e.2 && startsWith tileTypePrefix filename && jsonSuffix.isSuffixOf filename then
    databasePathsT refuses env e.1 >>= fun p => .ok (insertNew m p.1 p.2)
  else .ok m

/-- `IndexTileTypes` — database.cc:204-246. -/
def indexTileTypesT (refuses : Path → Bool) (env : Env) (root : Path) : Outcome (List (Bytes × DbPaths)) :=
  match env.listing root with
  | none => .err
  | some entries => entries.foldlM (indexStepT refuses env) []

/-- `PartDatabase::Parse` — database.cc:297-357. -/
def parseDatabaseT (refuses : Path → Bool) (env : Env) (order : LoadOrder) (root : Path) (partName : Bytes) : Outcome PartDatabase :=
  (parsePartInfo env root partName) >>= fun info =>
  (parseJsonFile env parseTileGrid (root ++ [info.fabric, kTilegrid])) >>= fun grid =>
  (indexTileTypesT refuses env root) >>= fun paths =>
  (parseJsonFile env parsePart (root ++ [partName, kPartJson])) >>= fun part =>
  (parseFile env parsePackagePins (root ++ [partName, kPackagePins])) >>= fun pins =>
  .ok { tiles := { grid := order.grid grid, bits := tilesDatabase env paths,
                   banks := Registry.create order.sets (order.part part) pins, part := order.part part }, cache := [] }

/-- `main` — assembler.cc:375-453. -/
def mainT (refuses : Path → Bool) (env : Env) (load : LoadOrder) (ord : HashOrder) (inv : Invocation) (out : OStream) (fuel : Nat) :
    Option (Outcome (Nat × OStream)) :=
  if inv.args.length > 2 then some (.ok (1, out))
  else match getOptFlagOrFromEnv inv.dbFlag inv.dbEnv with
    | .ok path =>
      if path = [] then some (.ok (1, out))
      else match existsT refuses env [path] with
        | .ok true =>
          if inv.part = [] then some (.ok (1, out))
          else match parseDatabaseT refuses env load [path] inv.part with
            | .err => some (.ok (1, out))
            | .abort => some .abort
            | .ub => some .ub
            | .ok db => mainLoaded ord inv db out fuel
        | .ok false => some (.ok (1, out))
        | .err => some (.ok (1, out))
        | .abort => some .abort
        | .ub => some .ub
    | _ => some (.ok (1, out))

end Verif.Asm
