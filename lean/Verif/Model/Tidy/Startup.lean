import Verif.Model.Tidy.Command
import Verif.Model.Tidy.Report
import Verif.Model.Text
/-! # `scripts/run-clang-tidy-cached.cc`: what `main` does before the work, and the places it uses -/
namespace Verif.Tidy

/-- What the script asks the system for.  Simplified: `fs::exists` does not throw, and everything stays as it is while the script starts.
`written` is `fs::last_write_time` (`none`: an error), `content` what `GetContent` (run-clang-tidy-cached.cc:173-181) returns (empty for unreadable files), `output` what a command
run by `GetCommandOutput` (:192-194) prints, `cores` is `std::thread::hardware_concurrency()`. -/
structure Host where
  getenv : Bytes → Option Bytes
  present : Bytes → Bool
  written : Bytes → Option Nat
  content : Bytes → Bytes
  cwd : Bytes
  output : Bytes → Bytes
  cores : Nat

/-- `CLANG_TIDY_CONFIG` -/
def vConfig : Bytes := bytes!"CLANG_TIDY_CONFIG"
/-- `CLANG_TIDY_JOBS` -/
def vJobs : Bytes := bytes!"CLANG_TIDY_JOBS"
/-- `CLANG_TIDY` -/
def vTool : Bytes := bytes!"CLANG_TIDY"
/-- `CACHE_DIR` -/
def vCacheDir : Bytes := bytes!"CACHE_DIR"
/-- `HOME` -/
def vHome : Bytes := bytes!"HOME"
/-- `TMPDIR` -/
def vTmp : Bytes := bytes!"TMPDIR"
/-- `.clang-tidy` — run-clang-tidy-cached.cc:92, 119: `toplevel_build_file` and `clang_tidy_file`. -/
def fTidy : Bytes := bytes!".clang-tidy"
/-- `compile_commands.json` -/
def fCommands : Bytes :=
  bytes!"compile_commands.json"
/-- `compile_flags.txt` -/
def fFlags : Bytes := bytes!"compile_flags.txt"
/-- `clang-tidy` -/
def fTool : Bytes := bytes!"clang-tidy"

/-- `EnvWithFallback` — run-clang-tidy-cached.cc:183-186. -/
def Host.envWithFallback (h : Host) (var fallback : Bytes) : Bytes := (h.getenv var).getD fallback

/-- `GetClangTidyConfig` — run-clang-tidy-cached.cc:188-190. -/
def Host.config (h : Host) : Bytes := h.envWithFallback vConfig fTidy

/-- `std::filesystem::path::operator/`: a separator goes in between unless there is one or the left is empty; an absolute path replaces the left. -/
def joinPath (a b : Bytes) : Bytes :=
  if b.head? = some 0x2f then b
  else if a = [] ∨ a.getLast? = some 0x2f then a ++ b
  else a ++ bytes!"/" ++ b

/-- `GetCacheBaseDir` — run-clang-tidy-cached.cc:326-336. -/
def Host.cacheBase (h : Host) : Bytes :=
  match h.getenv vCacheDir with
  | some dir => dir
  | none =>
    let tmp := h.envWithFallback vTmp bytes!"/tmp"
    match h.getenv vHome with
    | some home =>
      let cdir := joinPath home bytes!".cache/"
      if h.present cdir then cdir else tmp
    | none => tmp

/-- What the rest of `main` works with; `latest` is the time `NeedsRefresh` compares with (never, as configured: :126, 231-234). -/
structure Setup where
  tool : Bytes
  args : Bytes
  latest : Nat
  dir : Bytes
  detailsLink : Bytes
  summaryLink : Bytes

/-- `ClangTidyRunner` and `AssembleProjectCacheDir` — run-clang-tidy-cached.cc:245-249, 350-370; `none` is `exit(EXIT_FAILURE)`. -/
def Host.runner (hash : Bytes → BitVec 64) (h : Host) (argv : List Bytes) (cachePrefix : Bytes) : Option (Bytes × Bytes × Bytes) :=
  let tool := h.envWithFallback vTool fTool
  let args := assembleArgs h.config argv
  let version := h.output (tool ++ bytes!" --version")
  if version = [] then none
  else some (tool, args, joinPath (joinPath h.cacheBase fTool) (projectDir hash cachePrefix version args (h.content h.config)))

/-- `main` up to the store — run-clang-tidy-cached.cc:569-606, 613-614; `none` is `return EXIT_FAILURE`.  The configured prefix is empty (:68, 123-127), so it is always the name of
the directory. -/
def Host.startup (hash : Bytes → BitVec 64) (h : Host) (argv : List Bytes) : Option Setup :=
  if h.present h.config = false then none
  else match h.written fTidy with
  | none => none
  | some build =>
    match (h.written fCommands).orElse fun _ => h.written fFlags with
    | none => none
    | some compdb =>
      let cachePrefix := filename h.cwd ++ bytes!"_"
      match h.runner hash argv cachePrefix with
      | none => none
      | some (tool, args, dir) =>
        some { tool, args, latest := max build compdb, dir
               detailsLink := cachePrefix ++ fTool ++ bytes!".out"
               summaryLink := cachePrefix ++ fTool ++ bytes!".summary" }

/-- `atoi`: white space, a sign, digits; what follows is ignored.  `none`: not an `int`, undefined. -/
def atoi (s : Bytes) : Option Int :=
  let (neg, d) := Text.signSplit (s.dropWhile Text.isSpace)
  let n : Int := (d.takeWhile isDigit).foldl (fun v c => v * 10 + (c.toNat - 0x30)) 0
  let v := if neg then -n else n
  if -(2 ^ 31) ≤ v ∧ v < 2 ^ 31 then some v else none

/-- `kJobs` — run-clang-tidy-cached.cc:258-261; `none` is undefined behaviour of `atoi`. -/
def Host.jobs (h : Host) : Option Nat :=
  match h.getenv vJobs with
  | none => some h.cores
  | some s => match atoi s with
    | none => none
    | some n => some (if 0 < n then n.toNat else h.cores)

/-- `tidy_outfile` and `tidy_summary` — run-clang-tidy-cached.cc:500-502: `tidy.out-…`, `tidy-summary.out-…`. -/
def reportFiles (hash : Bytes → BitVec 64) (dir cwd : Bytes) : Bytes × Bytes :=
  (joinPath dir (bytes!"tidy.out-" ++ toHex (hash cwd)),
   joinPath dir (bytes!"tidy-summary.out-" ++ toHex (hash cwd)))

/-- `main` — run-clang-tidy-cached.cc:569-621: the contents of all cache directories before and after, and the status.  `T` is what the tool does when started as `Setup` says;
the number of workers is asked for if there is work only (:256-260). -/
inductive Script (hash : Bytes → BitVec 64) (h : Host) (argv : List Bytes) (T : Setup → Tool) (tree : List (Bytes × Option Bytes)) (pid : Nat) (caches : Bytes → Dir) :
    (Bytes → Dir) → Nat → Prop
  | refused (hs : h.startup hash argv = none) : Script hash h argv T tree pid caches caches 1
  | ran {s jobs d' status} (hs : h.startup hash argv = some s) (hj : buildWorkList hash (caches s.dir) tree ≠ [] → h.jobs = some jobs)
      (hr : MainRun (T s) hash tree pid jobs (caches s.dir) d' status) :
      Script hash h argv T tree pid caches (fun dir => if dir = s.dir then d' else caches dir) status

end Verif.Tidy
