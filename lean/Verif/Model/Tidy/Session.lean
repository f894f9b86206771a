import Verif.Model.Tidy.ReportFiles
import Verif.Model.Tidy.Progress
/-! # `scripts/run-clang-tidy-cached.cc`: everything the script writes to its two streams -/
namespace Verif.Tidy

/-- `operator<<` of `fs::path`: `std::quoted`, quotation marks around it, a backslash before quotation marks and backslashes. -/
def quoted (path : Bytes) : Bytes := [0x22] ++ (path.flatMap fun c => if c = 0x22 ∨ c = 0x5c then [0x5c, c] else [c]) ++ [0x22]

/-- What `main` and `AssembleProjectCacheDir` print before they give up — run-clang-tidy-cached.cc:571-590, 355-358 (in the order of `Host.startup`; empty if the script starts). -/
def refusalText (h : Host) : Bytes :=
  if h.present h.config = false then bytes!"Need a " ++ h.config ++ bytes!" config file.\n"
  else if h.written fTidy = none then bytes!"Script needs to be executed in toplevel project dir.\n"
  else if ((h.written fCommands).orElse fun _ => h.written fFlags) = none then
    bytes!"No compilation db compile_commands.json or compile_flags.txt found; create that first. For cmake projects, often simply\n\tln -s build/compile_commands.json .\n"
  else if h.output (h.envWithFallback vTool fTool ++ bytes!" --version") = [] then
    bytes!"Could not invoke " ++ h.envWithFallback vTool fTool ++ bytes!"; is it in PATH ?\n"
  else []

/-- `std::cerr << "Cache dir " …` — run-clang-tidy-cached.cc:600. -/
def cacheLine (dir : Bytes) : Bytes := bytes!"Cache dir " ++ quoted dir ++ [0x0a]

/-- `std::cerr << files_of_interest_.size() …` — run-clang-tidy-cached.cc:472. -/
def interestLine (files : List Item) : Bytes := decimal files.length ++ bytes!" files of interest.\n"

/-- `GetContent` on a file that is not there — run-clang-tidy-cached.cc:172-178; `why` is what `strerror` says.  `contents` is `content_dir` (:206). -/
def cantOpen (why contents : Bytes) (w : Item) : Bytes := joinPath contents (pathFor w) ++ bytes!": can't open: " ++ why ++ [0x0a]

/-- These lines in `CreateReport` — run-clang-tidy-cached.cc:520-521. -/
def missingLines (why contents : Bytes) (d : Dir) (files : List Item) : Bytes :=
  files.flatMap fun w => if (d.read (pathFor w)).isSome then [] else cantOpen why contents w

/-- `content_dir` — run-clang-tidy-cached.cc:205-206. -/
def contentsOf (dir : Bytes) : Bytes := joinPath dir bytes!"contents"

/-- `main` — run-clang-tidy-cached.cc:569-621 — with both streams: the cache directories and the other files afterwards, standard output, standard error, status.  The executions are
those of `Script`, watched.  Simplified: the files of the project can be read, the two report files can be opened. -/
inductive Session (hash : Bytes → BitVec 64) (h : Host) (argv : List Bytes) (T : Setup → Tool) (tree : List (Bytes × Option Bytes)) (pid : Nat) (terminal : Bool) (why : Bytes)
    (caches : Bytes → Dir) (k : Disk) : (Bytes → Dir) → Disk → Bytes → Bytes → Nat → Prop
  | refused (hs : h.startup hash argv = none) : Session hash h argv T tree pid terminal why caches k caches k [] (refusalText h) 1
  | nothing {s r} (hs : h.startup hash argv = some s) (hw : buildWorkList hash (caches s.dir) tree = [])
      (hr : createReport hash s.dir h.cwd (caches s.dir) (filesOfInterest hash tree) s.detailsLink s.summaryLink k = some r) :
      Session hash h argv T tree pid terminal why caches k caches r.disk r.out
        (cacheLine s.dir ++ interestLine (filesOfInterest hash tree) ++ missingLines why (contentsOf s.dir) (caches s.dir) (filesOfInterest hash tree) ++ r.err)
        (if r.count = 0 then 0 else 1)
  | work {s r jobs x t p} (hs : h.startup hash argv = some s) (hw : buildWorkList hash (caches s.dir) tree ≠ []) (hj : h.jobs = some jobs)
      (ht : Watched (T s) 0 ⟨caches s.dir, [⟨pid, buildWorkList hash (caches s.dir) tree, List.replicate jobs .idle, true⟩]⟩ x t)
      (hp : t.procs = [p]) (ha : p.alive = true) (hd : ∀ ph ∈ p.workers, ph = .stopped)
      (hr : createReport hash s.dir h.cwd t.dir (filesOfInterest hash tree) s.detailsLink s.summaryLink k = some r) :
      Session hash h argv T tree pid terminal why caches k (fun dir => if dir = s.dir then t.dir else caches dir) r.disk r.out
        (cacheLine s.dir ++ interestLine (filesOfInterest hash tree) ++ workText terminal (buildWorkList hash (caches s.dir) tree) jobs x ++
          missingLines why (contentsOf s.dir) t.dir (filesOfInterest hash tree) ++ r.err)
        (if r.count = 0 then 0 else 1)

end Verif.Tidy
