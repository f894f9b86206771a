import Verif.Model.Tidy.Report
import Verif.Model.Tidy.Startup
/-! # `scripts/run-clang-tidy-cached.cc`: the files, links and messages `CreateReport` leaves behind -/
namespace Verif.Tidy

/-- What a name can stand for. -/
inductive Entry where
  | file (content : Bytes)
  | link (target : Bytes)
  | emptyDir
  | fullDir
deriving DecidableEq

/-- The file system, by name as the process writes it.  Simplification: different names are different files, no name is reached through a link. -/
abbrev Disk := Bytes → Option Entry

/-- One name stands for something else. -/
def Disk.put (k : Disk) (name : Bytes) (e : Option Entry) : Disk := fun n => if n = name then e else k n

/-- `std::ofstream` and `fopen(…, "wb")` — run-clang-tidy-cached.cc:519, 553: a new file or an existing one is emptied; `none`: it is not opened.
Simplification: a file that can be opened can be written; links are not followed. -/
def Disk.create (k : Disk) (name content : Bytes) : Option Disk := match k name with
  | none => some (k.put name (some (.file content)))
  | some (.file _) => some (k.put name (some (.file content)))
  | some _ => none

/-- `fs::remove` — run-clang-tidy-cached.cc:533, 560: the error of a directory that is not empty is ignored. -/
def Disk.remove (k : Disk) (name : Bytes) : Disk := match k name with
  | some .fullDir => k
  | _ => k.put name none

/-- `fs::create_symlink` — run-clang-tidy-cached.cc:534, 561: the error of a name that is taken is ignored. -/
def Disk.symlink (k : Disk) (target name : Bytes) : Disk := match k name with
  | none => k.put name (some (.link target))
  | some _ => k

/-- What `CreateReport` leaves: the file system, the two streams, and the number it returns. -/
structure ReportEnd where
  disk : Disk
  out : Bytes
  err : Bytes
  count : Nat

/-- The headline — run-clang-tidy-cached.cc:537-543. -/
def headline (checks : List (Bytes × Nat)) (detailLink summaryLink : Bytes) : Bytes :=
  if checks = [] then bytes!"No clang-tidy complaints. " ++ [0xf0, 0x9f, 0x98, 0x8e, 0x0a]
  else bytes!"Details: " ++ detailLink ++ [0x0a] ++ (bytes!"Summary: " ++ summaryLink ++ [0x0a]) ++ (bytes!"---- Summary ----" ++ [0x0a])

/-- `CreateReport` — run-clang-tidy-cached.cc:496-564.  A details file that cannot be opened is ignored by the stream; a summary file that cannot be opened is a null pointer that is
closed (`none`). -/
def createReport (hash : Bytes → BitVec 64) (dir cwd : Bytes) (d : Dir) (files : List Item) (detailLink summaryLink : Bytes) (k : Disk) : Option ReportEnd :=
  let names := reportFiles hash dir cwd
  let t := tally d files
  let k := (k.create names.1 (details d files)).getD k
  let k := (k.remove detailLink).symlink names.1 detailLink
  match k.create names.2 (summaryText t.checks) with
  | none => none
  | some k =>
    let k := (k.remove summaryLink).symlink names.2 summaryLink
    some ⟨k, summaryText t.checks, headline t.checks detailLink summaryLink, t.checks.length⟩

end Verif.Tidy
