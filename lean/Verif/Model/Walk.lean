import Verif.Model.Database
/-! # The walk over the database directory: `/repo/fpga/database.cc:204-246`

`IndexTileTypes` of `Model/Database.lean` takes the entries of the walk as a list (`Env.listing`).  Here is where that list comes
from: the directory tree as the operating system shows it, `std::filesystem::recursive_directory_iterator` over it with the option
`skip_permission_denied`, and the loop of the program with its two error branches.  That it is the same program is proved
(`C98_same_program`). -/
namespace Verif.Db
open Verif.Text

mutual
/-- An entry of a directory, as the program finds it. -/
inductive DirEntry where
  /-- a regular file, or a symbolic link to one -/
  | file
  /-- neither a regular file nor a directory: a device, a dangling link, or a link to a directory (links are not followed:
  the option `follow_directory_symlink` is not set — database.cc:211-213) -/
  | other
  /-- `stat` fails on it -/
  | lost
  /-- a directory -/
  | dir (c : Contents)
/-- What `opendir` and then `readdir` deliver (without `.` and `..`). -/
inductive Contents where
  /-- the end of the directory -/
  | nil
  /-- opening or reading on is refused with `EACCES` -/
  | denied
  /-- opening or reading on fails otherwise -/
  | failed
  /-- an entry, and what follows -/
  | cons (name : Bytes) (node : DirEntry) (rest : Contents)
end

mutual
/-- How many entries there are in a tree. -/
def DirEntry.count : DirEntry → Nat
  | .dir c => c.count
  | _ => 0
/-- How many entries there are in a directory. -/
def Contents.count : Contents → Nat
  | .cons _ n r => 1 + n.count + r.count
  | _ => 0
end

/-- A `recursive_directory_iterator` that is not the end iterator: the entry it points at, and the open directories, innermost first,
each with what `readdir` has still to deliver. -/
structure WalkIter where
  path : Path
  node : DirEntry
  opened : List (Path × Contents)

/-- Advance the innermost directory; at its end go back to the one around it.  `skip_permission_denied`: a refusal is the end of
the directory.  Any other error makes the iterator the end iterator (`none`) and sets the error code (the standard:
[fs.rec.dir.itr.members], [fs.dir.itr.members]). -/
def nextEntry : List (Path × Contents) → Option WalkIter × Bool
  | [] => (none, false)
  | (dir, .cons name node rest) :: up => (some ⟨dir ++ [name], node, (dir, rest) :: up⟩, false)
  | (_, .nil) :: up => nextEntry up
  | (_, .denied) :: up => nextEntry up
  | (_, .failed) :: _ => (none, true)

/-- `it.increment(ec)`: into the directory the iterator points at, if it is one; then to the next entry. -/
def WalkIter.increment (it : WalkIter) : Option WalkIter × Bool :=
  match it.node with
  | .dir c => nextEntry ((it.path, c) :: it.opened)
  | _ => nextEntry it.opened

/-- `std::filesystem::is_regular_file(p, ec)`: the answer, and whether the error code is set. -/
def isRegularFile : DirEntry → Bool × Bool
  | .file => (true, false)
  | .lost => (false, true)
  | _ => (false, false)

/-- What the program prints — database.cc:221-222, 230-231. -/
inductive WalkMessage where
  | accessing (p : Path)
  | fileType (p : Path)
deriving DecidableEq, Repr

/-- One iteration without error — database.cc:226-243: the map, and what is printed. -/
def walkEntry (env : Env) (it : WalkIter) (m : List (Bytes × DbPaths)) (out : List WalkMessage) :
    List (Bytes × DbPaths) × List WalkMessage :=
  if (isRegularFile it.node).1 then
    if (isRegularFile it.node).2 then (m, out ++ [.fileType it.path])
    else
      let filename := it.path.getLast?.getD []
      if startsWith tileTypePrefix filename && jsonSuffix.isSuffixOf filename then
        let p := databasePaths env it.path
        (insertNew m p.1 p.2, out)
      else (m, out)
  else (m, out)

/-- The loop — database.cc:218-244.  `none`: more than `fuel` iterations. -/
def walkLoop (env : Env) : Nat → Option WalkIter × Bool → List (Bytes × DbPaths) → List WalkMessage →
    Option (List (Bytes × DbPaths) × List WalkMessage)
  | _, (none, _), m, out => some (m, out)
  | 0, (some _, _), _, _ => none
  | fuel + 1, (some it, true), m, out => walkLoop env fuel it.increment m (out ++ [.accessing it.path])
  | fuel + 1, (some it, false), m, out =>
    let r := walkEntry env it m out
    walkLoop env fuel it.increment r.1 r.2

/-- `IndexTileTypes` — database.cc:204-246 — on a directory `root` with contents `c`: the outcome, and what is printed. -/
def indexWalk (env : Env) (root : Path) (c : Contents) (fuel : Nat) :
    Option (Outcome (List (Bytes × DbPaths)) × List WalkMessage) :=
  match nextEntry [(root, c)] with
  | (_, true) => some (.err, [])
  | it => (walkLoop env fuel it [] []).map fun r => (.ok r.1, r.2)

/-- All entries the iterator passes, in order, with `is_regular_file`; and whether an error ended the walk. -/
def walkEntries : Nat → Option WalkIter × Bool → List (Path × Bool) × Bool
  | 0, s => ([], s.2)
  | _, (none, ec) => ([], ec)
  | fuel + 1, (some it, _) =>
    let r := walkEntries fuel it.increment
    ((it.path, (isRegularFile it.node).1) :: r.1, r.2)

/-- The list of entries `Env.listing` stands for. -/
def treeListing (root : Path) (c : Contents) : Option (List (Path × Bool)) :=
  match nextEntry [(root, c)] with
  | (_, true) => none
  | it => some (walkEntries (c.count + 1) it).1

end Verif.Db
