import Verif.Model.Walk
import Verif.Spec.Directory
/-! # Specification: what lies below a directory -/
namespace Verif.Spec
open Verif.Db

/-- There is a regular file at this path below the directory (links to directories and directories that cannot be read lead nowhere). -/
inductive FileAt : Contents → Path → Prop
  | here (name : Bytes) (rest : Contents) : FileAt (.cons name .file rest) [name]
  | inside {c : Contents} {p : Path} (name : Bytes) (rest : Contents) : FileAt c p → FileAt (.cons name (.dir c) rest) (name :: p)
  | later {rest : Contents} {p : Path} (name : Bytes) (node : DirEntry) : FileAt rest p → FileAt (.cons name node rest) p

/-- Somewhere in the tree, opening or reading a directory fails (for another reason than missing permission). -/
inductive Broken : Contents → Prop
  | here : Broken .failed
  | inside {c : Contents} (name : Bytes) (rest : Contents) : Broken c → Broken (.cons name (.dir c) rest)
  | later {rest : Contents} (name : Bytes) (node : DirEntry) : Broken rest → Broken (.cons name node rest)

mutual
/-- An entry that shows more. -/
inductive RepairedEntry : DirEntry → DirEntry → Prop
  | same (n : DirEntry) : RepairedEntry n n
  | dir {c c' : Contents} : Repaired c c' → RepairedEntry (.dir c) (.dir c')
/-- A tree that shows more: where reading fails, entries follow. -/
inductive Repaired : Contents → Contents → Prop
  | nil : Repaired .nil .nil
  | denied : Repaired .denied .denied
  | failed (c : Contents) : Repaired .failed c
  | cons (name : Bytes) {n n' : DirEntry} {r r' : Contents} : RepairedEntry n n' → Repaired r r' →
      Repaired (.cons name n r) (.cons name n' r')
end

end Verif.Spec
