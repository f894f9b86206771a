import Verif.Model.Tidy.Store
/-! # Which files the lint script looks at, and what their cache key depends on -/
namespace Verif.Spec.Tidy
open Verif.Tidy

/-- White space of `<ctype.h>`. -/
def White (w : Bytes) : Prop := ∀ c ∈ w, c = 0x20 ∨ (9 ≤ c.toNat ∧ c.toNat ≤ 13)

/-- A letter. -/
def Letter (c : UInt8) : Prop := (0x41 ≤ c.toNat ∧ c.toNat ≤ 0x5a) ∨ (0x61 ≤ c.toNat ∧ c.toNat ≤ 0x7a)

/-- A path as the script recognises it in directives: characters among digits, letters, `_`, slash and dash; one dot; letters. -/
def IncludePath (path : Bytes) : Prop :=
  ∃ stem ext, path = stem ++ bytes!"." ++ ext ∧ stem ≠ [] ∧ ext ≠ [] ∧ (∀ c ∈ ext, Letter c) ∧
    ∀ c ∈ stem, (0x30 ≤ c.toNat ∧ c.toNat ≤ 0x39) ∨ Letter c ∨ c = 0x5f ∨ c = 0x2f ∨ c = 0x2d

/-- A text begins with `#include "path"`, with white space where C allows it. -/
def Directive (path text : Bytes) : Prop :=
  ∃ ws ws' rest, White ws ∧ White ws' ∧ ws' ≠ [] ∧ IncludePath path ∧
    text = bytes!"#" ++ ws ++ bytes!"include" ++ ws' ++ bytes!"\"" ++ path ++ bytes!"\"" ++ rest

open Classical in
/-- How often a text has a directive that names a file with this name. -/
noncomputable def includes (name : Bytes) : Bytes → Nat
  | [] => 0
  | c :: r => (if ∃ path, Directive path (c :: r) ∧ filename path = name then 1 else 0) + includes name r

/-- The file name is something followed by one of the endings. -/
def Ends (path : Bytes) (endings : List Bytes) : Prop := ∃ stem, ∃ e ∈ endings, stem ≠ [] ∧ filename path = stem ++ e

/-- `.h`, `.hpp`, `.hxx`, `.inl` -/
def headerEndings : List Bytes := [bytes!".h", bytes!".hpp", bytes!".hxx", bytes!".inl"]

/-- `.cc`, `.cpp`, `.cxx` -/
def sourceEndings : List Bytes := [bytes!".cc", bytes!".cpp", bytes!".cxx"]

/-- In `.git/`, `.github/` or `build/`. -/
def Excluded (path : Bytes) : Prop :=
  ∃ r, path = bytes!".git/" ++ r ∨ path = bytes!".github/" ++ r ∨ path = bytes!"build/" ++ r

open Classical in
/-- The regular files of a tree with one of the endings that are not excluded, with their contents. -/
noncomputable def filesOf (endings : List Bytes) (tree : List (Bytes × Option Bytes)) : List (Bytes × Bytes) :=
  tree.filterMap fun e => if ¬ Excluded e.1 ∧ Ends e.1 endings then e.2.map fun c => (e.1, c) else none

/-- Exclusive or of some numbers. -/
def xorAll (l : List (BitVec 64)) : BitVec 64 := l.foldr (· ^^^ ·) 0

/-- The cache key of a file: the hash of its contents and of every header of the tree whose name it includes an odd number of times. -/
noncomputable def key (hash : Bytes → BitVec 64) (tree : List (Bytes × Option Bytes)) (content : Bytes) : BitVec 64 :=
  hash content ^^^ xorAll (((filesOf headerEndings tree).filter fun h => includes (filename h.1) content % 2 = 1).map fun h => hash h.2)

end Verif.Spec.Tidy
