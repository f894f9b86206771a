import Verif.Model.Tidy.Text
/-! # `scripts/run-clang-tidy-cached.cc`: `FileGatherer`

The tree is a list: what `fs::recursive_directory_iterator` yields, in its order, with the contents of regular files
(`none`: not a regular file).  Paths are taken to be normal already (`lexically_normal`, :444), and files readable. -/
namespace Verif.Tidy
open Re

/-- `fs::path::extension()`: from the last dot of the file name on; none if the name has no dot, or begins with its only one,
or is `..`. -/
def extension (path : Bytes) : Bytes :=
  let name := filename path
  if name = bytes!".." then []
  else
    let tail := (name.reverse.takeWhile (· ≠ 0x2e)).reverse
    if tail.length + 1 < name.length then 0x2e :: tail else []

/-- `IsIncludeExtension` — run-clang-tidy-cached.cc:141-143: `.h`, `.hpp`, `.hxx`, `.inl`. -/
def isIncludeExtension (ext : Bytes) : Bool :=
  ext = bytes!".h" || ext = bytes!".hpp" || ext = bytes!".hxx" || ext = bytes!".inl"

/-- `ConsiderExtension` — run-clang-tidy-cached.cc:146-148: also `.cc`, `.cpp`, `.cxx`. -/
def considerExtension (ext : Bytes) : Bool :=
  ext = bytes!".cc" || ext = bytes!".cpp" || ext = bytes!".cxx" || isIncludeExtension ext

/-- A text of given characters. -/
def word : Bytes → Re
  | [] => star (set fun _ => false)
  | [c] => chr c
  | c :: l => seq (chr c) (word l)

/-- `kConfig.file_exclude_re` — run-clang-tidy-cached.cc:81: `^(\.git|\.github|build)/` (the group is not used). -/
def excludeRe : Re :=
  all [bol, alt (word bytes!".git") (alt (word bytes!".github") (word bytes!"build")), chr 0x2f]

/-- `header_hashes[just_basename] ^= …` on a `std::map` whose order does not matter here. -/
def xorAt (m : List (Bytes × BitVec 64)) (k : Bytes) (v : BitVec 64) : List (Bytes × BitVec 64) :=
  match m with
  | [] => [(k, v)]
  | e :: m => if e.1 = k then (k, e.2 ^^^ v) :: m else e :: xorAt m k v

/-- The first loop of `BuildWorkList` — run-clang-tidy-cached.cc:442-471: files of interest and header hashes
(`kConfig.file_include_re` is `.*` and matches everything; `revisit_if_any_include_changes` is set). -/
def gather (hash : Bytes → BitVec 64) : List (Bytes × Option Bytes) → List (Bytes × Bytes) × List (Bytes × BitVec 64) →
    List (Bytes × Bytes) × List (Bytes × BitVec 64)
  | [], acc => acc
  | (_, none) :: tree, acc => gather hash tree acc
  | (path, some content) :: tree, (files, headers) =>
    if (search excludeRe path.length ⟨[], path, []⟩).isSome then gather hash tree (files, headers)
    else
      let files := if considerExtension (extension path) then files ++ [(path, content)] else files
      let headers := if isIncludeExtension (extension path) then xorAt headers (filename path) (hash content) else headers
      gather hash tree (files, headers)

/-- The hash of a file — run-clang-tidy-cached.cc:480-493. -/
def workHash (hash : Bytes → BitVec 64) (headers : List (Bytes × BitVec 64)) (content : Bytes) : BitVec 64 :=
  (findAll includeRe content).foldl (fun h m =>
    match headers.find? fun e => e.1 = filename m.2 with
    | some e => h ^^^ e.2
    | none => h) (hash content)

/-- `files_of_interest_` after `BuildWorkList`, with their hashes. -/
def filesOfInterest (hash : Bytes → BitVec 64) (tree : List (Bytes × Option Bytes)) : List Item :=
  let (files, headers) := gather hash tree ([], [])
  files.map fun f => ⟨f.1, workHash hash headers f.2⟩

/-- `NeedsRefresh` — run-clang-tidy-cached.cc:224-238 (`revisit_brokenfiles_if_build_config_newer` is off, :125). -/
def needsRefresh (d : Dir) (c : Item) : Bool := (d.names (pathFor c)).isNone

/-- `BuildWorkList` — run-clang-tidy-cached.cc:438-500. -/
def buildWorkList (hash : Bytes → BitVec 64) (d : Dir) (tree : List (Bytes × Option Bytes)) : List Item :=
  (filesOfInterest hash tree).filter (needsRefresh d)

end Verif.Tidy
