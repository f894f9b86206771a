import Verif.Model.Tidy.Work
/-! # `scripts/run-clang-tidy-cached.cc`: the command line of the tool and the directory of the cache -/
namespace Verif.Tidy
open Re

/-- `kExtraArgs` — run-clang-tidy-cached.cc:130-131: `-Wno-unknown-pragmas`, `-Wno-unknown-warning-option`. -/
def extraArgs : List Bytes :=
  [bytes!"-Wno-unknown-pragmas",
   bytes!"-Wno-unknown-warning-option"]

/-- `AssembleArgs` — run-clang-tidy-cached.cc:338-348: ` --quiet '--config-file=…'`, ` --extra-arg='…'` for each extra argument, ` '…'` for each argument of the
script. -/
def assembleArgs (config : Bytes) (argv : List Bytes) : Bytes :=
  bytes!" --quiet" ++
    (bytes!" '--config-file=" ++ config ++ bytes!"'") ++
    (extraArgs.flatMap fun a => bytes!" --extra-arg='" ++ a ++ bytes!"'") ++
    (argv.flatMap fun a => bytes!" '" ++ a ++ bytes!"'")

/-- `command` — run-clang-tidy-cached.cc:293-295: `tool 'file' args> 'out' 2>/dev/null`. -/
def commandFor (tool path args out : Bytes) : Bytes :=
  tool ++ bytes!" '" ++ path ++ bytes!"'" ++ args ++ bytes!"> '" ++ out ++
    bytes!"' 2>/dev/null"

/-- `version ([0-9]+)` — run-clang-tidy-cached.cc:361. -/
def versionRe : Re :=
  seq (word bytes!"version ") (cap (plus (set isDigit)))

/-- `major_version` — run-clang-tidy-cached.cc:359-363; `UNKNOWN` if there is none. -/
def majorVersion (version : Bytes) : Bytes :=
  match search versionRe version.length ⟨[], version, []⟩ with
  | some (_, t) => t.group
  | none => bytes!"UNKNOWN"

/-- The last component of `AssembleProjectCacheDir` — run-clang-tidy-cached.cc:350-370: `version` is what the tool prints for `--version`, `config` the
contents of the configuration file. -/
def projectDir (hash : Bytes → BitVec 64) (cachePrefix version args config : Bytes) : Bytes :=
  cachePrefix ++ bytes!"v" ++ majorVersion version ++ bytes!"_" ++ toHex (hash (version ++ args) ^^^ hash config) 8

end Verif.Tidy
