import Verif.Model.Assembler
import Verif.Model.FasmText
import Verif.Model.DbMessages
/-! # What the program prints on standard error: `/repo/fpga/assembler.cc`

`AssembleFrames` and `main` of `Model/Assembler.lean` once more, with the texts written to `stderr` and `std::cerr` (both unbuffered;
one list entry for each line of output the source writes).  That it is the same program is proved (`C96_same_program`).

Not modelled, and therefore inputs (`Texts`): texts made by libraries — those of `LibTexts`, and how a status with an `errno` is printed.  What a failed `CHECK` or an uncaught exception prints is
left out.  The walk over the database directory prints nothing (`C98_silent`). -/
namespace Verif.Fasm

/-- fasm-parser.h:190-425 on a content that lies in a larger buffer (see `parseLinesIn`), with what it prints. -/
def parseLinesInM (ann : Bool) (cb : List Event → Bool) (after : Bytes) : Nat → Nat → Log → Bytes → Res Log
  | fuel, line, o, input =>
    if input.length ≤ after.length then .ok o
    else match fuel with
      | 0 => .oob
      | fuel + 1 => do
        let line := (line + 1) % 2 ^ 32
        let (o, input) ← parseLineM ann cb o line input
        parseLinesInM ann cb after fuel line o input

/-- `fasm::Parse` — fasm-parser.h:174-427 — of a content that is followed by `after` in memory, with what it prints. -/
def parseInM (ann : Bool) (cb : List Event → Bool) (content after : Bytes) : Res Log :=
  match content.getLast? with
  | none => .ok {}
  | some c => if c ≠ chNl then .ok (({} : Log).print 0 .error msgNoNewline)
    else parseLinesInM ann cb after content.length 0 {} (content ++ after)

end Verif.Fasm

namespace Verif.Asm
open Verif.Db Verif.Text Verif.Xc7 Verif.Fasm

/-- One line — assembler.cc:275-290: what is printed, and the outcome. -/
def assembleLineM (after line : Bytes) : List Bytes × Outcome (List FasmFeature) :=
  match parseInM true (fun _ => true) line after with
  | .ok o => (o.out, if o.st.result = .userAbort ∨ o.st.result = .error then .err else .ok (o.st.trace.filterMap toFeature))
  | .oob => ([], .ub)
  | .shift => ([], .ub)

/-- The loop — assembler.cc:274-290. -/
def assembleLinesM (buf : Bytes) : List Bytes → List Bytes × Outcome (List (List FasmFeature))
  | [] => ([], .ok [])
  | line :: rest =>
    let l := assembleLineM ((getlineBuffer buf line).drop line.length) line
    match l.2 with
    | .ok fs =>
      let r := assembleLinesM (getlineBuffer buf line) rest
      (l.1 ++ r.1, r.2 >>= fun r => .ok (fs :: r))
    | .err => (l.1, .err)
    | .abort => (l.1, .abort)
    | .ub => (l.1, .ub)

/-- `"internal error"` — assembler.cc:289. -/
def internalError : Bytes := lit "internal error"

/-- assembler.cc:103-104. -/
def cannotSplit (name : Bytes) : Bytes := lit "cannot split feature name " ++ name

/-- `ProcessFasmFeatures` — assembler.cc:92-151: the message of the status it returns, and the outcome. -/
def processFeaturesM (ord : HashOrder) : List (FasmFeature × Nat) → PartDatabase × Frames → Bytes × Outcome (PartDatabase × Frames)
  | [], s => ([], .ok s)
  | e :: rest, s => match processFeature ord s e with
    | .ok s => processFeaturesM ord rest s
    | .err => (cannotSplit e.1.name, .err)
    | .abort => ([], .abort)
    | .ub => ([], .ub)

/-- `AssembleFrames` — assembler.cc:260-294: what is printed, the message of the status, and the outcome. -/
def assembleFramesM (ord : HashOrder) (text : Bytes) (db : PartDatabase) (frames : Frames) :
    List Bytes × Bytes × Outcome (PartDatabase × Frames) :=
  match pudcbFeatures db.tiles.grid with
  | .ok pudcb =>
    let l := assembleLinesM [] (getlines text)
    match l.2 with
    | .ok parsed =>
      match stepdownFeatures ord db.tiles.banks db.tiles.grid (pudcb ++ parsed.flatten) with
      | .ok stepdown =>
        let r := processFeaturesM ord (pudcb ++ parsed.flatten ++ stepdown).zipIdx (db, frames)
        (l.1, r.1, r.2)
      | .err => (l.1, [], .err)
      | .abort => (l.1, [], .abort)
      | .ub => (l.1, [], .ub)
    | .err => (l.1, internalError, .err)
    | .abort => (l.1, [], .abort)
    | .ub => (l.1, [], .ub)
  | .err => ([], [], .err)
  | .abort => ([], [], .abort)
  | .ub => ([], [], .ub)

/-- Texts that are not modelled. -/
structure Texts extends LibTexts where
  /-- `absl::ErrnoToStatus(errno, "cannot open fasm file")`, printed — assembler.cc:426 -/
  openFailed : Bytes

/-- `Usage` — assembler.cc:303-310. -/
def usage (name : Bytes) : Bytes :=
  lit "usage: " ++ name ++ lit " [options] < input.fasm > output.bit\n\nThis tool parses a sequence of fasm lines and assembles them\ninto a set of frames then mapped into bitstream.\nOutput is written to stdout."

/-- `absl::ProgramUsageMessage()` and a newline — assembler.cc:376-377. -/
def usageLine (inv : Invocation) : Bytes := usage (inv.args.headD []) ++ lit "\n"

/-- `StatusToErrorMessage` and a newline — assembler.cc:312-315. -/
def statusLine (what message : Bytes) : Bytes := what ++ lit ": " ++ message ++ lit "\n"

/-- assembler.cc:323-326 with the name of the flag and of the variable. -/
def notProvided : Bytes :=
  lit "flag \"" ++ lit "prjxray_db_path" ++ lit "\" not provided either via commandline or environment variable (" ++
    lit "PRJXRAY_DB_PATH" ++ lit ")"

/-- `main` after the database is loaded — assembler.cc:413-453: exit status, standard output, standard error. -/
def mainLoadedM (x : Texts) (ord : HashOrder) (inv : Invocation) (db : PartDatabase) (out : OStream) (fuel : Nat) :
    Option (Outcome (Nat × OStream × List Bytes)) :=
  match inputText inv with
  | none => some (.ok (1, out, [x.openFailed ++ lit "\n"]))
  | some text =>
    let a := assembleFramesM ord text db []
    match a.2.2 with
    | .err => some (.ok (1, out, a.1 ++ [statusLine (lit "could not assemble frames") a.2.1]))
    | .abort => some .abort
    | .ub => some .ub
    | .ok r => (encode r.1.tiles.part kFasm kSource inv.date inv.time r.2 out fuel).map fun o => match o with
      | .err => .ok (1, out, a.1 ++ [statusLine (lit "could not generate bistream") (lit "failed generating bitstream")])
      | .abort => .abort
      | .ub => .ub
      | .ok out => .ok (0, out, a.1)

/-- `main` — assembler.cc:375-453: exit status, standard output, standard error. -/
def mainM (x : Texts) (env : Env) (load : LoadOrder) (ord : HashOrder) (inv : Invocation) (out : OStream) (fuel : Nat) :
    Option (Outcome (Nat × OStream × List Bytes)) :=
  if inv.args.length > 2 then some (.ok (1, out, [usageLine inv]))
  else match getOptFlagOrFromEnv inv.dbFlag inv.dbEnv with
    | .ok path =>
      if path = [] ∨ env.fileExists [path] = false then
        some (.ok (1, out, [lit "invalid prjxray-db path: \"" ++ path ++ lit "\"" ++ lit "\n"]))
      else if inv.part = [] then some (.ok (1, out, [lit "no part provided" ++ lit "\n", usageLine inv]))
      else match parseDatabaseM x.toLibTexts env load [path] inv.part with
        | .err message => some (.ok (1, out, [statusLine (lit "part mapping parsing") message]))
        | .abort => some .abort
        | .ub => some .ub
        | .ok db => mainLoadedM x ord inv db out fuel
    | _ => some (.ok (1, out, [statusLine (lit "get prjxray db path") notProvided, usageLine inv]))

end Verif.Asm
