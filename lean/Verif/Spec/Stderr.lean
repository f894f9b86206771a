import Verif.Spec.FasmText
import Verif.Spec.Failure
import Verif.Spec.DatabaseMessages
import Verif.Model.Stderr
/-! # Specification: what the program prints about its input -/
namespace Verif.Spec

/-- A text and its lines: every line with its newline; the last one may lack it. -/
inductive InputLines : Bytes → List Bytes → Prop where
  | nil : InputLines [] []
  | last (l : Bytes) (hne : l ≠ []) (h : 0x0a ∉ l) : InputLines l [l]
  | line (body text : Bytes) (ls : List Bytes) (h : 0x0a ∉ body) (t : InputLines text ls) :
      InputLines (body ++ 0x0a :: text) ((body ++ [0x0a]) :: ls)

/-- What there is to say about a line that has the number `n` (annotations are read). -/
inductive LineMessages (n : Nat) : Bytes → List Bytes → Prop where
  | shape (s : LineShape) (hok : s.Ok) (hnl : 0x0a ∉ s.text) {ts : List Bytes} (h : LineSays true n s ts) : LineMessages n (s.text ++ [0x0a]) ts
  | noNewline (l : Bytes) (hne : l ≠ []) (h : 0x0a ∉ l) : LineMessages n l [noNewlineText]

/-- What there is to say about lines, the number of line `i` (from 0) being `number i`. -/
inductive Messages (number : Nat → Nat) : Nat → List Bytes → List Bytes → Prop where
  | nil (i : Nat) : Messages number i [] []
  | cons {i : Nat} {l : Bytes} {ls ts us : List Bytes} (h : LineMessages (number i) l ts) (t : Messages number (i + 1) ls us) :
      Messages number i (l :: ls) (ts ++ us)

/-- The messages a user expects: line `i` (from 0) has the number `i + 1`. -/
def Numbered (ls ts : List Bytes) : Prop := Messages (fun i => i + 1) 0 ls ts

/-- Every line is treated as if it were the first. -/
def AllFirst (ls ts : List Bytes) : Prop := Messages (fun _ => 1) 0 ls ts

/-- The usage text. -/
def usageText (program : Bytes) : Bytes :=
  ascii "usage: " ++ program ++ ascii " [options] < input.fasm > output.bit\n\nThis tool parses a sequence of fasm lines and assembles them\ninto a set of frames then mapped into bitstream.\nOutput is written to stdout.\n"

/-- A comment on an accepted line: it says `SKIP`, `INFO` or `WARN`. -/
def Comment (t : Bytes) : Prop :=
  ascii "1: SKIP " <+: t ∨ ascii "1: INFO " <+: t ∨ ascii "1: WARN " <+: t

/-- The line is accepted. -/
def Accepted (line : Bytes) : Prop :=
  ∃ st, Fasm.parse true (fun _ => true) line = .ok st ∧ st.result ≠ .userAbort ∧ st.result ≠ .error

/-- `name` is the first name in the text that has no dot. -/
def FirstDotless (text name : Bytes) : Prop :=
  0x2e ∉ name ∧ ∃ pre line post F, Place text pre line post ∧ (∀ G, Written pre G → 0x2e ∈ G.name) ∧ Says line F ∧ F.name = name

open Verif.Db Verif.Asm in
/-- Why a run fails, and what it then prints. -/
inductive Failure (x : Texts) (env : Env) (load : LoadOrder) (inv : Invocation) : List Bytes → Prop where
  /-- more than one argument -/
  | arguments (h : 2 < inv.args.length) : Failure x env load inv [usageText (inv.args.headD [])]
  /-- no database given -/
  | noPath (h : inv.args.length ≤ 2) (h1 : inv.dbFlag = none) (h2 : inv.dbEnv = none) :
      Failure x env load inv
        [ascii "get prjxray db path: flag \"prjxray_db_path\" not provided either via commandline or environment variable (PRJXRAY_DB_PATH)\n",
         usageText (inv.args.headD [])]
  /-- the database is not there -/
  | badPath (path : Bytes) (h : inv.args.length ≤ 2) (h1 : Setting inv.dbFlag inv.dbEnv path)
      (h2 : path = [] ∨ env.fileExists [path] = false) :
      Failure x env load inv [ascii "invalid prjxray-db path: \"" ++ path ++ ascii "\"\n"]
  /-- no part given -/
  | noPart (path : Bytes) (h : inv.args.length ≤ 2) (h1 : Setting inv.dbFlag inv.dbEnv path)
      (h2 : path ≠ []) (h3 : env.fileExists [path] = true) (h4 : inv.part = []) :
      Failure x env load inv [ascii "no part provided\n", usageText (inv.args.headD [])]
  /-- the database cannot be loaded -/
  | database (path message : Bytes) (h : inv.args.length ≤ 2) (h1 : Setting inv.dbFlag inv.dbEnv path)
      (h2 : path ≠ []) (h3 : env.fileExists [path] = true) (h4 : inv.part ≠ [])
      (h5 : DatabaseTrouble x.toLibTexts env [path] inv.part (.says message)) :
      Failure x env load inv ([ascii "part mapping parsing: " ++ message ++ ascii "\n"])
  /-- the input cannot be opened -/
  | noInput (path : Bytes) (db : PartDatabase) (h : inv.args.length ≤ 2) (h1 : Setting inv.dbFlag inv.dbEnv path)
      (h2 : path ≠ []) (h3 : env.fileExists [path] = true) (h4 : inv.part ≠ []) (h5 : parseDatabase env load [path] inv.part = .ok db)
      (h6 : ∀ text, ¬ Input inv text) :
      Failure x env load inv ([x.openFailed ++ ascii "\n"])
  /-- a line is not accepted -/
  | line (db : PartDatabase) (text : Bytes) (pre : List Bytes) (bad : Bytes) (post ts : List Bytes) (h : Starts env load inv db text)
      (h1 : InputLines text (pre ++ bad :: post)) (h2 : ∀ l ∈ pre, Accepted l) (h3 : ¬ Accepted bad) (h4 : AllFirst (pre ++ [bad]) ts) :
      Failure x env load inv (ts ++ [ascii "could not assemble frames: internal error\n"])
  /-- a name has no dot -/
  | name (db : PartDatabase) (text : Bytes) (ls ts : List Bytes) (name : Bytes) (h : Starts env load inv db text)
      (h1 : InputLines text ls) (h2 : ∀ l ∈ ls, Accepted l) (h3 : AllFirst ls ts) (h4 : FirstDotless text name) :
      Failure x env load inv (ts ++ [ascii "could not assemble frames: cannot split feature name " ++ name ++ ascii "\n"])

end Verif.Spec
