import Verif.Spec.Stderr
/-! # Specification: the ways a run of the assembler can end -/
namespace Verif.Spec
open Verif.Db Verif.Asm

/-- A run, given as what it has returned after so many steps, ends with `r`. -/
def EndsWith {α : Type} (run : Nat → Option α) (r : α) : Prop := ∃ n, ∀ fuel ≥ n, run fuel = some r

/-- The run never ends. -/
def NeverEnds {α : Type} (run : Nat → Option α) : Prop := ∀ fuel, run fuel = none

/-- The parser has an error to report for the line. -/
def LineRefused (line : Bytes) : Prop :=
  ∃ st, Fasm.parse true (fun _ => true) line = .ok st ∧ (st.result = .userAbort ∨ st.result = .error)

/-- Something in the text is refused. -/
inductive TextFaulty (tiles : Tiles) (text : Bytes) : Prop where
  /-- the first line that is not accepted is refused by the parser -/
  | line (pre bad post : Bytes) (h : Place text pre bad post) (h1 : LinesOk pre) (h2 : LineRefused bad)
  /-- or it stops after the tick of its value, and the newline of an earlier line still stands behind it in memory -/
  | tick (pre body post : Bytes) (h : Place text pre (body ++ [0x0a]) post) (h0 : 0x0a ∉ body) (h1 : LinesOk pre) (h2 : StopsAfterTick body)
      (h3 : Overshadowed pre (body ++ [0x0a]))
  /-- all lines are accepted, and nothing goes wrong before a statement whose name has no dot -/
  | name (h : LinesOk text) (h1 : StepdownOk tiles (Basic tiles text)) (h2 : ∀ F, PudcFeature tiles.grid F → FeatureOk tiles F)
      (pre line post : Bytes) (F : FasmFeature) (h3 : Place text pre line post) (h4 : ∀ G, Written pre G → FeatureOk tiles G)
      (h5 : Says line F) (h6 : 0x2e ∉ F.name)

/-- The text is refused.  (Before it is looked at, the PUDC_B pin is: its name must not be empty.) -/
def TextRefused (tiles : Tiles) (text : Bytes) : Prop := PudcOk tiles.grid ∧ TextFaulty tiles text

/-- The settings are good: at most one argument, a database directory that exists, a part. -/
def Configured (env : Env) (inv : Invocation) (path : Bytes) : Prop :=
  inv.args.length ≤ 2 ∧ Setting inv.dbFlag inv.dbEnv path ∧ path ≠ [] ∧ env.fileExists [path] = true ∧ inv.part ≠ []

/-- The run is refused. -/
inductive RunRefused (x : LibTexts) (env : Env) (load : LoadOrder) (inv : Invocation) : Prop where
  | settings (h : ∀ path, ¬ Configured env inv path)
  | database (path message : Bytes) (h : Configured env inv path) (h1 : DatabaseTrouble x env [path] inv.part (.says message))
  | input (path : Bytes) (db : PartDatabase) (h : Configured env inv path) (h1 : parseDatabase env load [path] inv.part = .ok db)
      (h2 : ∀ text, ¬ Input inv text)
  | text (db : PartDatabase) (text : Bytes) (h : Starts env load inv db text) (h1 : TextRefused db.tiles text)

/-- The run is broken off, or its behaviour is undefined. -/
inductive RunCrashes (x : LibTexts) (env : Env) (load : LoadOrder) (inv : Invocation) : Prop where
  | database (path : Bytes) (h : Configured env inv path)
      (h1 : DatabaseTrouble x env [path] inv.part .terminated ∨ DatabaseTrouble x env [path] inv.part .undefined)
  | text (db : PartDatabase) (text : Bytes) (h : Starts env load inv db text) (h1 : ¬ Assembles db.tiles text)
      (h2 : ¬ TextRefused db.tiles text)

/-- Two runs end in the same way: both refused, both with the same output, both never, or both broken off or undefined. -/
def SameWay (out : Xc7.OStream) (run run' : Nat → Option (Outcome (Nat × Xc7.OStream))) : Prop :=
  (EndsWith run (.ok (1, out)) ↔ EndsWith run' (.ok (1, out))) ∧
  (∀ o, EndsWith run (.ok (0, o)) ↔ EndsWith run' (.ok (0, o))) ∧
  (NeverEnds run ↔ NeverEnds run') ∧
  (EndsWith run .abort ∨ EndsWith run .ub ↔ EndsWith run' .abort ∨ EndsWith run' .ub)

end Verif.Spec
