import Verif.Spec.Tidy.Startup
import Verif.Spec.Tidy.Progress
/-! # What the lint script should say -/
namespace Verif.Spec.Tidy
open Verif Verif.Tidy

/-- A path as it is shown: in quotation marks, with a backslash before each quotation mark and backslash of it. -/
inductive Escaped : Bytes → Bytes → Prop
  | done : Escaped [] []
  | plain {c p t} : c ≠ 0x22 → c ≠ 0x5c → Escaped p t → Escaped (c :: p) (c :: t)
  | marked {c p t} : c = 0x22 ∨ c = 0x5c → Escaped p t → Escaped (c :: p) (0x5c :: c :: t)

/-- Why the script does not start: the first of the reasons that apply, in words. -/
inductive Refusal (h : Host) : Bytes → Prop
  | config : h.present (configPath h) = false → Refusal h (ascii "Need a " ++ configPath h ++ ascii " config file.\n")
  | place : h.present (configPath h) = true → h.written (ascii ".clang-tidy") = none →
      Refusal h (ascii "Script needs to be executed in toplevel project dir.\n")
  | compdb : h.present (configPath h) = true → h.written (ascii ".clang-tidy") ≠ none →
      h.written (ascii "compile_commands.json") = none → h.written (ascii "compile_flags.txt") = none →
      Refusal h (ascii "No compilation db compile_commands.json or compile_flags.txt found; create that first. For cmake projects, often simply\n" ++
        ascii "\tln -s build/compile_commands.json .\n")
  | tool : h.present (configPath h) = true → h.written (ascii ".clang-tidy") ≠ none →
      ¬ (h.written (ascii "compile_commands.json") = none ∧ h.written (ascii "compile_flags.txt") = none) → versionText h = [] →
      Refusal h (ascii "Could not invoke " ++ toolName h ++ ascii "; is it in PATH ?\n")

/-- One line for each of the files of which the cache in the directory has nothing, in their order; `why` is the reason the system gives. -/
inductive Misses (why dir : Bytes) (there : Bytes → Bool) : List Item → Bytes → Prop
  | done : Misses why dir there [] []
  | found {w ws t} : there (pathFor w) = true → Misses why dir there ws t → Misses why dir there (w :: ws) t
  | missing {w ws t} : there (pathFor w) = false → Misses why dir there ws t →
      Misses why dir there (w :: ws) (under (under dir (ascii "contents")) (pathFor w) ++ ascii ": can't open: " ++ why ++ ascii "\n" ++ t)

/-- The last thing the script says. -/
inductive Verdict (details summary : Bytes) : Bool → Bytes → Prop
  | clean : Verdict details summary true (ascii "No clang-tidy complaints. " ++ [0xf0, 0x9f, 0x98, 0x8e, 0x0a])
  | findings : Verdict details summary false (ascii "Details: " ++ details ++ ascii "\nSummary: " ++ summary ++ ascii "\n---- Summary ----\n")

end Verif.Spec.Tidy
