import Verif.Model.Tidy.Startup
/-! # What the lint script needs to start, and where it keeps things -/
namespace Verif.Spec.Tidy
open Verif Verif.Tidy

/-- The bytes of an ASCII text. -/
def ascii (s : String) : Bytes := s.toList.map fun c => UInt8.ofNat c.toNat

/-- The value of an environment variable, or the default if it is not set. -/
def setting (h : Host) (var : String) (default : Bytes) : Bytes := (h.getenv (ascii var)).getD default

/-- `name` in directory `dir`. -/
def under (dir name : Bytes) : Bytes := if dir = [] ∨ dir.getLast? = some 0x2f then dir ++ name else dir ++ ascii "/" ++ name

/-- The configuration file: `CLANG_TIDY_CONFIG`, or `.clang-tidy`. -/
def configPath (h : Host) : Bytes := setting h "CLANG_TIDY_CONFIG" (ascii ".clang-tidy")

/-- The tool: `CLANG_TIDY`, or `clang-tidy`. -/
def toolName (h : Host) : Bytes := setting h "CLANG_TIDY" (ascii "clang-tidy")

/-- What it prints about its version. -/
def versionText (h : Host) : Bytes := h.output (toolName h ++ ascii " --version")

/-- Reasons not to start: no configuration file, no `.clang-tidy` in the current directory, no compilation database, no answer from the tool. -/
def Refuses (h : Host) : Prop :=
  h.present (configPath h) = false ∨ h.written (ascii ".clang-tidy") = none ∨
    (h.written (ascii "compile_commands.json") = none ∧ h.written (ascii "compile_flags.txt") = none) ∨ versionText h = []

/-- Where caches are: `CACHE_DIR`; otherwise `.cache` in the home directory if that exists; otherwise the directory for temporary files. -/
inductive CacheBase (h : Host) : Bytes → Prop
  | told {dir} : h.getenv (ascii "CACHE_DIR") = some dir → CacheBase h dir
  | home {dir} : h.getenv (ascii "CACHE_DIR") = none → h.getenv (ascii "HOME") = some dir → h.present (under dir (ascii ".cache/")) = true →
      CacheBase h (under dir (ascii ".cache/"))
  | tmp : h.getenv (ascii "CACHE_DIR") = none → (∀ dir, h.getenv (ascii "HOME") = some dir → h.present (under dir (ascii ".cache/")) = false) →
      CacheBase h (setting h "TMPDIR" (ascii "/tmp"))

/-- The text is a number, after white space and the sign; whatever follows the digits is ignored. -/
def Numeral (sign text : Bytes) (n : Nat) : Prop :=
  ∃ white digits rest, text = white ++ sign ++ digits ++ rest ∧ (∀ c ∈ white, c ∈ ascii " \t\n" ++ [0x0b, 0x0c, 0x0d]) ∧
    digits ≠ [] ∧ (∀ c ∈ digits, 0x30 ≤ c.toNat ∧ c.toNat ≤ 0x39) ∧ (∀ c r, rest = c :: r → ¬ (0x30 ≤ c.toNat ∧ c.toNat ≤ 0x39)) ∧
    n = digits.foldl (fun v c => v * 10 + (c.toNat - 0x30)) 0

end Verif.Spec.Tidy
