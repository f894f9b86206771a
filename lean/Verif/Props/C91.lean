import Verif.Model.Tidy.Command
import Verif.Spec.Tidy.Shell
/-! # C91: the tool gets the names the lint script means -/
namespace Verif.Props
open Verif.Tidy Verif.Spec.Tidy

private theorem tokens_quotes (t w r : Bytes) (h : (0x27 : UInt8) ∉ w) : tokens (.inQuotes t) (w ++ 0x27 :: r) = tokens (.inWord (t ++ w) true) r := by
  induction w generalizing t with
  | nil => simp [tokens]
  | cons c w ih =>
    have hc : c ≠ 0x27 := fun e => h (by rw [e]; simp)
    rw [List.cons_append, tokens, if_neg hc, ih _ fun h' => h (by simp [h'])]
    simp

private theorem ordinary_ne {c : UInt8} (h : Ordinary c) : c ≠ 0x20 ∧ c ≠ 0x27 ∧ c ≠ 0x3e := by
  refine ⟨?_, ?_, ?_⟩ <;> intro e <;> rw [e] at h <;> revert h <;> decide

private theorem tokens_word (t w r : Bytes) (q : Bool) (h : ∀ c ∈ w, Ordinary c) : tokens (.inWord t q) (w ++ r) = tokens (.inWord (t ++ w) q) r := by
  induction w generalizing t with
  | nil => simp
  | cons c w ih =>
    have hc := h c (by simp)
    obtain ⟨h1, h2, h3⟩ := ordinary_ne hc
    rw [List.cons_append, tokens, if_neg h1, if_neg h2, if_neg h3, if_pos hc, ih _ fun d hd => h d (by simp [hd])]
    simp

private theorem tokens_begin (w r : Bytes) (hne : w ≠ []) (h : ∀ c ∈ w, Ordinary c) : tokens .between (w ++ r) = tokens (.inWord w false) r := by
  cases w with
  | nil => exact absurd rfl hne
  | cons c w =>
    have hc := h c (by simp)
    obtain ⟨h1, h2, h3⟩ := ordinary_ne hc
    rw [List.cons_append, tokens, if_neg h1, if_neg h2, if_neg h3, if_pos hc, tokens_word _ _ _ _ fun d hd => h d (by simp [hd])]
    rfl

/-- ` 'w'` behind a word. -/
private theorem tokens_arg (t w r : Bytes) (q : Bool) (h : (0x27 : UInt8) ∉ w) :
    tokens (.inWord t q) (bytes!" '" ++ w ++ bytes!"'" ++ r) = (tokens (.inWord w true) r).map (.word t q :: ·) := by
  have e : bytes!" '" ++ w ++ bytes!"'" ++ r = 0x20 :: 0x27 :: (w ++ 0x27 :: r) := by simp
  rw [e, tokens, if_pos rfl, tokens, if_neg (by decide), if_pos rfl, tokens_quotes _ _ _ h]
  rfl

/-- ` pre'w'` behind a word. -/
private theorem tokens_option (t pre w r : Bytes) (q : Bool) (hp : pre ≠ []) (hpre : ∀ c ∈ pre, Ordinary c) (h : (0x27 : UInt8) ∉ w) :
    tokens (.inWord t q) ([0x20] ++ pre ++ bytes!"'" ++ w ++ bytes!"'" ++ r) = (tokens (.inWord (pre ++ w) true) r).map (.word t q :: ·) := by
  have e : [0x20] ++ pre ++ bytes!"'" ++ w ++ bytes!"'" ++ r = 0x20 :: (pre ++ (0x27 :: (w ++ 0x27 :: r))) := by simp
  have e2 : tokens (.inWord pre false) (0x27 :: (w ++ 0x27 :: r)) = tokens (.inWord (pre ++ w) true) r := by
    rw [tokens, if_neg (by decide), if_pos rfl, tokens_quotes _ _ _ h]
  rw [e, tokens, if_pos rfl, tokens_begin pre _ hp hpre, e2]

private theorem tokens_args (argv : List Bytes) (h : ∀ a ∈ argv, (0x27 : UInt8) ∉ a) (t r : Bytes) (T : List Token)
    (hr : ∀ x, tokens (.inWord x true) r = some (Token.word x true :: T)) :
    tokens (.inWord t true) (argv.flatMap (fun a => bytes!" '" ++ a ++ bytes!"'") ++ r) = some ((t :: argv).map (fun a => Token.word a true) ++ T) := by
  induction argv generalizing t with
  | nil => simpa using hr t
  | cons a argv ih =>
    have e : (a :: argv).flatMap (fun a => bytes!" '" ++ a ++ bytes!"'") ++ r = bytes!" '" ++ a ++ bytes!"'" ++ (argv.flatMap (fun a => bytes!" '" ++ a ++ bytes!"'") ++ r) := by simp
    rw [e, tokens_arg _ _ _ _ (h a (by simp)), ih (fun x hx => h x (by simp [hx]))]
    rfl

private theorem tokens_extra (l : List Bytes) (h : ∀ a ∈ l, (0x27 : UInt8) ∉ a) (pre : Bytes) (hp : pre ≠ []) (hpre : ∀ c ∈ pre, Ordinary c) (t r : Bytes) (T : List Token)
    (hr : ∀ x, tokens (.inWord x true) r = some (Token.word x true :: T)) :
    tokens (.inWord t true) (l.flatMap (fun a => [0x20] ++ pre ++ bytes!"'" ++ a ++ bytes!"'") ++ r) = some ((t :: l.map (pre ++ ·)).map (fun a => Token.word a true) ++ T) := by
  induction l generalizing t with
  | nil => simpa using hr t
  | cons a l ih =>
    have e : (a :: l).flatMap (fun a => [0x20] ++ pre ++ bytes!"'" ++ a ++ bytes!"'") ++ r = [0x20] ++ pre ++ bytes!"'" ++ a ++ bytes!"'" ++ (l.flatMap (fun a => [0x20] ++ pre ++ bytes!"'" ++ a ++ bytes!"'") ++ r) := by simp
    rw [e, tokens_option _ _ _ _ _ hp hpre (h a (by simp)), ih (fun x hx => h x (by simp [hx]))]
    rfl

private theorem command_words (ws : List (Bytes × Bool)) (r : List Token) :
    command (ws.map (fun w => .word w.1 w.2) ++ r) = (command r).map fun x => (ws.map (·.1) ++ x.1, x.2) := by
  induction ws with
  | nil => simp
  | cons w ws ih =>
    rw [List.map_cons, List.cons_append, command, ih]
    simp [Option.map_map, Function.comp_def]

/-- `--quiet` -/
def quiet : Bytes := bytes!"--quiet"
/-- `--config-file=` -/
def configFile : Bytes := bytes!"--config-file="
/-- `--extra-arg=` -/
def extraArg : Bytes := bytes!"--extra-arg="
/-- `--extra-arg=-Wno-unknown-pragmas`, `--extra-arg=-Wno-unknown-warning-option` -/
def extraOptions : List Bytes :=
  [bytes!"--extra-arg=-Wno-unknown-pragmas",
   bytes!"--extra-arg=-Wno-unknown-warning-option"]
/-- `/dev/null` -/
def devNull : Bytes := bytes!"/dev/null"

/-- Where no name has a quote in it, the shell starts the tool with exactly the file, the options and the arguments of the script, whatever other
characters are in them, and its output goes to the file meant. -/
theorem C91_words (tool path config out : Bytes) (argv : List Bytes) (ht : tool ≠ []) (hto : ∀ c ∈ tool, Ordinary c)
    (hp : (0x27 : UInt8) ∉ path) (hc : (0x27 : UInt8) ∉ config) (ho : (0x27 : UInt8) ∉ out) (ha : ∀ a ∈ argv, (0x27 : UInt8) ∉ a) :
    shell (commandFor tool path (assembleArgs config argv) out) =
      some ([tool, path, quiet, configFile ++ config] ++ extraOptions ++ argv, [(bytes!"1", out), (bytes!"2", devNull)]) := by
  have hopt : extraOptions = extraArgs.map (extraArg ++ ·) := by decide +kernel
  rw [hopt]
  -- the redirections
  have htail : ∀ x, tokens (.inWord x true) (bytes!"> '" ++ out ++ bytes!"' 2>/dev/null") =
      some [Token.word x true, .redirect none, .word out true, .redirect (some bytes!"2"), .word devNull false] := by
    intro x
    have e : bytes!"> '" ++ out ++ bytes!"' 2>/dev/null" =
        0x3e :: 0x20 :: 0x27 :: (out ++ 0x27 :: bytes!" 2>/dev/null") := by simp
    have e2 : tokens (.inWord out true) bytes!" 2>/dev/null" =
        some [.word out true, .redirect (some bytes!"2"), .word devNull false] := by
      rw [tokens, if_pos rfl]
      have : tokens .between bytes!"2>/dev/null" = some [.redirect (some bytes!"2"), .word devNull false] := by decide +kernel
      rw [this]
      rfl
    rw [e, tokens, if_neg (by decide), if_neg (by decide), if_pos rfl, if_neg (by simp), tokens, if_pos rfl, tokens, if_neg (by decide), if_pos rfl, tokens_quotes _ _ _ ho,
      List.nil_append, e2]
    rfl
  have hargs := fun x => tokens_args argv ha x _ _ htail
  have hextra := fun x => tokens_extra extraArgs (by decide) extraArg (by decide) (by decide) x _ _ (fun y => (hargs y).trans rfl)
  have hall : tokens .between (commandFor tool path (assembleArgs config argv) out) =
      some (([(tool, false), (path, true), (quiet, false), (configFile ++ config, true)] ++ (extraArgs.map fun a => (extraArg ++ a, true)) ++ argv.map fun a => (a, true)).map (fun w => Token.word w.1 w.2) ++
        [.redirect none, .word out true, .redirect (some bytes!"2"), .word devNull false]) := by
    have e : commandFor tool path (assembleArgs config argv) out = tool ++ (bytes!" '" ++ path ++ bytes!"'" ++ (0x20 :: (quiet ++ (bytes!" '" ++ (configFile ++ config) ++ bytes!"'" ++
        (extraArgs.flatMap (fun a => [0x20] ++ extraArg ++ bytes!"'" ++ a ++ bytes!"'") ++ (argv.flatMap (fun a => bytes!" '" ++ a ++ bytes!"'") ++
          (bytes!"> '" ++ out ++ bytes!"' 2>/dev/null"))))))) := by
      simp [commandFor, assembleArgs, quiet, configFile, extraArg]
    have hcc : (0x27 : UInt8) ∉ configFile ++ config := fun h => by
      rcases List.mem_append.1 h with h | h
      · revert h; decide
      · exact hc h
    rw [e, tokens_begin tool _ ht hto, tokens_arg _ _ _ _ hp, tokens, if_pos rfl, tokens_begin quiet _ (by decide) (by decide), tokens_arg _ _ _ _ hcc, hextra]
    simp [List.map_map, Function.comp_def]
  unfold shell
  rw [hall, Option.bind_some, command_words]
  simp [command, List.map_map, Function.comp_def]

/-- A quote in a name: the shell takes it for its own.  For the file `a'b'c` the tool is asked about `abc`; for `a'b` there is no command at all. -/
theorem C91_defect_quote :
    (shell (commandFor bytes!"t" bytes!"a'b'c" (assembleArgs [] []) bytes!"o")).map (fun c => c.1[1]?) = some (some bytes!"abc") ∧
      shell (commandFor bytes!"t" bytes!"a'b" (assembleArgs [] []) bytes!"o") = none := by
  constructor <;> decide +kernel

/-! ## Non-vacuity -/

/-- A file name with spaces, a dollar and a semicolon, and an empty argument. -/
example : shell (commandFor bytes!"t" bytes!"a $;>" (assembleArgs bytes!".c" [[], bytes!"-f"]) bytes!"o") =
    some ([bytes!"t", bytes!"a $;>", quiet, configFile ++ bytes!".c"] ++ extraOptions ++ [[], bytes!"-f"], [(bytes!"1", bytes!"o"), (bytes!"2", devNull)]) :=
  C91_words _ _ _ _ _ (by decide) (by decide) (by decide) (by decide) (by decide) (by decide)

end Verif.Props
