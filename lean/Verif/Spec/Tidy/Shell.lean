import Verif.Model.Basic
/-! # How a POSIX shell reads simple commands

Words are separated by spaces; between single quotes every character stands for itself; `n>` redirects descriptor `n` (1 if none is written directly before
it, without quotes) to the file named by the next word.  Only characters without a special meaning outside quotes are covered: for other texts there is no result. -/
namespace Verif.Spec.Tidy
open Verif

/-- No special meaning to the shell. -/
def Ordinary (c : UInt8) : Prop :=
  (0x30 ≤ c.toNat ∧ c.toNat ≤ 0x39) ∨ (0x41 ≤ c.toNat ∧ c.toNat ≤ 0x5a) ∨ (0x61 ≤ c.toNat ∧ c.toNat ≤ 0x7a) ∨
    c ∈ (bytes!"%+,-./:=@_" : Bytes)

instance (c : UInt8) : Decidable (Ordinary c) := by unfold Ordinary; infer_instance

/-- A word and whether a part of it was quoted, or a redirection with the number before it. -/
inductive Token where
  | word (text : Bytes) (quoted : Bool)
  | redirect (number : Option Bytes)
deriving DecidableEq

/-- Where the reader is: between words, in a word, between quotes. -/
inductive At where
  | between
  | inWord (text : Bytes) (quoted : Bool)
  | inQuotes (text : Bytes)

/-- The tokens of a command. -/
def tokens : At → Bytes → Option (List Token)
  | .between, [] => some []
  | .inWord t q, [] => some [.word t q]
  | .inQuotes _, [] => none
  | .inQuotes t, c :: r => if c = 0x27 then tokens (.inWord t true) r else tokens (.inQuotes (t ++ [c])) r
  | .between, c :: r =>
    if c = 0x20 then tokens .between r
    else if c = 0x27 then tokens (.inQuotes []) r
    else if c = 0x3e then (tokens .between r).map (.redirect none :: ·)
    else if Ordinary c then tokens (.inWord [c] false) r
    else none
  | .inWord t q, c :: r =>
    if c = 0x20 then (tokens .between r).map (.word t q :: ·)
    else if c = 0x27 then tokens (.inQuotes t) r
    else if c = 0x3e then
      if q = false ∧ ∀ d ∈ t, 0x30 ≤ d.toNat ∧ d.toNat ≤ 0x39 then (tokens .between r).map (.redirect (some t) :: ·)
      else (tokens .between r).map fun l => .word t q :: .redirect none :: l
    else if Ordinary c then tokens (.inWord (t ++ [c]) q) r
    else none

/-- Words and redirections of a simple command: the number of the descriptor as written, or `1`, and the file. -/
def command : List Token → Option (List Bytes × List (Bytes × Bytes))
  | [] => some ([], [])
  | .word t _ :: r => (command r).map fun (w, d) => (t :: w, d)
  | .redirect n :: .word t _ :: r => (command r).map fun (w, d) => (w, (n.getD bytes!"1", t) :: d)
  | .redirect _ :: _ => none

/-- What a shell does with a command line: its words (the program and its arguments) and redirections. -/
def shell (line : Bytes) : Option (List Bytes × List (Bytes × Bytes)) := (tokens .between line).bind command

end Verif.Spec.Tidy
