import Verif.Spec.DbText
import Verif.Spec.FasmText
/-! # Specification: what is said about a database file that cannot be read: files of lines -/
namespace Verif.Spec
open Verif.Db

/-- `n: what` -/
def atLine (n : Nat) (what : Bytes) : Bytes := dec n ++ ascii ": " ++ what

/-- `what "text"` -/
def quoting (what : String) (text : Bytes) : Bytes := ascii what ++ ascii " \"" ++ text ++ ascii "\""

/-- What is wrong with a segbits line: a name alone; or its first field that is not a bit has not exactly one underscore, or has
something else than two numbers around it. -/
inductive SegComplaint (l : Bytes) : Bytes → Prop where
  | alone (name : Bytes) (h : Fields l [name]) : SegComplaint l (quoting "invalid line" l)
  | shape (name : Bytes) (good : List Bytes) (bad : Bytes) (rest : List Bytes) (h : Fields l (name :: (good ++ bad :: rest)))
      (hg : ∀ b ∈ good, ∃ v, BitText b v) (hb : bad.count 0x5f ≠ 1) : SegComplaint l (quoting "invalid line" l)
  | number (name : Bytes) (good : List Bytes) (bad : Bytes) (rest : List Bytes) (h : Fields l (name :: (good ++ bad :: rest)))
      (hg : ∀ b ∈ good, ∃ v, BitText b v) (h1 : bad.count 0x5f = 1) (hb : ∀ v, ¬ BitText bad v) :
      SegComplaint l (quoting "could not parse coordinate" l)

/-- What is said about line `n` of a ppips file: the number of the line only if it has not two fields. -/
inductive PipComplaint (n : Nat) (l : Bytes) : Bytes → Prop where
  | shape (hne : l ≠ []) (h : ∀ a b, ¬ Fields l [a, b]) : PipComplaint n l (atLine n (quoting "invalid line" l))
  | state (a t : Bytes) (h : Fields l [a, t]) (ht : ∀ w, t ≠ pipWord w) : PipComplaint n l (quoting "invalid pseudo pip state" t)

/-- What is wrong with a row of a pins file: it has not five cells, or the second is not a number. -/
inductive PinComplaint (l : Bytes) : Bytes → Prop where
  | shape (cs : List Bytes) (h : Cells l cs) (h0 : cs ≠ []) (h5 : cs.length ≠ 5) : PinComplaint l (quoting "invalid line" l)
  | bank (a b c d e : Bytes) (h : Cells l [a, b, c, d, e]) (hb : ∀ n, ¬ UIntText b n) :
      PinComplaint l (quoting "could not parse bank (second column)" l)

end Verif.Spec
