import Verif.Spec.FasmGrammar
/-! # Specification: where what the FASM parser delivers stands in the text -/
namespace Verif.Spec
open Verif.Fasm

/-- Where on the line the strings of a call stand.  A feature: after blanks only, and it does not go on.  An annotation: its feature
(possibly none) likewise, the name behind it, and behind the name the value between quotes. -/
inductive StandsOn (l : Bytes) : Event → Prop where
  | feature {line name start width bits} (pre post) (h : l = pre ++ (name ++ post)) (hpre : Blank pre) (hn : IsName name)
      (hpost : ∀ c, post.head? = some c → ¬ NameChar c) : StandsOn l (.feature line name start width bits)
  | annotation {line feature name value} (pre mid eq post) (h : l = pre ++ (feature ++ (mid ++ (name ++ (eq ++ 0x22 :: (value ++ 0x22 :: post))))))
      (hpre : Blank pre) (hf : ∀ c ∈ feature, NameChar c) (hn : ∀ c ∈ name, NameChar c) (heq : ∃ a b, Blank a ∧ Blank b ∧ eq = a ++ 0x3d :: b)
      (hmid : ∃ m a b, mid = m ++ a :: b ∧ (a = 0x7b ∨ a = 0x2c) ∧ Blank b) :
      StandsOn l (.annotation line feature name value)

/-- `l` is a line of the text, and `before` is what stands before it. -/
def IsLineOf (content before l : Bytes) : Prop :=
  0x0a ∉ l ∧ (before = [] ∨ before.getLast? = some 0x0a) ∧ ∃ after, content = before ++ (l ++ 0x0a :: after)

end Verif.Spec
