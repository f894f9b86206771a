import Verif.Model.Basic
/-! # `std::regex`, ECMAScript grammar, as far as `scripts/run-clang-tidy-cached.cc` uses it

A library contract (libstdc++).  A pattern is matched by backtracking: alternatives from left to right, repetitions as
often as possible first; `ways` lists all ways to match at a position in that order, and the first one counts.  No
`multiline` flag: `^` is the beginning of the whole text (`match_prev_avail` is set by iterators behind it), `$` its end. -/
namespace Verif.Tidy

/-- Patterns with at most one capturing group. -/
inductive Re where
  /-- one character of a class -/
  | set (p : UInt8 → Bool)
  /-- `^` -/
  | bol
  /-- `$` -/
  | eol
  | seq (a b : Re)
  /-- `a|b` -/
  | alt (a b : Re)
  /-- `a*` -/
  | star (a : Re)
  /-- `(a)` -/
  | cap (a : Re)

namespace Re

/-- A position: the text before it (backwards), the text behind it, the group. -/
structure Pos where
  left : Bytes
  rest : Bytes
  group : Bytes
deriving DecidableEq

/-- A repetition: once more and again, or stop; a round that matches nothing ends it.  The number bounds the rounds. -/
def rounds (f : Pos → List Pos) : Nat → Pos → List Pos
  | 0, s => [s]
  | n + 1, s => ((f s).filter fun t => t.rest.length < s.rest.length).flatMap (rounds f n) ++ [s]

/-- All ways to match at a position, best first. -/
def ways : Re → Pos → List Pos
  | set p, s => match s.rest with
    | [] => []
    | c :: r => if p c then [{ s with left := c :: s.left, rest := r }] else []
  | bol, s => if s.left = [] then [s] else []
  | eol, s => if s.rest = [] then [s] else []
  | seq a b, s => (ways a s).flatMap (ways b)
  | alt a b, s => ways a s ++ ways b s
  | star a, s => rounds (ways a) s.rest.length s
  | cap a, s => (ways a s).map fun t => { t with group := (t.left.take (t.left.length - s.left.length)).reverse }

/-- One character. -/
def chr (c : UInt8) : Re := set (· = c)

/-- `a+` -/
def plus (a : Re) : Re := seq a (star a)

/-- A sequence of patterns. -/
def all : List Re → Re
  | [] => star (set fun _ => false)
  | [a] => a
  | a :: l => seq a (all l)

/-- `.`: no line terminator. -/
def dot : Re := set fun c => c ≠ 0x0a ∧ c ≠ 0x0d

/-- `std::regex_match`: the whole text; the group. -/
def fullMatch (r : Re) (text : Bytes) : Option Bytes :=
  (((ways r ⟨[], text, []⟩).filter fun t => t.rest = []).head?).map (·.group)

/-- `std::regex_search` from a position on: the first place where the pattern matches; start and end of the match. -/
def search (r : Re) : Nat → Pos → Option (Pos × Pos)
  | fuel, s => match (ways r s).head? with
    | some t => some (s, t)
    | none => match fuel, s.rest with
      | fuel + 1, c :: rest => search r fuel { s with left := c :: s.left, rest := rest }
      | _, _ => none

/-- `std::sregex_iterator` for a pattern that matches no empty text: matched texts with their groups, one behind the other. -/
def iterate (r : Re) : Nat → Pos → List (Bytes × Bytes)
  | 0, _ => []
  | fuel + 1, s => match search r s.rest.length s with
    | none => []
    | some (a, t) => ((t.left.take (t.left.length - a.left.length)).reverse, t.group) :: iterate r fuel { t with group := [] }

/-- All matches in a text. -/
def findAll (r : Re) (text : Bytes) : List (Bytes × Bytes) := iterate r (text.length + 1) ⟨[], text, []⟩

end Re
end Verif.Tidy
