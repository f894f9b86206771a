import Verif.Model.Tidy.Text
/-! # `scripts/run-clang-tidy-cached.cc`: removing the path of the project from what clang-tidy printed -/
namespace Verif.Tidy
open Re

namespace Re

/-- A pattern that matches the empty text. -/
def empty : Re := star (set fun _ => false)

/-- `a?` -/
def opt (a : Re) : Re := alt a empty

/-- `std::regex_replace` with the format `$1` (library contract, `std::sregex_iterator` of libstdc++): `s` is where the last match ended, `null`
whether it was empty.  Behind an empty match the iterator first looks for one that is not empty at the same place, and
then from the next character on. -/
def replaceFrom (r : Re) : Nat → Bool → Pos → Bytes
  | 0, _, s => s.rest
  | fuel + 1, null, s =>
    let retry := if null then ((ways r s).filter fun t => t.rest.length < s.rest.length).head? else none
    match retry with
    | some t => t.group ++ replaceFrom r fuel false { t with group := [] }
    | none =>
      let start : Option Pos := if null then (match s.rest with
        | [] => none
        | c :: rest => some { s with left := c :: s.left, rest := rest }) else some s
      match start with
      | none => []
      | some start => match search r start.rest.length start with
        | none => s.rest
        | some (a, t) => s.rest.take (s.rest.length - a.rest.length) ++ t.group ++ replaceFrom r fuel (a.rest.length == t.rest.length) { t with group := [] }

/-- `std::regex_replace(text, r, "$1")`. -/
def replaceAll (r : Re) (text : Bytes) : Bytes := replaceFrom r (2 * text.length + 2) false ⟨[], text, []⟩

end Re

/-- A character of a path used as a pattern: a dot is any character. -/
def pathAtom (c : UInt8) : Re := if c = 0x2e then dot else chr c

/-- The rest of a path behind something: a `+` repeats what is before it (`++` repeats the repetition: libstdc++ takes any number of
quantifiers). -/
def pathReFrom (a : Re) : Bytes → Re
  | [] => a
  | c :: path => if c = 0x2b then pathReFrom (plus a) path else seq a (pathReFrom (pathAtom c) path)

/-- A path used as a pattern (nothing in it is quoted).  Paths with other special characters than the dot and the plus sign are not
modelled, nor are paths that begin with a plus sign (absolute paths do not). -/
def pathRe : Bytes → Re
  | [] => empty
  | c :: path => pathReFrom (pathAtom c) path

/-- `bzroot/|pwd/`: alternatives in order. -/
def rootsRe : List Bytes → Re
  | [] => set fun _ => false
  | [p] => pathRe (p ++ bytes!"/")
  | p :: roots => alt (pathRe (p ++ bytes!"/")) (rootsRe roots)

/-- `sFixPathsRe` — run-clang-tidy-cached.cc:405-418: `(^|\n)(…/|…/)?(\./)?`.  `roots` are the execution root of bazel (if `bazel info` printed one)
and the current directory. -/
def fixPathsRe (roots : List Bytes) : Re :=
  seq (cap (alt bol (chr 0x0a))) (seq (opt (rootsRe roots)) (opt (seq (chr 0x2e) (chr 0x2f))))

/-- `canon` — run-clang-tidy-cached.cc:420-421. -/
def canon (roots : List Bytes) (text : Bytes) : Bytes := replaceAll (fixPathsRe roots) text

/-- `RepairFilenameOccurences` — run-clang-tidy-cached.cc:402-425: what it writes for what it reads. -/
def repairText (roots : List Bytes) (file content : Bytes) : Bytes := filterCheckLines file (canon roots content)

end Verif.Tidy
