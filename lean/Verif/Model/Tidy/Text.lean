import Verif.Model.Text
import Verif.Model.Tidy.Regex
import Verif.Model.Tidy.Store
/-! # `scripts/run-clang-tidy-cached.cc`: patterns, and filtering what clang-tidy printed -/
namespace Verif.Tidy
open Re

/-- `[a-zA-Z]` -/
def isLetter (c : UInt8) : Bool := (0x41 ≤ c && c ≤ 0x5a) || (0x61 ≤ c && c ≤ 0x7a)

/-- `[0-9]` -/
def isDigit (c : UInt8) : Bool := 0x30 ≤ c && c ≤ 0x39

/-- `\[[a-zA-Z.]+-[a-zA-Z.-]+\]` — run-clang-tidy-cached.cc:380, 516. -/
def checkName : Re :=
  all [chr 0x5b, plus (set fun c => isLetter c || c = 0x2e), chr 0x2d, plus (set fun c => isLetter c || c = 0x2e || c = 0x2d), chr 0x5d]

/-- `.*(?:^|/)([^/]+):[0-9]+:[0-9]+:.*\[[a-zA-Z.]+-[a-zA-Z.-]+\]$` — run-clang-tidy-cached.cc:378-380. -/
def fileWithTidy : Re :=
  all [star dot, alt bol (chr 0x2f), cap (plus (set fun c => c ≠ 0x2f)), chr 0x3a, plus (set isDigit), chr 0x3a, plus (set isDigit), chr 0x3a,
    star dot, checkName, eol]

/-- `(?:^|\n).*(\[[a-zA-Z.]+-[a-zA-Z.-]+\])\n` — run-clang-tidy-cached.cc:516. -/
def checkRe : Re := all [alt bol (chr 0x0a), star dot, cap checkName, chr 0x0a]

/-- The pattern of include directives — run-clang-tidy-cached.cc:477-478: number sign, white space, `include`, white space, and in
quotes a path of digits, letters, underscores, slashes and dashes, a dot, and letters. -/
def includeRe : Re :=
  all [chr 0x23, star (set Text.isSpace), chr 0x69, chr 0x6e, chr 0x63, chr 0x6c, chr 0x75, chr 0x64, chr 0x65, plus (set Text.isSpace), chr 0x22,
    cap (all [plus (set fun c => isDigit c || isLetter c || c = 0x5f || c = 0x2f || c = 0x2d), chr 0x2e, plus (set isLetter)]), chr 0x22]

/-- `std::getline` until it fails: the lines of a text; an empty one behind the last newline does not count. -/
def getlines : Bytes → List Bytes
  | [] => []
  | c :: r =>
    if c = 0x0a then [] :: getlines r
    else match getlines r with
      | [] => [[c]]
      | h :: t => (c :: h) :: t

/-- The loop of `FilterCheckLines` — run-clang-tidy-cached.cc:389-396: `print` is `do_print_line`. -/
def filterLines (file : Bytes) : Bool → List Bytes → Bytes
  | _, [] => []
  | print, line :: lines =>
    let print := match fullMatch fileWithTidy line with
      | some name => decide (name = file)
      | none => print
    (if print then line ++ [0x0a] else []) ++ filterLines file print lines

/-- `FilterCheckLines` — run-clang-tidy-cached.cc:375-397. -/
def filterCheckLines (file input : Bytes) : Bytes := filterLines file true (getlines input)

end Verif.Tidy
