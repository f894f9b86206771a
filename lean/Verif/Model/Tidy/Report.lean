import Verif.Model.Tidy.Work
import Verif.Model.Tidy.Run
/-! # `scripts/run-clang-tidy-cached.cc`: `CreateReport` and `main` -/
namespace Verif.Tidy
open Re

/-- `checks_seen[…]++` on a `std::map<std::string, int>`: sorted by key. -/
def increment : List (Bytes × Nat) → Bytes → List (Bytes × Nat)
  | [], k => [(k, 1)]
  | e :: m, k => if e.1 = k then (k, e.2 + 1) :: m else if k < e.1 then (k, 1) :: e :: m else e :: increment m k

/-- What `CreateReport` accumulates: `line_already_seen` and `checks_seen`. -/
structure Tally where
  seen : List Bytes
  checks : List (Bytes × Nat)
deriving DecidableEq

/-- The inner loop of `CreateReport` — run-clang-tidy-cached.cc:525-529. -/
def tallyText (t : Tally) (text : Bytes) : Tally :=
  (findAll checkRe text).foldl (fun t m =>
    if m.1 ∈ t.seen then t else { seen := m.1 :: t.seen, checks := increment t.checks m.2 }) t

/-- `GetContentFor` — run-clang-tidy-cached.cc:218-220, 172-180: a missing file reads as empty. -/
def contentFor (d : Dir) (c : Item) : Bytes := (d.read (pathFor c)).getD []

/-- `checks_seen` of `CreateReport` — run-clang-tidy-cached.cc:517-530. -/
def tally (d : Dir) (files : List Item) : Tally := files.foldl (fun t f => tallyText t (contentFor d f)) ⟨[], []⟩

/-- The collected texts — run-clang-tidy-cached.cc:519-524. -/
def details (d : Dir) (files : List Item) : Bytes :=
  files.flatMap fun f => if contentFor d f = [] then [] else f.path ++ bytes!":\n" ++ contentFor d f

/-- `by_count` — run-clang-tidy-cached.cc:545-551: `std::stable_sort`, larger counts first. -/
def byCount (checks : List (Bytes × Nat)) : List (Bytes × Nat) := checks.mergeSort fun a b => b.2 ≤ a.2

/-- `%5d` of a number that is not negative. -/
def pad5 (n : Nat) : Bytes := List.replicate (5 - (decimal n).length) 0x20 ++ decimal n

/-- The summary — run-clang-tidy-cached.cc:553-558: `%5d %s` and a newline for each, to a file and to standard output. -/
def summaryText (checks : List (Bytes × Nat)) : Bytes := (byCount checks).flatMap fun e => pad5 e.2 ++ [0x20] ++ e.1 ++ [0x0a]

/-- The status of `main` — run-clang-tidy-cached.cc:563, 618-621: whether there were findings. -/
def exitStatus (d : Dir) (files : List Item) : Nat := if (tally d files).checks.length = 0 then 0 else 1

/-- `main` behind the checks for configuration files — run-clang-tidy-cached.cc:606-621: gather, run the workers (any
execution in which they all leave their loops), report.  `jobs` is `kJobs` (:261-264). -/
inductive MainRun (T : Tool) (hash : Bytes → BitVec 64) (tree : List (Bytes × Option Bytes)) (pid jobs : Nat) (d : Dir) : Dir → Nat → Prop
  /-- :258-260 -/
  | nothing (h : buildWorkList hash d tree = []) : MainRun T hash tree pid jobs d d (exitStatus d (filesOfInterest hash tree))
  | work {l s p} (h : buildWorkList hash d tree ≠ []) (hr : Run T ⟨d, [⟨pid, buildWorkList hash d tree, List.replicate jobs .idle, true⟩]⟩ l s)
      (hp : s.procs = [p]) (ha : p.alive = true) (hs : ∀ ph ∈ p.workers, ph = .stopped) :
      MainRun T hash tree pid jobs d s.dir (exitStatus s.dir (filesOfInterest hash tree))

end Verif.Tidy
