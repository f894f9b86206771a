import Verif.Model.Tidy.Report
/-! # `scripts/run-clang-tidy-cached.cc`: what the workers show on standard error -/
namespace Verif.Tidy

/-- `fprintf(stderr, "%5d\b\b\b\b\b", …)` — run-clang-tidy-cached.cc:283-285.  Simplified: the number of files fits an `int`. -/
def counter (n : Nat) : Bytes := pad5 n ++ List.replicate 5 0x08

/-- What process `k` shows in a step, if it shows progress (`isatty`, :264): the length of its queue, before an item is taken from it (:283-287); nothing else shortens a queue, and
both happen under the mutex. -/
def shown (k : Nat) (s t : Sys) : Bytes :=
  match s.procs[k]?, t.procs[k]? with
  | some p, some p' => if p'.queue.length < p.queue.length then counter p.queue.length else []
  | _, _ => []

/-- An execution (`Run`), with what process `k` shows. -/
inductive Watched (T : Tool) (k : Nat) : Sys → Bytes → Sys → Prop
  | refl {s} : Watched T k s [] s
  | step {s x t e u} (h : Watched T k s x t) (hs : Step T e t u) : Watched T k s (x ++ shown k t u) u

/-- `std::cerr << work_queue->size() << …` — run-clang-tidy-cached.cc:261-267; `terminal` is `isatty(STDERR_FILENO)`. -/
def workHeader (terminal : Bool) (files jobs : Nat) : Bytes :=
  decimal files ++ bytes!" files to process (w/ " ++ decimal jobs ++ bytes!" jobs)..." ++ if terminal then [] else [0x0a]

/-- The blanks over the counter — run-clang-tidy-cached.cc:320-322. -/
def clearText : Bytes := bytes!"     \n"

/-- What `RunClangTidyOn` writes to standard error on a list of items — run-clang-tidy-cached.cc:254-323 — in an execution that shows `x`. -/
def workText (terminal : Bool) (queue : List Item) (jobs : Nat) (x : Bytes) : Bytes :=
  if queue = [] then [] else workHeader terminal queue.length jobs ++ if terminal then x ++ clearText else []

end Verif.Tidy
