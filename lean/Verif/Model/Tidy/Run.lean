import Verif.Model.Tidy.Store
/-! # `scripts/run-clang-tidy-cached.cc`: `ClangTidyRunner::RunClangTidyOn`

The worker threads of one or more processes (several checkouts can use one cache), the commands they start, and the
directory they share.  One step is one operation on shared data; steps of all workers and commands interleave in any
order, and a process can be killed at any time (its commands go on without it).  The queue is accessed under a mutex
(:278-288), so taking an item is one step.  A file is written in pieces, each a step; reading a file back
(`GetContent`, :159-170) is one step. -/
namespace Verif.Tidy

/-- What the script does not decide. -/
structure Tool where
  /-- One run of the command on an item can print this; `true`: and be killed by `SIGINT` or `SIGQUIT`. -/
  prints : Item → Bytes → Bool → Prop
  /-- `RepairFilenameOccurences` — run-clang-tidy-cached.cc:402-424: the text written for the text read, for a file name. -/
  repair : Bytes → Bytes → Bytes

/-- Where a worker is in the loop `clang_tidy_runner` — run-clang-tidy-cached.cc:275-311. -/
inductive Phase where
  /-- at the top of the loop -/
  | idle
  /-- `system(command)` is called; the shell has not opened the output (:296) -/
  | start (w : Item)
  /-- the command has still `rest` to print -/
  | running (w : Item) (file pos : Nat) (rest : Bytes) (interrupted : Bool)
  /-- before `GetContent(infile)` in `RepairFilenameOccurences` (:420) -/
  | reading (w : Item)
  /-- before opening `out_stream` (:422) -/
  | opening (w : Item) (text : Bytes)
  /-- `out_stream` has still `rest` to write (:423) -/
  | writing (w : Item) (file pos : Nat) (rest : Bytes)
  /-- before `fs::rename` (:309) -/
  | moving (w : Item)
  /-- left the loop -/
  | stopped
deriving DecidableEq

/-- One process: its workers (:313-316) and `work_queue`. -/
structure Proc where
  pid : Nat
  queue : List Item
  workers : List Phase
  alive : Bool

/-- All processes and the directory. -/
structure Sys where
  dir : Dir
  procs : List Proc

/-- Steps of the command a worker has started — run-clang-tidy-cached.cc:293-296 (`… > 'tmp' 2>/dev/null`).
They need no worker: the command goes on when the process is killed. -/
inductive Child (T : Tool) (pid : Nat) : Dir → Phase → Dir → Phase → Prop
  | start {d w out intr} (h : T.prints w out intr) :
      Child T pid d (.start w) (d.openTrunc (tmpFor pid w)).1 (.running w (d.openTrunc (tmpFor pid w)).2 0 out intr)
  | write {d w i pos now later intr} (h : now ≠ []) :
      Child T pid d (.running w i pos (now ++ later) intr) (d.write i pos now) (.running w i (pos + now.length) later intr)

/-- Steps of a worker; the last argument: the process survives. -/
inductive Main (T : Tool) (pid : Nat) : Dir → List Item → Phase → Dir → List Item → Phase → Bool → Prop
  /-- :286-287 -/
  | take {d w q} : Main T pid d (w :: q) .idle d q (.start w) true
  /-- :280-282 -/
  | done {d} : Main T pid d [] .idle d [] .stopped true
  /-- :296 `system` returns -/
  | returned {d q w i pos} : Main T pid d q (.running w i pos [] false) d q (.reading w) true
  /-- :299-304 -/
  | interrupted {d q w i pos} : Main T pid d q (.running w i pos [] true) (d.remove (tmpFor pid w)) q .stopped true
  /-- :420-421, 423; a file that cannot be opened reads as empty (:172-180) -/
  | read {d q w} : Main T pid d q (.reading w) d q (.opening w (T.repair (filename w.path) ((d.read (tmpFor pid w)).getD []))) true
  /-- :422 -/
  | create {d q w text} :
      Main T pid d q (.opening w text) (d.openTrunc (tmpFor pid w)).1 q (.writing w (d.openTrunc (tmpFor pid w)).2 0 text) true
  /-- :423, 394 -/
  | write {d q w i pos now later} (h : now ≠ []) :
      Main T pid d q (.writing w i pos (now ++ later)) (d.write i pos now) q (.writing w i (pos + now.length) later) true
  /-- :424 -/
  | close {d q w i pos} : Main T pid d q (.writing w i pos []) d q (.moving w) true
  /-- :309 -/
  | rename {d q w d'} (h : d.rename (tmpFor pid w) (pathFor w) = some d') : Main T pid d q (.moving w) d' q .idle true
  /-- :309: `filesystem_error` leaves the thread: `std::terminate` -/
  | noRename {d q w} (h : d.rename (tmpFor pid w) (pathFor w) = none) : Main T pid d q (.moving w) d q .stopped false

/-- One step of the whole, labelled with the command it starts (process and item). -/
inductive Step (T : Tool) : Option (Nat × Item) → Sys → Sys → Prop
  | child {s k p j ph d' ph'} (hp : s.procs[k]? = some p) (hj : p.workers[j]? = some ph) (h : Child T p.pid s.dir ph d' ph') :
      Step T (match ph with | .start w => some (k, w) | _ => none) s
        { dir := d', procs := s.procs.set k { p with workers := p.workers.set j ph' } }
  | main {s k p j ph d' q' ph' ok} (hp : s.procs[k]? = some p) (hj : p.workers[j]? = some ph) (ha : p.alive = true)
      (h : Main T p.pid s.dir p.queue ph d' q' ph' ok) :
      Step T none s { dir := d', procs := s.procs.set k { p with queue := q', workers := p.workers.set j ph', alive := ok } }
  | kill {s k p} (hp : s.procs[k]? = some p) (ha : p.alive = true) :
      Step T none s { s with procs := s.procs.set k { p with alive := false } }

/-- An execution, with the commands started in order. -/
inductive Run (T : Tool) : Sys → List (Nat × Item) → Sys → Prop
  | refl {s} : Run T s [] s
  | step {s l t e u} (h : Run T s l t) (hs : Step T e t u) : Run T s (l ++ e.toList) u

end Verif.Tidy
