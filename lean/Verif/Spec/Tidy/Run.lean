import Verif.Model.Tidy.Run
/-! # What a shared cache is expected to hold -/
namespace Verif.Spec.Tidy
open Verif.Tidy

/-- A directory without hard links, as POSIX numbers files. -/
def Sound (d : Dir) : Prop :=
  (∀ p q i, d.names p = some i → d.names q = some i → p = q) ∧ ∀ p i, d.names p = some i → i < d.next

/-- Processes about to start their workers: process numbers differ, and within a process no two items share a place in the store. -/
structure Starts (s : Sys) : Prop where
  sound : Sound s.dir
  alive : ∀ p ∈ s.procs, p.alive = true
  idle : ∀ p ∈ s.procs, ∀ ph ∈ p.workers, ph = .idle
  pids : (s.procs.map (·.pid)).Nodup
  names : ∀ p ∈ s.procs, (p.queue.map pathFor).Nodup

/-- Names that end in `.tmp`. -/
def IsTmp (name : Bytes) : Prop := ∃ r, name = r ++ bytes!".tmp"

/-- A text is all of what some run of the tool printed for an item of some process that is stored under this name. -/
def Complete (T : Tool) (s : Sys) (name text : Bytes) : Prop :=
  ∃ p ∈ s.procs, ∃ w ∈ p.queue, pathFor w = name ∧ ∃ out, T.prints w out false ∧ text = T.repair (filename w.path) out

/-- The commands process `k` has started. -/
def started (k : Nat) (l : List (Nat × Item)) : List Item := (l.filter (·.1 = k)).map (·.2)

end Verif.Spec.Tidy
