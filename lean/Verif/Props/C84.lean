import Verif.Props.C83
/-! # C84: entries of the lint cache are whole, at every moment and whatever is killed -/
namespace Verif.Props
open Verif.Tidy Verif.Spec.Tidy

/-- Whenever execution is cut off, whatever is under a name that is no temporary one is what was there at the beginning, or all
of what a run of the tool printed for an item stored under that name. -/
theorem C84_whole_partial (T : Tool) (s0 s : Sys) (h0 : Starts s0) (l : List (Nat × Item)) (hr : Run T s0 l s) (name text : Bytes) (hn : ¬ IsTmp name)
    (h : s.dir.read name = some text) : s0.dir.read name = some text ∨ Complete T s0 name text := by
  rcases (Inv.run h0 hr).stored name (fun p _ w _ e => hn (e ▸ tmpFor_isTmp _ _)) with h' | ⟨t, h1, h2⟩
  · exact Or.inl (by rw [← h, Dir.read_eq, Dir.read_eq, h'])
  · rw [h] at h1
    cases h1
    exact Or.inr h2

/-- An entry never goes away. -/
theorem C84_kept_partial (T : Tool) (s0 s : Sys) (h0 : Starts s0) (l : List (Nat × Item)) (hr : Run T s0 l s) (name : Bytes) (hn : ¬ IsTmp name)
    (h : (s0.dir.read name).isSome) : (s.dir.read name).isSome := by
  rcases (Inv.run h0 hr).stored name (fun p _ w _ e => hn (e ▸ tmpFor_isTmp _ _)) with h' | ⟨t, h1, h2⟩
  · rw [Dir.read_eq, h', ← Dir.read_eq]; exact h
  · rw [h1]; rfl

/-- Names of items that are not on any list keep what they have, also temporary names of processes not running. -/
theorem C84_untouched (T : Tool) (s0 s : Sys) (h0 : Starts s0) (l : List (Nat × Item)) (hr : Run T s0 l s) (name : Bytes)
    (h : ∀ p ∈ s0.procs, ∀ w ∈ p.queue, name ≠ pathFor w ∧ name ≠ tmpFor p.pid w) : s.dir.read name = s0.dir.read name := by
  rcases (Inv.run h0 hr).stored name (fun p hp w hw => (h p hp w hw).2) with h' | ⟨t, _, p, hp, w, hw, e, _⟩
  · rw [Dir.read_eq, h', ← Dir.read_eq]
  · exact absurd e.symm (h p hp w hw).1

/-- The names the store looks up are never temporary, and two items share one exactly when file name and hash agree;
temporary names of different processes or different entries differ. -/
theorem C84_names (a b : Item) (m n : Nat) :
    ¬ IsTmp (pathFor a) ∧ IsTmp (tmpFor m a) ∧ (pathFor a = pathFor b ↔ filename a.path = filename b.path ∧ a.hash = b.hash) ∧
      (tmpFor m a = tmpFor n b ↔ m = n ∧ pathFor a = pathFor b) := by
  refine ⟨pathFor_not_tmp a, tmpFor_isTmp m a, pathFor_eq_iff a b, tmpFor_inj, ?_⟩
  rintro ⟨rfl, h⟩
  unfold tmpFor
  rw [h]

/-- The hypotheses of the theorems above are met by an execution of two workers that ends, after which an entry is there with
what the tool printed. -/
example : ∃ l s, Starts sampleStart ∧ Run sampleTool sampleStart l s ∧ ¬ IsTmp (pathFor ⟨bytes!"a", 1#64⟩) ∧
    s.dir.read (pathFor ⟨bytes!"a", 1#64⟩) = some bytes!"A" := by
  have h0 : Starts sampleStart :=
    ⟨⟨by simp [sampleStart], by simp [sampleStart]⟩, by simp [sampleStart], by simp [sampleStart], by simp [sampleStart], by simp [sampleStart]; decide +kernel⟩
  obtain ⟨l, t, p', h1, h2, _, h3⟩ := C83_finishes sampleTool (fun _ => ⟨_, _, rfl, rfl⟩) sampleStart sampleStart h0 [] .refl 0 _ rfl rfl
  obtain ⟨⟨text, h4, _, _, _, _, _, out, h5, h6⟩, _⟩ := (C83_result sampleTool sampleStart t h0 l h1 0 _ p' rfl h2 (by simp [sampleStart]) h3
    (fun w _ out h => by cases h.2)).2 ⟨bytes!"a", 1#64⟩ (by simp [sampleStart])
  refine ⟨l, t, h0, h1, (C84_names _ ⟨[], 0#64⟩ 0 0).1, ?_⟩
  rw [h4, h6]
  exact congrArg some h5.1

/-! ## Two items with one place in the store -/

/-- `a/x` and `b/x` with the same hash, two workers: all that `Starts` asks for but different places. -/
def twins : Sys :=
  ⟨⟨fun _ => none, fun _ => [], 0⟩, [⟨7, [⟨bytes!"a/x", 1#64⟩, ⟨bytes!"b/x", 1#64⟩], [.idle, .idle], true⟩]⟩

/-- A tool that prints the same for every file. -/
def printing (text : Bytes) : Tool := ⟨fun _ out intr => out = text ∧ intr = false, fun _ t => t⟩

/-- The next step of a worker of the only process (used for witnesses only): one byte at a time, tool printing `text`. -/
private def advance (text : Bytes) (s : Sys) (j : Nat) : Option Sys :=
  match s.procs with
  | [p] =>
    if p.alive = true then
      match p.workers[j]? with
      | none => none
      | some ph =>
        let go (d : Dir) (q : List Item) (ph' : Phase) (ok : Bool) : Option Sys := some ⟨d, [{ p with queue := q, workers := p.workers.set j ph', alive := ok }]⟩
        match ph with
        | .idle => match p.queue with
          | [] => go s.dir [] .stopped true
          | w :: q => go s.dir q (.start w) true
        | .start w => go (s.dir.openTrunc (tmpFor p.pid w)).1 p.queue (.running w (s.dir.openTrunc (tmpFor p.pid w)).2 0 text false) true
        | .running w i pos (c :: r) intr => go (s.dir.write i pos [c]) p.queue (.running w i (pos + [c].length) r intr) true
        | .running w _ _ [] false => go s.dir p.queue (.reading w) true
        | .running w _ _ [] true => go (s.dir.remove (tmpFor p.pid w)) p.queue .stopped true
        | .reading w => go s.dir p.queue (.opening w ((printing text).repair (filename w.path) ((s.dir.read (tmpFor p.pid w)).getD []))) true
        | .opening w t => go (s.dir.openTrunc (tmpFor p.pid w)).1 p.queue (.writing w (s.dir.openTrunc (tmpFor p.pid w)).2 0 t) true
        | .writing w i pos (c :: r) => go (s.dir.write i pos [c]) p.queue (.writing w i (pos + [c].length) r) true
        | .writing w _ _ [] => go s.dir p.queue (.moving w) true
        | .moving w => match h : s.dir.rename (tmpFor p.pid w) (pathFor w) with
          | some d => go d p.queue .idle true
          | none => go s.dir p.queue .stopped false
        | .stopped => none
    else none
  | _ => none

private theorem advance_step {text : Bytes} {s t : Sys} {j : Nat} (h : advance text s j = some t) : ∃ e, Step (printing text) e s t := by
  obtain ⟨d, procs⟩ := s
  unfold advance at h
  split at h
  · rename_i p hprocs
    simp only at hprocs
    subst hprocs
    split at h
    · rename_i ha
      split at h
      · cases h
      · rename_i ph hj
        have main : ∀ {d' q' ph' ok}, Main (printing text) p.pid d p.queue ph d' q' ph' ok →
            ∃ e, Step (printing text) e ⟨d, [p]⟩ ⟨d', [{ p with queue := q', workers := p.workers.set j ph', alive := ok }]⟩ := fun hm =>
          ⟨_, Step.main (s := ⟨d, [p]⟩) (k := 0) rfl hj ha hm⟩
        have child : ∀ {d' ph'}, Child (printing text) p.pid d ph d' ph' →
            ∃ e, Step (printing text) e ⟨d, [p]⟩ ⟨d', [{ p with queue := p.queue, workers := p.workers.set j ph', alive := true }]⟩ := fun hm => by
          have := Step.child (s := ⟨d, [p]⟩) (k := 0) rfl hj hm
          rw [← ha]
          exact ⟨_, this⟩
        simp only at h
        cases ph with
        | idle =>
          simp only at h
          split at h
          · rename_i hq
            cases h
            exact main (by rw [hq]; exact .done)
          · rename_i w q hq
            cases h
            exact main (by rw [hq]; exact .take)
        | start w => cases h; exact child (.start ⟨rfl, rfl⟩)
        | running w i pos r intr =>
          cases r with
          | nil =>
            cases intr with
            | false => cases h; exact main .returned
            | true => cases h; exact main .interrupted
          | cons c r =>
            cases h
            have := Child.write (T := (printing text)) (pid := p.pid) (d := d) (w := w) (i := i) (pos := pos) (now := [c]) (later := r) (intr := intr) (by simp)
            exact child this
        | reading w => cases h; exact main .read
        | opening w t => cases h; exact main .create
        | writing w i pos r =>
          cases r with
          | nil => cases h; exact main .close
          | cons c r =>
            cases h
            have := Main.write (T := (printing text)) (pid := p.pid) (d := d) (q := p.queue) (w := w) (i := i) (pos := pos) (now := [c]) (later := r) (by simp)
            exact main this
        | moving w =>
          simp only at h
          split at h
          · rename_i d' hd
            cases h
            exact main (.rename hd)
          · rename_i hd
            cases h
            exact main (.noRename hd)
        | stopped => cases h
    · cases h
  · cases h

private theorem advance_run {text : Bytes} {s0 s t : Sys} {l : List (Nat × Item)} (h0 : Run (printing text) s0 l s) (js : List Nat) (h : js.foldlM (advance text) s = some t) :
    ∃ l', Run (printing text) s0 l' t := by
  induction js generalizing s l with
  | nil => cases h; exact ⟨l, h0⟩
  | cons j js ih =>
    rw [List.foldlM_cons] at h
    obtain ⟨u, h1, h2⟩ := Option.bind_eq_some_iff.1 h
    obtain ⟨e, hs⟩ := advance_step h1
    exact ih (.step h0 hs) h2

/-- Two items with one place in the store share their temporary file.  A schedule in which everything ends well, and the entry is
empty, although every run of the tool printed something: the findings are lost. -/
theorem C84_defect_lost : ∃ l s, Run sampleTool twins l s ∧ (∀ p ∈ s.procs, p.alive = true ∧ ∀ ph ∈ p.workers, ph = .stopped) ∧
    s.dir.read (pathFor ⟨bytes!"a/x", 1#64⟩) = some [] ∧ ¬ Complete sampleTool twins (pathFor ⟨bytes!"a/x", 1#64⟩) [] := by
  obtain ⟨s, hs⟩ : ∃ s, ([0, 1, 0, 1, 0, 1, 0, 1, 0, 0, 0, 0, 0, 1, 1, 1, 1, 0, 1] : List Nat).foldlM (advance bytes!"A") twins = some s := Option.isSome_iff_exists.1 (by decide +kernel)
  obtain ⟨l, hr⟩ := advance_run (text := bytes!"A") .refl _ hs
  have h1 : ((([0, 1, 0, 1, 0, 1, 0, 1, 0, 0, 0, 0, 0, 1, 1, 1, 1, 0, 1] : List Nat).foldlM (advance bytes!"A") twins).map fun s =>
      (s.procs.map fun p => (p.alive, p.workers), s.dir.read (pathFor ⟨bytes!"a/x", 1#64⟩))) = some ([(true, [.stopped, .stopped])], some []) := by
    decide +kernel
  rw [hs, Option.map_some] at h1
  have h2 := Option.some.inj h1
  refine ⟨l, s, hr, fun p hp => ?_, (Prod.mk.inj h2).2, ?_⟩
  · have h3 : (p.alive, p.workers) ∈ s.procs.map fun p => (p.alive, p.workers) := List.mem_map.2 ⟨p, hp, rfl⟩
    rw [(Prod.mk.inj h2).1] at h3
    simp only [List.mem_singleton, Prod.mk.injEq] at h3
    exact ⟨h3.1, by rw [h3.2]; simp⟩
  · rintro ⟨p, hp, w, hw, _, out, ho, ht⟩
    rw [ho.1] at ht
    cases ht

/-- Another schedule: one of the workers finds its file gone, and the process is terminated. -/
theorem C84_defect_abort : ∃ l s, Run sampleTool twins l s ∧ ∃ p ∈ s.procs, p.alive = false := by
  obtain ⟨s, hs⟩ : ∃ s, ([0, 1, 0, 1, 0, 1, 0, 1, 0, 1, 0, 1, 0, 0, 0, 1, 1, 1] : List Nat).foldlM (advance bytes!"A") twins = some s := Option.isSome_iff_exists.1 (by decide +kernel)
  obtain ⟨l, hr⟩ := advance_run (text := bytes!"A") .refl _ hs
  have h1 : (([0, 1, 0, 1, 0, 1, 0, 1, 0, 1, 0, 1, 0, 0, 0, 1, 1, 1] : List Nat).foldlM (advance bytes!"A") twins).map (fun s => s.procs.map (·.alive)) = some [false] := by
    decide +kernel
  rw [hs, Option.map_some] at h1
  have h2 := Option.some.inj h1
  have h3 : false ∈ s.procs.map (·.alive) := by rw [h2]; simp
  obtain ⟨p, hp, h4⟩ := List.mem_map.1 h3
  exact ⟨l, s, hr, p, hp, h4⟩

/-- A third one: both commands write the file, the second truncates it when it starts.  The entry begins with a zero byte no run has
printed, with the first byte of the text missing. -/
theorem C84_defect_mixed : ∃ l s, Run (printing bytes!"AB") twins l s ∧ (∀ p ∈ s.procs, p.alive = true) ∧
    s.dir.read (pathFor ⟨bytes!"a/x", 1#64⟩) = some [0, 0x42] ∧
    ¬ Complete (printing bytes!"AB") twins (pathFor ⟨bytes!"a/x", 1#64⟩) [0, 0x42] := by
  obtain ⟨s, hs⟩ : ∃ s, ([0, 0, 0, 1, 1, 0, 0, 0, 0, 0, 0, 0, 0] : List Nat).foldlM (advance bytes!"AB") twins = some s :=
    Option.isSome_iff_exists.1 (by decide +kernel)
  obtain ⟨l, hr⟩ := advance_run (text := bytes!"AB") .refl _ hs
  have h1 : ((([0, 0, 0, 1, 1, 0, 0, 0, 0, 0, 0, 0, 0] : List Nat).foldlM (advance bytes!"AB") twins).map fun s =>
      (s.procs.map fun p => p.alive, s.dir.read (pathFor ⟨bytes!"a/x", 1#64⟩))) = some ([true], some [0, 0x42]) := by
    decide +kernel
  rw [hs, Option.map_some] at h1
  have h2 := Option.some.inj h1
  refine ⟨l, s, hr, fun p hp => ?_, (Prod.mk.inj h2).2, ?_⟩
  · have h3 : p.alive ∈ s.procs.map fun p => p.alive := List.mem_map.2 ⟨p, hp, rfl⟩
    rw [(Prod.mk.inj h2).1] at h3
    simpa using h3
  · rintro ⟨p, hp, w, hw, _, out, ho, ht⟩
    rw [ho.1] at ht
    cases ht

end Verif.Props
