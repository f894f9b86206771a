import Verif.Proofs.Tidy.Run
/-! # C83: the work list of the lint script under every schedule -/
namespace Verif.Props
open Verif.Tidy Verif.Spec.Tidy

/-! ## Every command once -/

/-- The item whose command is about to start. -/
private def starting : Phase → Option Item
  | .start w => some w
  | _ => none

private theorem filterMap_set' {α β : Type} [DecidableEq β] (f : α → Option β) (l : List α) (j : Nat) (a b : α) (h : l[j]? = some a) (x : β) :
    ((l.set j b).filterMap f).count x + (f a).toList.count x = (l.filterMap f).count x + (f b).toList.count x := by
  induction l generalizing j with
  | nil => simp at h
  | cons c l ih =>
    have e : ∀ (y : α) (t : List α), ((y :: t).filterMap f).count x = (f y).toList.count x + (t.filterMap f).count x := by
      intro y t
      rw [List.filterMap_cons]
      cases f y <;> simp [List.count_cons]; omega
    cases j with
    | zero =>
      simp only [List.getElem?_cons_zero, Option.some.injEq] at h
      subst h
      rw [List.set_cons_zero, e, e]
      omega
    | succ j =>
      rw [List.getElem?_cons_succ] at h
      rw [List.set_cons_succ, e, e]
      have := ih j h
      omega

/-- At every moment of every execution, each item of the work list of a process is still waiting, is about to be examined, or
has been examined, as often as it is listed.  So nothing is examined twice and nothing that is not listed. -/
theorem C83_accounts (T : Tool) (s0 s : Sys) (l : List (Nat × Item)) (hr : Run T s0 l s) (hidle : ∀ p ∈ s0.procs, ∀ ph ∈ p.workers, ph = .idle)
    (k : Nat) (p0 : Proc) (hp0 : s0.procs[k]? = some p0) :
    ∃ p waiting, s.procs[k]? = some p ∧ p0.queue.Perm (p.queue ++ waiting ++ started k l) ∧
      ∀ w ∈ waiting, .start w ∈ p.workers := by
  suffices h : ∃ p, s.procs[k]? = some p ∧ ∀ x, p0.queue.count x = p.queue.count x + (p.workers.filterMap starting).count x + (started k l).count x by
    obtain ⟨p, h1, h2⟩ := h
    refine ⟨p, p.workers.filterMap starting, h1, List.perm_iff_count.2 fun x => ?_, fun w hw => ?_⟩
    · rw [List.count_append, List.count_append]
      exact h2 x
    · obtain ⟨ph, h3, h4⟩ := List.mem_filterMap.1 hw
      cases ph <;> simp [starting] at h4
      subst h4
      exact h3
  induction hr with
  | refl =>
    refine ⟨p0, hp0, fun x => ?_⟩
    have : p0.workers.filterMap starting = [] := by
      rw [List.filterMap_eq_nil_iff]
      intro a ha
      rw [hidle p0 (List.mem_of_getElem? hp0) a ha]
      rfl
    simp [this, started]
  | @step _ t e u hr hs ih =>
    obtain ⟨p, hp, hc⟩ := ih
    have hk : k < t.procs.length := (List.getElem?_eq_some_iff.1 hp).1
    have hst : ∀ l' : List (Nat × Item), ∀ x, (started k (l' ++ e.toList)).count x = (started k l').count x + (started k e.toList).count x := by
      intro l' x
      simp [started]
    cases hs with
    | @child _ k' p' j ph d' ph' hp' hj h =>
      by_cases hkk : k' = k
      · subst hkk
        rw [hp] at hp'
        cases hp'
        refine ⟨_, List.getElem?_set_self hk, fun x => ?_⟩
        rw [hst, hc x]
        have hf := filterMap_set' starting p.workers j ph ph' hj x
        simp only
        cases h with
        | start h => simp [started, starting] at hf ⊢; omega
        | write h => simp [started, starting] at hf ⊢; omega
      · refine ⟨p, by simp only; rw [List.getElem?_set_ne hkk]; exact hp, fun x => ?_⟩
        rw [hst, hc x]
        cases h <;> simp [started, hkk]
    | @main _ k' p' j ph d' q' ph' ok hp' hj ha h =>
      by_cases hkk : k' = k
      · subst hkk
        rw [hp] at hp'
        cases hp'
        refine ⟨_, List.getElem?_set_self hk, fun x => ?_⟩
        have h1 := hc x
        have hf := filterMap_set' starting p.workers j ph ph' hj x
        simp only [Option.toList_none, List.append_nil]
        obtain ⟨q, hq⟩ : ∃ q, p.queue = q := ⟨_, rfl⟩
        rw [hq] at h h1
        cases h with
        | take => simp [starting, List.count_cons] at hf h1 ⊢; omega
        | _ => simp [starting] at hf h1 ⊢; omega
      · refine ⟨p, by simp only; rw [List.getElem?_set_ne hkk]; exact hp, fun x => ?_⟩
        simpa using hc x
    | @kill _ k' p' hp' ha =>
      by_cases hkk : k' = k
      · subst hkk
        rw [hp] at hp'
        cases hp'
        exact ⟨_, List.getElem?_set_self hk, fun x => by simpa using hc x⟩
      · exact ⟨p, by simp only; rw [List.getElem?_set_ne hkk]; exact hp, fun x => by simpa using hc x⟩

/-! ## The workers finish -/

private def weight : Phase → Nat
  | .idle => 1
  | .start _ => 9
  | .running .. => 8
  | .reading _ => 6
  | .opening .. => 5
  | .writing .. => 4
  | .moving _ => 3
  | .stopped => 0

private def rest : Phase → Nat
  | .running _ _ _ r _ => r.length
  | .writing _ _ _ r => r.length
  | _ => 0

private def procWeight (p : Proc) : Nat := 10 * p.queue.length + (p.workers.map weight).sum + if p.alive then 1 else 0
private def procRest (p : Proc) : Nat := (p.workers.map rest).sum

private theorem sum_set {α : Type} (f : α → Nat) (l : List α) (j : Nat) (a b : α) (h : l[j]? = some a) :
    ((l.set j b).map f).sum + f a = (l.map f).sum + f b := by
  induction l generalizing j with
  | nil => simp at h
  | cons c l ih =>
    cases j with
    | zero =>
      simp only [List.getElem?_cons_zero, Option.some.injEq] at h
      subst h
      simp
      omega
    | succ j =>
      rw [List.getElem?_cons_succ] at h
      simp only [List.set_cons_succ, List.map_cons, List.sum_cons]
      have := ih j h
      omega

private theorem step_decreases {T : Tool} {e : Option (Nat × Item)} {s t : Sys} (h : Step T e s t) :
    (t.procs.map procWeight).sum < (s.procs.map procWeight).sum ∨
    ((t.procs.map procWeight).sum = (s.procs.map procWeight).sum ∧ (t.procs.map procRest).sum < (s.procs.map procRest).sum) := by
  have local_step : ∀ {k : Nat} {p p' : Proc}, s.procs[k]? = some p → (procWeight p' < procWeight p ∨ (procWeight p' = procWeight p ∧ procRest p' < procRest p)) →
      ((s.procs.set k p').map procWeight).sum < (s.procs.map procWeight).sum ∨
      (((s.procs.set k p').map procWeight).sum = (s.procs.map procWeight).sum ∧ ((s.procs.set k p').map procRest).sum < (s.procs.map procRest).sum) := by
    intro k p p' hp h
    have h1 := sum_set procWeight s.procs k p p' hp
    have h2 := sum_set procRest s.procs k p p' hp
    omega
  cases h with
  | @child _ k p j ph d' ph' hp hj h =>
    refine local_step hp ?_
    have h1 := sum_set weight p.workers j ph ph' hj
    have h2 := sum_set rest p.workers j ph ph' hj
    simp only [procWeight, procRest]
    cases h with
    | start h => simp only [weight] at h1; omega
    | @write w i pos now later intr hn =>
      have := List.length_pos_iff.2 hn
      simp only [weight, rest, List.length_append] at h1 h2
      omega
  | @main _ k p j ph d' q' ph' ok hp hj ha h =>
    refine local_step hp ?_
    have h1 := sum_set weight p.workers j ph ph' hj
    have h2 := sum_set rest p.workers j ph ph' hj
    simp only [procWeight, procRest, ha]
    obtain ⟨q, hq⟩ : ∃ q, p.queue = q := ⟨_, rfl⟩
    rw [hq] at h ⊢
    cases h with
    | @write _ w i pos now later hn =>
      have := List.length_pos_iff.2 hn
      simp only [weight, rest, List.length_append] at h1 h2
      simp only [if_true]
      omega
    | noRename _ => simp only [weight] at h1; simp only [if_true, Bool.false_eq_true, if_false]; omega
    | take => simp only [weight] at h1; simp only [if_true, List.length_cons]; omega
    | _ => simp only [weight] at h1; simp only [if_true]; omega
  | @kill _ k p hp ha =>
    refine local_step hp (Or.inl ?_)
    simp [procWeight, ha]

/-- No execution goes on forever: whatever the schedule, the list, the number of workers and processes and what the commands print. -/
theorem C83_terminates (T : Tool) : WellFounded fun t s : Sys => ∃ e, Step T e s t := by
  have wf : WellFounded (Prod.Lex (fun a b : Nat => a < b) (fun a b : Nat => a < b)) := (Prod.lex ⟨_, Nat.lt_wfRel.wf⟩ ⟨_, Nat.lt_wfRel.wf⟩).wf
  refine Subrelation.wf ?_ (InvImage.wf (fun s : Sys => ((s.procs.map procWeight).sum, (s.procs.map procRest).sum)) wf)
  rintro t s ⟨e, h⟩
  rcases step_decreases h with h | ⟨h, h'⟩
  · exact Prod.Lex.left _ _ h
  · show Prod.Lex _ _ (_, _) (_, _)
    rw [h]
    exact Prod.Lex.right _ h'

/-- No worker is ever stuck, and none brings the process down: as long as a worker has not left its loop, it or its command
can go on, with the process alive. -/
theorem C83_progress (T : Tool) (hT : ∀ w, ∃ out intr, T.prints w out intr) (s0 s : Sys) (h0 : Starts s0) (l : List (Nat × Item)) (hr : Run T s0 l s)
    (k : Nat) (p : Proc) (hp : s.procs[k]? = some p) (ha : p.alive = true) (ph : Phase) (hw : ph ∈ p.workers) (hs : ph ≠ .stopped) :
    ∃ e t p', Step T e s t ∧ t.procs[k]? = some p' ∧ p'.alive = true ∧ p'.workers ≠ p.workers := by
  obtain ⟨j, hjl, hj'⟩ := List.getElem_of_mem hw
  have hj : p.workers[j]? = some ph := by rw [List.getElem?_eq_getElem hjl, hj']
  have hk : k < s.procs.length := (List.getElem?_eq_some_iff.1 hp).1
  have hok := (Inv.run h0 hr).phases k p j ph hp hj
  have differ : ∀ ph', ph' ≠ ph → p.workers.set j ph' ≠ p.workers := fun ph' h e => by
    have : (p.workers.set j ph')[j]? = some ph' := List.getElem?_set_self hjl
    rw [e, hj] at this
    exact h (Option.some.inj this).symm
  have byMain : ∀ {d' q' ph'}, Main T p.pid s.dir p.queue ph d' q' ph' true → ph' ≠ ph →
      ∃ e t p', Step T e s t ∧ t.procs[k]? = some p' ∧ p'.alive = true ∧ p'.workers ≠ p.workers := fun h hne =>
    ⟨_, _, _, Step.main hp hj ha h, List.getElem?_set_self hk, rfl, differ _ hne⟩
  have byChild : ∀ {d' ph'}, Child T p.pid s.dir ph d' ph' → ph' ≠ ph →
      ∃ e t p', Step T e s t ∧ t.procs[k]? = some p' ∧ p'.alive = true ∧ p'.workers ≠ p.workers := fun h hne =>
    ⟨_, _, _, Step.child hp hj h, List.getElem?_set_self hk, ha, differ _ hne⟩
  cases ph with
  | idle =>
    cases hq : p.queue with
    | nil => exact byMain (by rw [hq]; exact .done) (by simp)
    | cons w q => exact byMain (by rw [hq]; exact .take) (by simp)
  | start w =>
    obtain ⟨out, intr, h⟩ := hT w
    exact byChild (.start h) (by simp)
  | running w i pos r intr =>
    cases r with
    | nil =>
      cases intr with
      | false => exact byMain .returned (by simp)
      | true => exact byMain .interrupted (by simp)
    | cons c r => exact byChild (Child.write (now := [c]) (later := r) (by simp)) (by simp)
  | reading w => exact byMain .read (by simp)
  | opening w t => exact byMain .create (by simp)
  | writing w i pos r =>
    cases r with
    | nil => exact byMain .close (by simp)
    | cons c r => exact byMain (Main.write (now := [c]) (later := r) (by simp)) (by simp)
  | moving w =>
    cases hren : s.dir.rename (tmpFor p.pid w) (pathFor w) with
    | some d' => exact byMain (.rename hren) (by simp)
    | none =>
      obtain ⟨i, out, h1, _⟩ := hok
      rw [Dir.rename_none hren] at h1
      cases h1
  | stopped => exact absurd rfl hs

/-- So from every moment of every execution the workers of a process that is alive can finish. -/
theorem C83_finishes (T : Tool) (hT : ∀ w, ∃ out intr, T.prints w out intr) (s0 s : Sys) (h0 : Starts s0) (l : List (Nat × Item)) (hr : Run T s0 l s)
    (k : Nat) (p : Proc) (hp : s.procs[k]? = some p) (ha : p.alive = true) :
    ∃ l' t p', Run T s0 l' t ∧ t.procs[k]? = some p' ∧ p'.alive = true ∧ ∀ ph ∈ p'.workers, ph = .stopped := by
  induction s using (C83_terminates T).induction generalizing l p with
  | h s ih =>
    by_cases hall : ∀ ph ∈ p.workers, ph = .stopped
    · exact ⟨l, s, p, hr, hp, ha, hall⟩
    · obtain ⟨ph, hph⟩ := Classical.not_forall.1 hall
      obtain ⟨hm, hne⟩ := Classical.not_imp.1 hph
      obtain ⟨e, t, p', hs, hp', ha', _⟩ := C83_progress T hT s0 s h0 l hr k p hp ha ph hm hne
      exact ih t ⟨e, hs⟩ _ (.step hr hs) p' hp' ha'

/-! ## The result -/

/-- When the workers of a process have left their loops, and none of its commands was interrupted: every item of its list has been
examined exactly as often as it is listed, its place in the store holds all of what a run of the tool printed for it,
and no temporary file of it is left. -/
theorem C83_result (T : Tool) (s0 s : Sys) (h0 : Starts s0) (l : List (Nat × Item)) (hr : Run T s0 l s) (k : Nat) (p0 p : Proc)
    (hp0 : s0.procs[k]? = some p0) (hp : s.procs[k]? = some p) (hjobs : p0.workers ≠ []) (hdone : ∀ ph ∈ p.workers, ph = .stopped)
    (hno : ∀ w ∈ p0.queue, ∀ out, ¬ T.prints w out true) :
    (started k l).Perm p0.queue ∧
      ∀ w ∈ p0.queue, (∃ text, s.dir.read (pathFor w) = some text ∧ Complete T s0 (pathFor w) text) ∧ s.dir.read (tmpFor p0.pid w) = none := by
  have hi := Inv.run h0 hr
  obtain ⟨e1, e2, ⟨fin, hperm, hfin⟩, e4⟩ := hi.accounts k p p0 hp hp0
  have hq : p.queue = [] := by
    cases hw : p.workers with
    | nil => rw [hw] at e2; exact absurd (List.length_eq_zero_iff.1 e2.symm) hjobs
    | cons ph _ =>
      have hm : ph ∈ p.workers := by rw [hw]; exact List.mem_cons_self
      rw [hdone ph hm] at hm
      rcases e4 hm with h | ⟨w, hw, out, h⟩
      · exact h
      · exact absurd h (hno w hw out)
  have hnone : p.workers.filterMap held = [] := by
    rw [List.filterMap_eq_nil_iff]
    intro a ha
    rw [hdone a ha]
    rfl
  constructor
  · obtain ⟨p', waiting, h1, h2, h3⟩ := C83_accounts T s0 s l hr h0.idle k p0 hp0
    rw [hp] at h1
    cases h1
    have : waiting = [] := List.eq_nil_iff_forall_not_mem.2 fun w hw => by cases hdone _ (h3 w hw)
    rw [hq, this] at h2
    simpa using h2.symm
  · intro w hw
    rw [hq, hnone] at hperm
    obtain ⟨hg, hx⟩ := hfin w (by simpa using hperm.mem_iff.1 hw)
    rw [e1] at hg
    refine ⟨?_, by rw [Dir.read_eq, hg]; rfl⟩
    rcases hx with h | ⟨out, h⟩
    · exact h
    · exact absurd h (hno w hw out)

/-- One process, a tool that always prints the same for the same item: whatever the schedule and the number of workers, the
directory ends up the same. -/
theorem C83_deterministic (T : Tool) (d : Dir) (pid : Nat) (queue : List Item) (jobs jobs' : Nat) (hd : Sound d) (hn : (queue.map pathFor).Nodup)
    (hj : 0 < jobs) (hj' : 0 < jobs') (hno : ∀ w ∈ queue, ∀ out, ¬ T.prints w out true)
    (hdet : ∀ w out out', T.prints w out false → T.prints w out' false → out = out')
    (s s' : Sys) (l l' : List (Nat × Item))
    (hr : Run T ⟨d, [⟨pid, queue, List.replicate jobs .idle, true⟩]⟩ l s)
    (hr' : Run T ⟨d, [⟨pid, queue, List.replicate jobs' .idle, true⟩]⟩ l' s')
    (hdone : ∀ p ∈ s.procs, ∀ ph ∈ p.workers, ph = .stopped) (hdone' : ∀ p ∈ s'.procs, ∀ ph ∈ p.workers, ph = .stopped) (name : Bytes) :
    s.dir.read name = s'.dir.read name := by
  have starts : ∀ n, Starts ⟨d, [⟨pid, queue, List.replicate n .idle, true⟩]⟩ := fun n =>
    ⟨hd, by simp, by simp, by simp, by simpa using hn⟩
  have key : ∀ n l s, 0 < n → Run T ⟨d, [⟨pid, queue, List.replicate n .idle, true⟩]⟩ l s → (∀ p ∈ s.procs, ∀ ph ∈ p.workers, ph = .stopped) →
      (∀ w ∈ queue, (∃ out, T.prints w out false ∧ s.dir.read (pathFor w) = some (T.repair (filename w.path) out)) ∧ s.dir.read (tmpFor pid w) = none) ∧
      ∀ name, (∀ w ∈ queue, name ≠ pathFor w ∧ name ≠ tmpFor pid w) → s.dir.read name = d.read name := by
    intro n l s hn0 hr hdone
    have hi := Inv.run (starts n) hr
    have hlen := hi.len
    obtain ⟨p, hp⟩ : ∃ p, s.procs[0]? = some p := ⟨_, List.getElem?_eq_getElem (by rw [hlen]; simp)⟩
    have res := C83_result T _ s (starts n) l hr 0 _ p rfl hp (by simp; omega) (hdone p (List.mem_of_getElem? hp)) hno
    refine ⟨fun w hw => ?_, fun name hname => ?_⟩
    · obtain ⟨⟨t, h1, p1, hp1, w', hw', hpath, out, ho, ht⟩, h2⟩ := res.2 w hw
      simp only [List.mem_singleton] at hp1
      subst hp1
      have : w' = w := by
        have h3 := hn
        rw [List.nodup_iff_pairwise_ne, List.pairwise_map, List.pairwise_iff_getElem] at h3
        obtain ⟨a, ha, ea⟩ := List.getElem_of_mem hw
        obtain ⟨b, hb, eb⟩ := List.getElem_of_mem hw'
        rcases Nat.lt_trichotomy a b with h | h | h
        · exact absurd (by rw [ea, eb, hpath]) (h3 a b ha hb h)
        · subst h
          exact eb.symm.trans ea
        · exact absurd (by rw [ea, eb, hpath]) (h3 b a hb ha h)
      subst this
      exact ⟨⟨out, ho, by rw [h1, ht]⟩, h2⟩
    · rcases hi.stored name (fun p hp w hw => by simp only [List.mem_singleton] at hp; subst hp; exact (hname w hw).2) with h | ⟨t, _, p1, hp1, w, hw, hpath, _⟩
      · rw [Dir.read_eq, h, ← Dir.read_eq]
      · simp only [List.mem_singleton] at hp1
        subst hp1
        exact absurd hpath.symm (hname w hw).1
  obtain ⟨a1, a2⟩ := key jobs l s hj hr hdone
  obtain ⟨b1, b2⟩ := key jobs' l' s' hj' hr' hdone'
  by_cases h : ∃ w ∈ queue, name = pathFor w
  · obtain ⟨w, hw, rfl⟩ := h
    obtain ⟨out, h1, h2⟩ := (a1 w hw).1
    obtain ⟨out', h3, h4⟩ := (b1 w hw).1
    rw [h2, h4, hdet w out out' h1 h3]
  · by_cases h' : ∃ w ∈ queue, name = tmpFor pid w
    · obtain ⟨w, hw, rfl⟩ := h'
      rw [(a1 w hw).2, (b1 w hw).2]
    · have hx : ∀ w ∈ queue, name ≠ pathFor w ∧ name ≠ tmpFor pid w := fun w hw => ⟨fun e => h ⟨w, hw, e⟩, fun e => h' ⟨w, hw, e⟩⟩
      rw [a2 name hx, b2 name hx]

/-- Without workers (`CLANG_TIDY_JOBS` unset and `hardware_concurrency()` 0) nothing is examined. -/
theorem C83_no_jobs (T : Tool) (d : Dir) (pid : Nat) (queue : List Item) (l : List (Nat × Item)) (s : Sys)
    (hr : Run T ⟨d, [⟨pid, queue, [], true⟩]⟩ l s) : s.dir = d ∧ l = [] := by
  have : s.dir = d ∧ l = [] ∧ s.procs.map (·.workers) = [[]] := by
    induction hr with
    | refl => exact ⟨rfl, rfl, rfl⟩
    | @step _ t e u _ hs ih =>
      obtain ⟨h1, h2, h3⟩ := ih
      have hw : ∀ {k : Nat} {p : Proc}, t.procs[k]? = some p → p.workers = [] := fun {k p} hp => by
        have := List.mem_of_getElem? hp
        have h4 : p.workers ∈ _ := List.mem_map.2 ⟨p, this, rfl⟩
        rw [h3] at h4
        simpa using h4
      cases hs with
      | child hp hj _ => rw [hw hp] at hj; simp at hj
      | main hp hj _ _ => rw [hw hp] at hj; simp at hj
      | @kill _ k p hp ha =>
        refine ⟨h1, by simp [h2], ?_⟩
        simp only
        rw [← h3, List.map_set]
        have h5 := hw hp
        refine List.ext_getElem? fun i => ?_
        by_cases hik : k = i
        · subst hik
          rw [List.getElem?_set_self (by simpa using (List.getElem?_eq_some_iff.1 hp).1), List.getElem?_map, hp]
          rfl
        · rw [List.getElem?_set_ne hik]
  exact ⟨this.1, this.2.1⟩

/-! ## Non-vacuity -/

/-- A tool that prints one byte for every file. -/
def sampleTool : Tool := ⟨fun _ out intr => out = bytes!"A" ∧ intr = false, fun _ t => t⟩

/-- Two items with different places in the store, two workers. -/
def sampleStart : Sys :=
  ⟨⟨fun _ => none, fun _ => [], 0⟩, [⟨7, [⟨bytes!"a", 1#64⟩, ⟨bytes!"b", 1#64⟩], [.idle, .idle], true⟩]⟩

example : Starts sampleStart :=
  ⟨⟨by simp [sampleStart], by simp [sampleStart]⟩, by simp [sampleStart], by simp [sampleStart], by simp [sampleStart], by simp [sampleStart]; decide +kernel⟩

example : (∀ w, ∃ out intr, sampleTool.prints w out intr) ∧ (∀ w out, ¬ sampleTool.prints w out true) :=
  ⟨fun _ => ⟨_, _, rfl, rfl⟩, fun _ _ h => by cases h.2⟩

/-- The hypotheses of `C83_result` are met by an execution from there. -/
example : ∃ l t p', Run sampleTool sampleStart l t ∧ t.procs[0]? = some p' ∧ p'.alive = true ∧ ∀ ph ∈ p'.workers, ph = .stopped :=
  C83_finishes sampleTool (fun _ => ⟨_, _, rfl, rfl⟩) sampleStart sampleStart
    ⟨⟨by simp [sampleStart], by simp [sampleStart]⟩, by simp [sampleStart], by simp [sampleStart], by simp [sampleStart], by simp [sampleStart]; decide +kernel⟩
    [] .refl 0 _ rfl rfl

end Verif.Props
