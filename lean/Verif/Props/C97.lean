import Verif.Props.C96
/-! # C97: the line a message names

The assembler hands the parser one line at a time, so the parser takes each for the first. -/
namespace Verif.Props
open Verif.Db Verif.Asm Verif.Spec Verif.Text Verif.Xc7

theorem messages_one {number : Nat → Nat} (hnum : ∀ i, number i = 1) {i : Nat} {ls ts : List Bytes} (h : Messages number i ls ts) :
    ∀ t ∈ ts, ascii "1: " <+: t ∨ t = noNewlineText := by
  induction h with
  | nil => simp
  | cons h _ ih =>
    intro t ht
    rcases List.mem_append.1 ht with ht | ht
    · rw [hnum] at h
      rcases lineMessages_about h t ht with ⟨body, rfl⟩ | ⟨rfl, _⟩
      · exact Or.inl ⟨body ++ ascii "\n", by unfold about; rw [List.append_assoc]; rfl⟩
      · exact Or.inr rfl
    · exact ih t ht

/-- **Every message about a line says that it is line 1** (or that the text does not end with a newline), in every run that ends. -/
theorem C97_always_one (x : Texts) (env : Env) (load : LoadOrder) (ord : HashOrder) (inv : Invocation) (out o : OStream) (fuel n : Nat)
    (db : PartDatabase) (text : Bytes) (hst : Starts env load inv db text)
    (err : List Bytes) (h : mainM x env load ord inv out fuel = some (.ok (n, o, err))) :
    ∃ ts rest, err = ts ++ rest ∧ (∀ t ∈ ts, ascii "1: " <+: t ∨ t = noNewlineText) ∧
      (rest = [] ∨ ∃ t, rest = [t] ∧ ascii "could not assemble frames: " <+: t) := by
  have hset : ∀ p q, Setting inv.dbFlag inv.dbEnv p → Setting inv.dbFlag inv.dbEnv q → p = q := by
    intro p q hp hq
    have h1 := (C61_setting _ _ _).2 hp
    have h2 := (C61_setting _ _ _).2 hq
    rw [h1] at h2
    exact Outcome.ok.inj h2
  obtain ⟨s1, s2, s3, path, s4, s5, s6, s7⟩ := id hst
  rcases C96_run x env load ord inv out o fuel n err h with ⟨_, _, hf⟩ | ⟨_, db', text', ls, _, _, _, hm⟩
  · cases hf with
    | arguments h => omega
    | noPath h h1 h2 => rw [h1, h2] at s4; rcases s4 with h | ⟨_, h⟩ <;> cases h
    | badPath p h h1 h2 =>
      rw [hset p path h1 s4] at h2
      rcases h2 with h2 | h2
      · exact absurd h2 s5
      · rw [s6] at h2; cases h2
    | noPart p h h1 h2 h3 h4 => exact absurd h4 s2
    | database p message h h1 h2 h3 h4 h5 =>
      have h5 := ((C104_database _ env load _ _).2.1 message).2 h5
      rw [hset p path h1 s4, parseDatabaseM_ok _ s7] at h5
      cases h5
    | noInput p db h h1 h2 h3 h4 h5 h6 => exact absurd s3 (h6 text)
    | line db' text' pre bad post ts h h1 h2 h3 h4 =>
      exact ⟨ts, _, rfl, messages_one (fun _ => rfl) h4, Or.inr ⟨_, rfl, ascii "internal error\n", by decide +kernel⟩⟩
    | name db' text' ls ts name h h1 h2 h3 h4 =>
      refine ⟨ts, _, rfl, messages_one (fun _ => rfl) h3, Or.inr ⟨_, rfl, ascii "cannot split feature name " ++ name ++ ascii "\n", ?_⟩⟩
      rw [← List.append_assoc, ← List.append_assoc]
      have e : ascii "could not assemble frames: " ++ ascii "cannot split feature name " =
        ascii "could not assemble frames: cannot split feature name " := by decide +kernel
      rw [e]
  · exact ⟨err, [], by rw [List.append_nil], messages_one (fun _ => rfl) hm, Or.inl rfl⟩

/-- The number of messages about an accepted line. -/
theorem accepted_length {l : Bytes} (ha : Accepted l) {n m : Nat} {ts us : List Bytes} (h : LineMessages n l ts) (h' : LineMessages m l us) :
    ts.length = us.length := by
  obtain ⟨st, hst, _⟩ := ha
  obtain ⟨ts', h1, e1⟩ := lineMessages_renumber h 1
  obtain ⟨us', h2, e2⟩ := lineMessages_renumber h' 1
  obtain ⟨o, hp, _, ho⟩ := lineMessages_out l ts' h1 st hst
  obtain ⟨o', hp', _, ho'⟩ := lineMessages_out l us' h2 st hst
  rw [hp] at hp'
  cases hp'
  rw [← e1, ← e2, ← ho, ← ho']

theorem accepted_newline {l : Bytes} (ha : Accepted l) (hne : l ≠ []) : 0x0a ∈ l := by
  refine Classical.byContradiction fun hn => ?_
  obtain ⟨st, hst, _, hr⟩ := ha
  have e := Fasm.parseInM_no_nl true (fun _ => true) l [] (fun e => hn (List.mem_of_getLast? e)) hne
  have e2 := Fasm.parseInM_er true (fun _ => true) l []
  rw [e, Fasm.parseIn_nil, hst] at e2
  cases e2
  exact hr rfl

/-- Lines whose numbers are not 1. -/
theorem later_silent : ∀ (ls ts : List Bytes) (i : Nat), 0 < i → (∀ l ∈ ls, Accepted l) →
    Messages (fun _ => 1) i ls ts → Messages (fun i => i + 1) i ls ts → ts = [] ∧ ∀ l ∈ ls, LineMessages 1 l [] := by
  intro ls
  induction ls with
  | nil => intro ts i _ _ h _; cases h; exact ⟨rfl, by simp⟩
  | cons l ls ih =>
    intro ts i hi ha h h'
    generalize hts : ts = ts' at h'
    cases h with
    | cons h1 t1 =>
      cases h' with
      | cons h2 t2 =>
        obtain ⟨e1, e2⟩ := List.append_inj hts (accepted_length (ha _ List.mem_cons_self) h1 h2)
        rename_i a b a' b'
        subst e1 e2
        obtain ⟨rfl, h3⟩ := ih b (i + 1) (by omega) (fun l hl => ha l (List.mem_cons_of_mem _ hl)) t1 t2
        have ha0 : a = [] := by
          refine Classical.byContradiction fun hne => ?_
          obtain ⟨t, ht⟩ := List.exists_mem_of_ne_nil _ hne
          have hnl := accepted_newline (ha _ List.mem_cons_self) (lineMessages_ne h1)
          rcases lineMessages_about h1 t ht with ⟨body, rfl⟩ | ⟨_, h⟩
          · rcases lineMessages_about h2 _ ht with ⟨body', e⟩ | ⟨_, h⟩
            · have := (about_number e).1
              omega
            · exact h hnl
          · exact h hnl
        subst ha0
        refine ⟨rfl, ?_⟩
        intro l' hl'
        rcases List.mem_cons.1 hl' with rfl | hl'
        · exact h1
        · exact h3 l' hl'

theorem silent_any : ∀ (ls ts : List Bytes) (i : Nat), (∀ l ∈ ls, Accepted l) → (∀ l ∈ ls, LineMessages 1 l []) →
    Messages (fun _ => 1) i ls ts → Messages (fun i => i + 1) i ls ts := by
  intro ls
  induction ls with
  | nil => intro ts i _ _ h; cases h; exact .nil i
  | cons l ls ih =>
    intro ts i ha hs h
    cases h with
    | cons h1 t1 =>
      have hl := accepted_length (ha _ List.mem_cons_self) h1 (hs _ List.mem_cons_self)
      rename_i a b
      have ha0 : a = [] := List.eq_nil_of_length_eq_zero hl
      subst ha0
      obtain ⟨us, h2, e⟩ := lineMessages_renumber h1 (i + 1)
      have hus : us = [] := List.eq_nil_of_length_eq_zero e
      subst hus
      exact .cons h2 (ih _ _ (fun l hl => ha l (List.mem_cons_of_mem _ hl)) (fun l hl => hs l (List.mem_cons_of_mem _ hl)) t1)

/-- Accepted lines: the numbers are right exactly when there is nothing to say about any line but the first. -/
theorem allFirst_numbered {ls ts : List Bytes} (ha : ∀ l ∈ ls, Accepted l) (h : AllFirst ls ts) :
    Numbered ls ts ↔ ∀ l ∈ ls.tail, LineMessages 1 l [] := by
  cases ls with
  | nil =>
    cases h
    exact ⟨fun _ => by simp, fun _ => .nil 0⟩
  | cons l ls =>
    have ha' : ∀ l ∈ ls, Accepted l := fun l hl => ha l (List.mem_cons_of_mem _ hl)
    constructor
    · intro h'
      unfold AllFirst at h
      unfold Numbered at h'
      generalize hts : ts = ts' at h'
      cases h with
      | cons h1 t1 =>
        cases h' with
        | cons h2 t2 =>
          obtain ⟨e1, e2⟩ := List.append_inj hts (accepted_length (ha _ List.mem_cons_self) h1 h2)
          subst e1 e2
          exact (later_silent ls _ 1 (by omega) ha' t1 t2).2
    · intro hs
      unfold AllFirst at h
      unfold Numbered
      cases h with
      | cons h1 t1 => exact .cons h1 (silent_any ls _ 1 ha' hs t1)

/-- A run with status 0: the messages name the right lines exactly when there is nothing to say about any line but the first.
Missing: that they always do (`C97_defect`). -/
theorem C97_numbers_partial (x : Texts) (env : Env) (load : LoadOrder) (ord : HashOrder) (inv : Invocation) (out o : OStream) (fuel : Nat)
    (err : List Bytes) (h : mainM x env load ord inv out fuel = some (.ok (0, o, err))) :
    ∃ db text ls, Starts env load inv db text ∧ InputLines text ls ∧
      (Numbered ls err ↔ ∀ l ∈ ls.tail, LineMessages 1 l []) := by
  rcases C96_run x env load ord inv out o fuel 0 err h with ⟨h, _⟩ | ⟨_, db, text, ls, hst, hin, hacc, hmsg⟩
  · cases h
  exact ⟨db, text, ls, hst, hin, allFirst_numbered hacc hmsg⟩

/-- A run that fails at a line (`C96_bad_line` gives the hypotheses): what is said about that line is what there is to say about it with
its own number only if it is the first line; and then all messages are right.  Missing: the other lines. -/
theorem C97_failed_partial (pre : List Bytes) (bad : Bytes) (ts us : List Bytes) (ha : ∀ l ∈ pre, Accepted l) (h : AllFirst pre ts)
    (hne : us ≠ []) (hb : LineMessages 1 bad us) (hnl : 0x0a ∈ bad) :
    (∀ vs, LineMessages (pre.length + 1) bad vs → vs = us → pre = []) ∧ (pre = [] → Numbered (pre ++ [bad]) (ts ++ us)) := by
  constructor
  · rintro vs hv rfl
    obtain ⟨t, ht⟩ := List.exists_mem_of_ne_nil _ hne
    rcases lineMessages_about hb t ht with ⟨body, rfl⟩ | ⟨_, h⟩
    · rcases lineMessages_about hv _ ht with ⟨body', e⟩ | ⟨_, h⟩
      · have := (about_number e).1
        exact List.eq_nil_of_length_eq_zero (by omega)
      · exact absurd hnl h
    · exact absurd hnl h
  · rintro rfl
    cases h
    have := Messages.cons (number := fun i => i + 1) (i := 0) hb (.nil 1)
    rw [List.append_nil] at this
    exact this

/-! ## The defect -/

/-- `T.F`, then `?`. -/
theorem C97_defect (x : Texts) (out : OStream) (fuel : Nat) :
    ∃ text ls err, Input { fileInv with stdin := text } text ∧ InputLines text ls ∧
      mainM x fileEnv sameLoad sameOrder { fileInv with stdin := text } out fuel = some (.ok (1, out, err)) ∧
      ∀ ts, Numbered ls ts → err ≠ ts ++ [ascii "could not assemble frames: internal error\n"] := by
  refine ⟨bytes!"T.F\n?\n", [bytes!"T.F\n", bytes!"?\n"], _, Or.inr ⟨fun _ _ h => by simp [fileInv] at h, rfl⟩, ?_,
    C96_line_example x out fuel, ?_⟩
  · exact .line bytes!"T.F" bytes!"?\n" _ (by decide) (.line bytes!"?" [] _ (by decide) .nil)
  · intro ts h e
    have e' := List.append_cancel_right e
    have ha : Accepted bytes!"T.F\n" := ⟨_, rfl, by decide, by decide⟩
    have h0 : LineMessages 1 bytes!"T.F\n" [] := by
      have h := assembleLineM_says [] bytes!"T.F\n" (Or.inl ⟨bytes!"T.F", rfl, by decide⟩) (by decide) (by decide)
      have e0 : (assembleLineM [] bytes!"T.F\n").1 = [] := by decide +kernel
      rw [e0] at h
      exact h
    unfold Numbered at h
    rw [← e'] at h
    generalize hts : [ascii "1: expected newline, got '?'\n"] = ts' at h
    cases h with
    | cons h1 t1 =>
      cases t1 with
      | cons h2 t2 =>
        cases t2
        rename_i a b
        have ha0 : a = [] := List.eq_nil_of_length_eq_zero (accepted_length ha h1 h0)
        subst ha0
        rw [List.nil_append, List.append_nil] at hts
        subst hts
        rcases lineMessages_about h2 _ List.mem_cons_self with ⟨body, e⟩ | ⟨e, _⟩
        · have e3 : ascii "1: expected newline, got '?'\n" = about 1 (ascii "expected newline, got '?'") := by decide +kernel
          rw [e3] at e
          exact absurd (about_number e).1 (by decide)
        · exact absurd e (by decide +kernel)

end Verif.Props
