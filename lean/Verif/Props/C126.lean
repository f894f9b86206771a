import Verif.Spec.Tidy.Progress
import Verif.Model.Tidy.Progress
import Verif.Props.C83
import Verif.Props.C112
/-! # C126: the progress display of the lint script -/
namespace Verif.Props
open Verif.Tidy Verif.Spec.Tidy

/-- What is on show is one of the executions: each can be watched, and what is watched is one. -/
theorem C126_every (T : Tool) (k : Nat) (s t : Sys) : (∃ x, Watched T k s x t) ↔ ∃ l, Run T s l t := by
  constructor
  · rintro ⟨x, h⟩
    induction h with
    | refl => exact ⟨[], .refl⟩
    | step _ hs ih => obtain ⟨l, hl⟩ := ih; exact ⟨_, .step hl hs⟩
  · rintro ⟨l, h⟩
    induction h with
    | refl => exact ⟨[], .refl⟩
    | step _ hs ih => obtain ⟨x, hx⟩ := ih; exact ⟨_, .step hx hs⟩

/-- What a step does to a queue: nothing, or one item is taken. -/
theorem step_queue {T : Tool} {e : Option (Nat × Item)} {s t : Sys} (h : Step T e s t) (k : Nat) (p : Proc) (hp : s.procs[k]? = some p) :
    ∃ p', t.procs[k]? = some p' ∧ (p'.queue = p.queue ∨ ∃ w, p.queue = w :: p'.queue) := by
  have hk : ∀ (k' : Nat) (p1 : Proc), k' = k → s.procs[k']? = some p1 → p1 = p := by
    rintro k' p1 rfl h; rw [hp] at h; exact (Option.some.inj h).symm
  have set_ne : ∀ (k' : Nat) (p1 : Proc), k' ≠ k → (s.procs.set k' p1)[k]? = some p := by
    intro k' p1 h; rw [List.getElem?_set_ne h, hp]
  have set_eq : ∀ p1 : Proc, (s.procs.set k p1)[k]? = some p1 := by
    intro p1
    exact List.getElem?_set_self (List.getElem?_eq_some_iff.1 hp).1
  cases h with
  | child hp1 hj hc =>
    rename_i k' p1 j ph d' ph'
    by_cases hkk : k' = k
    · have := hk k' p1 hkk hp1
      subst this hkk
      exact ⟨_, set_eq _, Or.inl rfl⟩
    · exact ⟨p, set_ne _ _ hkk, Or.inl rfl⟩
  | main hp1 hj ha hm =>
    rename_i k' p1 j ph d' q' ph' ok
    by_cases hkk : k' = k
    · have := hk k' p1 hkk hp1
      subst this hkk
      refine ⟨_, set_eq _, ?_⟩
      generalize hq : p1.queue = q at hm
      cases hm with
      | take => exact Or.inr ⟨_, rfl⟩
      | done => exact Or.inl rfl
      | returned => exact Or.inl rfl
      | interrupted => exact Or.inl rfl
      | read => exact Or.inl rfl
      | create => exact Or.inl rfl
      | write => exact Or.inl rfl
      | close => exact Or.inl rfl
      | rename => exact Or.inl rfl
      | noRename => exact Or.inl rfl
    · exact ⟨p, set_ne _ _ hkk, Or.inl rfl⟩
  | kill hp1 ha =>
    rename_i k' p1
    by_cases hkk : k' = k
    · have := hk k' p1 hkk hp1
      subst this hkk
      exact ⟨_, set_eq _, Or.inl rfl⟩
    · exact ⟨p, set_ne _ _ hkk, Or.inl rfl⟩

theorem pad5_field (n : Nat) : Field n (pad5 n) := by
  refine ⟨_, _, ?_, decimal_numeral n, ?_, rfl⟩
  · intro c hc
    exact (List.mem_replicate.1 hc).2
  · rw [List.length_append, List.length_replicate]; omega

theorem countsDown_snoc {a b c : Nat} {x f : Bytes} (h : CountsDown a b x) (hb : b = c + 1) (hf : Field b f) :
    CountsDown a c (x ++ (f ++ List.replicate 5 0x08)) := by
  induction h with
  | done =>
    subst hb
    have := CountsDown.next (lo := c) (Nat.le_refl c) hf .done
    simpa using this
  | @next hi lo f' rest h1 h2 _ ih =>
    have := CountsDown.next (lo := c) (by omega) h2 (ih hb hf)
    simpa [List.append_assoc] using this

theorem countsDown_le {a b : Nat} {x : Bytes} (h : CountsDown a b x) : b ≤ a := by
  induction h with
  | done => exact Nat.le_refl _
  | next _ _ _ ih => omega

/-- Whatever the number of workers, whatever other processes do, whenever it is killed: the numbers shown go down one by one from the number of files to one more than are still
to be taken up. -/
theorem C126_counts (T : Tool) (k : Nat) (s0 s : Sys) (x : Bytes) (h : Watched T k s0 x s) (p0 : Proc) (hp0 : s0.procs[k]? = some p0) :
    ∃ p, s.procs[k]? = some p ∧ CountsDown p0.queue.length p.queue.length x := by
  induction h with
  | refl => exact ⟨p0, hp0, .done⟩
  | @step x t e u _ hs ih =>
    obtain ⟨p, hp, hc⟩ := ih
    obtain ⟨p', hp', hq⟩ := step_queue hs k p hp
    refine ⟨p', hp', ?_⟩
    unfold shown
    rw [hp, hp']
    dsimp only
    rcases hq with hq | ⟨w, hq⟩
    · rw [hq, if_neg (by omega), List.append_nil]
      exact hc
    · have hlen : p.queue.length = p'.queue.length + 1 := by rw [hq]; rfl
      rw [if_pos (by omega)]
      exact countsDown_snoc hc hlen (pad5_field _)

/-- When the last worker is done and the tool was never interrupted, it has been down to 1. -/
theorem C126_all (T : Tool) (k : Nat) (s0 s : Sys) (x : Bytes) (h0 : Starts s0) (h : Watched T k s0 x s) (p0 p : Proc) (hp0 : s0.procs[k]? = some p0)
    (hp : s.procs[k]? = some p) (hjobs : p0.workers ≠ []) (hdone : ∀ ph ∈ p.workers, ph = .stopped) (hno : ∀ w ∈ p0.queue, ∀ out, ¬ T.prints w out true) :
    CountsDown p0.queue.length 0 x := by
  obtain ⟨p1, hp1, hc⟩ := C126_counts T k s0 s x h p0 hp0
  rw [hp] at hp1
  cases hp1
  obtain ⟨l, hr⟩ := (C126_every T k s0 s).1 ⟨x, h⟩
  have h1 := (C83_result T s0 s h0 l hr k p0 p hp0 hp hjobs hdone hno).1
  obtain ⟨p2, waiting, hp2, h2, _⟩ := C83_accounts T s0 s l hr h0.idle k p0 hp0
  rw [hp] at hp2
  cases hp2
  have e1 := h1.length_eq
  have e2 := h2.length_eq
  simp only [List.length_append] at e2
  have : p.queue.length = 0 := by omega
  rw [this] at hc
  exact hc

/-! ## On the terminal -/

theorem field_plain {n : Nat} {f : Bytes} (h : Field n f) : ∀ c ∈ f, c ≠ 0x0a ∧ c ≠ 0x08 := by
  obtain ⟨blanks, d, h1, ⟨⟨_, h2, _⟩, _⟩, _, rfl⟩ := h
  intro c hc
  rcases List.mem_append.1 hc with hc | hc
  · rw [h1 c hc]; decide
  · have := h2 c hc
    constructor
    · rintro rfl; exact absurd this (by decide)
    · rintro rfl; exact absurd this (by decide)

theorem foldl_digits_le (d : Bytes) (v : Nat) : v * 10 ^ d.length ≤ d.foldl (fun v c => v * 10 + (c.toNat - 0x30)) v := by
  induction d generalizing v with
  | nil => simp
  | cons c d ih =>
    rw [List.foldl_cons, List.length_cons, Nat.pow_succ]
    refine Nat.le_trans ?_ (ih _)
    calc v * (10 ^ d.length * 10) = (v * 10) * 10 ^ d.length := by rw [Nat.mul_comm (10 ^ d.length), Nat.mul_assoc]
      _ ≤ _ := Nat.mul_le_mul_right _ (Nat.le_add_right _ _)

theorem plain_short {d : Bytes} {n : Nat} (h : PlainNumber d n) (hn : n < 100000) : d.length ≤ 5 := by
  obtain ⟨⟨h1, h2, h3⟩, h4⟩ := h
  cases d with
  | nil => exact absurd rfl h1
  | cons c d =>
    by_cases hc : c = 0x30
    · subst hc
      have := h4 rfl
      rw [this]; decide
    · have h5 := h2 c (by simp)
      have h6 : 1 ≤ c.toNat - 0x30 := by
        have h5' : c.toNat ≠ 48 := fun e => hc (UInt8.toNat_inj.1 e)
        have h5'' : 48 ≤ c.toNat := h5.1
        show 1 ≤ c.toNat - 48
        omega
      have h7 := foldl_digits_le d (0 * 10 + (c.toNat - 0x30))
      have h3' : n = d.foldl (fun v c => v * 10 + (c.toNat - 0x30)) (0 * 10 + (c.toNat - 0x30)) := h3.symm
      rw [← h3'] at h7
      have h8 : 10 ^ d.length ≤ (0 * 10 + (c.toNat - 0x30)) * 10 ^ d.length := Nat.le_mul_of_pos_left _ (by omega)
      have h9 : 10 ^ d.length < 10 ^ 5 := by omega
      have := (Nat.pow_lt_pow_iff_right (by decide : 1 < 10)).1 h9
      rw [List.length_cons]; omega

theorem field_five {n : Nat} {f : Bytes} (h : Field n f) (hn : n < 100000) : f.length = 5 := by
  obtain ⟨blanks, d, _, h2, h3, rfl⟩ := h
  rw [h3]
  have := plain_short h2 hn
  omega

theorem type_plain (text : Bytes) (h : ∀ c ∈ text, c ≠ 0x0a ∧ c ≠ 0x08) (above : List Bytes) (pre old : Bytes) :
    Screen.type ⟨above, pre ++ old, pre.length⟩ text = ⟨above, pre ++ text ++ old.drop text.length, pre.length + text.length⟩ := by
  induction text generalizing pre old with
  | nil => simp [Screen.type]
  | cons c text ih =>
    have hc := h c (by simp)
    have := ih (fun c hc => h c (by simp [hc])) (pre ++ [c]) (old.drop 1)
    unfold Screen.type at this ⊢
    rw [List.foldl_cons]
    have e : Screen.put ⟨above, pre ++ old, pre.length⟩ c = ⟨above, pre ++ [c] ++ old.drop 1, (pre ++ [c]).length⟩ := by
      unfold Screen.put
      rw [if_neg hc.1, if_neg hc.2]
      simp [List.drop_append]
    rw [e, this]
    simp only [Screen.mk.injEq, true_and]
    refine ⟨?_, by simp; omega⟩
    simp

theorem type_append (s : Screen) (a b : Bytes) : s.type (a ++ b) = (s.type a).type b := List.foldl_append

theorem type_back (s : Screen) (n : Nat) : s.type (List.replicate n 0x08) = { s with col := s.col - n } := by
  induction n generalizing s with
  | zero => rfl
  | succ n ih =>
    unfold Screen.type at ih ⊢
    rw [List.replicate_succ, List.foldl_cons, ih]
    unfold Screen.put
    rw [if_neg (by decide), if_pos rfl]
    simp only [Screen.mk.injEq, true_and]
    omega

/-- A countdown over a field of five columns, or over nothing. -/
theorem type_counts {hi lo : Nat} {x : Bytes} (h : CountsDown hi lo x) (hhi : hi < 100000) (above : List Bytes) (header old : Bytes) (hold : old.length ≤ 5) :
    ∃ field, Screen.type ⟨above, header ++ old, header.length⟩ x = ⟨above, header ++ field, header.length⟩ ∧
      (lo = hi → field = old) ∧ (lo < hi → Field (lo + 1) field ∧ field.length = 5) := by
  induction h generalizing old with
  | done => exact ⟨old, rfl, fun _ => rfl, fun h => absurd h (Nat.lt_irrefl _)⟩
  | @next hi lo f rest h1 h2 h3 ih =>
    have h5 := field_five h2 hhi
    obtain ⟨field, h6, h7, h8⟩ := ih (by omega) f (by omega)
    refine ⟨field, ?_, fun h => by omega, fun _ => ?_⟩
    · rw [type_append, type_append, type_plain f (field_plain h2), type_back]
      rw [List.drop_eq_nil_of_le (by omega), List.append_nil, h5]
      show Screen.type ⟨above, header ++ f, header.length + 5 - 5⟩ rest = _
      rw [Nat.add_sub_cancel]
      exact h6
    · rcases Nat.lt_or_ge lo hi with h | h
      · exact h8 h
      · have : lo = hi := by omega
        subst this
        rw [h7 rfl]
        exact ⟨h2, h5⟩

theorem number_plain {n : Nat} {d : Bytes} (h : PlainNumber d n) : ∀ c ∈ d, c ≠ 0x0a ∧ c ≠ 0x08 := by
  intro c hc
  have := h.1.2.1 c hc
  constructor
  · rintro rfl; exact absurd this (by decide)
  · rintro rfl; exact absurd this (by decide)

theorem announces_plain {files jobs : Nat} {line : Bytes} (h : Announces files jobs line) : ∀ c ∈ line, c ≠ 0x0a ∧ c ≠ 0x08 := by
  obtain ⟨a, b, h1, h2, rfl⟩ := h
  intro c hc
  have h3 : ∀ c : UInt8, c ∈ bytes!" files to process (w/ " → c ≠ 0x0a ∧ c ≠ 0x08 := by decide
  have h4 : ∀ c : UInt8, c ∈ bytes!" jobs)..." → c ≠ 0x0a ∧ c ≠ 0x08 := by decide
  simp only [List.mem_append] at hc
  rcases hc with ((hc | hc) | hc) | hc
  · exact number_plain h1 c hc
  · exact h3 c hc
  · exact number_plain h2 c hc
  · exact h4 c hc

theorem header_announces (terminal : Bool) (files jobs : Nat) :
    ∃ header, Announces files jobs header ∧ workHeader terminal files jobs = header ++ if terminal then [] else [0x0a] :=
  ⟨_, ⟨_, _, decimal_numeral files, decimal_numeral jobs, rfl⟩, rfl⟩

/-- At every moment of an execution on less than 100000 files the line of the cursor is the announcement and, in five columns behind it, the number of files that are not taken up yet,
the last one taken up included; the cursor is behind the announcement. -/
theorem C126_screen (T : Tool) (k : Nat) (s0 s : Sys) (x : Bytes) (h : Watched T k s0 x s) (p0 p : Proc) (hp0 : s0.procs[k]? = some p0)
    (hp : s.procs[k]? = some p) (hfew : p0.queue.length < 100000) (jobs : Nat) (above : List Bytes) :
    ∃ header field, Announces p0.queue.length jobs header ∧
      Screen.type ⟨above, [], 0⟩ (workHeader true p0.queue.length jobs ++ x) = ⟨above, header ++ field, header.length⟩ ∧
      (p.queue.length = p0.queue.length → field = []) ∧ (p.queue.length < p0.queue.length → Field (p.queue.length + 1) field) := by
  obtain ⟨p1, hp1, hc⟩ := C126_counts T k s0 s x h p0 hp0
  rw [hp] at hp1
  cases hp1
  obtain ⟨header, h1, h2⟩ := header_announces true p0.queue.length jobs
  rw [if_pos rfl, List.append_nil] at h2
  obtain ⟨field, h3, h4, h5⟩ := type_counts hc hfew above header [] (by simp)
  refine ⟨header, field, h1, ?_, h4, fun h => (h5 h).1⟩
  rw [h2, type_append]
  have := type_plain header (announces_plain h1) above [] []
  rw [List.nil_append, List.nil_append, List.length_nil, Nat.zero_add, List.drop_nil] at this
  rw [this, h3]

/-- In the end only the announcement is left, blanks behind it, and the cursor is on a new line. -/
theorem C126_end (T : Tool) (k : Nat) (s0 s : Sys) (x : Bytes) (h : Watched T k s0 x s) (p0 : Proc) (hp0 : s0.procs[k]? = some p0)
    (hsome : p0.queue ≠ []) (hfew : p0.queue.length < 100000) (jobs : Nat) (above : List Bytes) :
    ∃ header, Announces p0.queue.length jobs header ∧
      Screen.type ⟨above, [], 0⟩ (workText true p0.queue jobs x) = ⟨above ++ [header ++ bytes!"     "], [], 0⟩ := by
  obtain ⟨p, hp, hc⟩ := C126_counts T k s0 s x h p0 hp0
  obtain ⟨header, h1, h2⟩ := header_announces true p0.queue.length jobs
  rw [if_pos rfl, List.append_nil] at h2
  obtain ⟨field, h3, h4, h5⟩ := type_counts hc hfew above header [] (by simp)
  refine ⟨header, h1, ?_⟩
  have h6 : field.length ≤ 5 := by
    have := countsDown_le hc
    rcases Nat.lt_or_ge p.queue.length p0.queue.length with h | h
    · rw [(h5 h).2]; exact Nat.le_refl _
    · rw [h4 (by omega)]; simp
  unfold workText
  rw [if_neg hsome, if_pos rfl, h2, type_append, type_append]
  have := type_plain header (announces_plain h1) above [] []
  rw [List.nil_append, List.nil_append, List.length_nil, Nat.zero_add, List.drop_nil] at this
  rw [this, h3]
  have e : clearText = bytes!"     " ++ [0x0a] := by decide
  rw [e, type_append, type_plain _ (by decide)]
  rw [List.drop_eq_nil_of_le (by exact h6), List.append_nil]
  rfl

/-- Into a file goes the announcement only, whatever happens; nothing to do, nothing said. -/
theorem C126_file (queue : List Item) (jobs : Nat) (x : Bytes) :
    (queue = [] → ∀ terminal, workText terminal queue jobs x = []) ∧
    (queue ≠ [] → ∃ header, Announces queue.length jobs header ∧ workText false queue jobs x = header ++ [0x0a]) := by
  unfold workText
  refine ⟨fun h _ => if_pos h, fun h => ?_⟩
  obtain ⟨header, h1, h2⟩ := header_announces false queue.length jobs
  refine ⟨header, h1, ?_⟩
  rw [if_neg h, h2]
  simp

/-! ## More than 99999 files -/

theorem two_taken (T : Tool) (d : Dir) (pid : Nat) (a b : Item) (q : List Item) :
    ∃ s, Watched T 0 ⟨d, [⟨pid, a :: b :: q, [.idle, .idle], true⟩]⟩ (counter (q.length + 2) ++ counter (q.length + 1)) s := by
  have s1 : Step T none ⟨d, [⟨pid, a :: b :: q, [.idle, .idle], true⟩]⟩ ⟨d, [⟨pid, b :: q, [.start a, .idle], true⟩]⟩ :=
    .main (k := 0) (j := 0) (p := ⟨pid, a :: b :: q, [.idle, .idle], true⟩) rfl rfl rfl .take
  have s2 : Step T none ⟨d, [⟨pid, b :: q, [.start a, .idle], true⟩]⟩ ⟨d, [⟨pid, q, [.start a, .start b], true⟩]⟩ :=
    .main (k := 0) (j := 1) (p := ⟨pid, b :: q, [.start a, .idle], true⟩) rfl rfl rfl .take
  have e1 : shown 0 ⟨d, [⟨pid, a :: b :: q, [.idle, .idle], true⟩]⟩ ⟨d, [⟨pid, b :: q, [.start a, .idle], true⟩]⟩ = counter (q.length + 2) := by
    show (if (b :: q).length < (a :: b :: q).length then counter (a :: b :: q).length else []) = _
    rw [if_pos (by simp)]
    rfl
  have e2 : shown 0 ⟨d, [⟨pid, b :: q, [.start a, .idle], true⟩]⟩ ⟨d, [⟨pid, q, [.start a, .start b], true⟩]⟩ = counter (q.length + 1) := by
    show (if q.length < (b :: q).length then counter (b :: q).length else []) = _
    rw [if_pos (by simp)]
    rfl
  have h := Watched.step (k := 0) (.step (k := 0) .refl s1) s2
  rw [e1, e2, List.nil_append] at h
  exact ⟨_, h⟩

theorem counter_six : counter 100000 = bytes!"100000" ++ List.replicate 5 0x08 := by decide +kernel

theorem counter_five : counter 99999 = bytes!"99999" ++ List.replicate 5 0x08 := by decide +kernel

theorem drifted (header : Bytes) (h : ∀ c ∈ header, c ≠ 0x0a ∧ c ≠ 0x08) :
    Screen.type ⟨[], [], 0⟩ (header ++ ((bytes!"100000" ++ List.replicate 5 0x08) ++ (bytes!"99999" ++ List.replicate 5 0x08))) =
      ⟨[], header ++ bytes!"199999", header.length + 1⟩ := by
  have := type_plain header h [] [] []
  rw [List.nil_append, List.nil_append, List.length_nil, Nat.zero_add, List.drop_nil, List.append_nil] at this
  have a1 := type_plain bytes!"100000" (by decide) [] header []
  have a2 := type_plain bytes!"99999" (by decide) [] (header ++ bytes!"1") bytes!"00000"
  rw [List.append_nil] at a1
  rw [type_append, this, type_append _ (bytes!"100000" ++ List.replicate 5 0x08), type_append _ bytes!"100000", a1, type_back]
  have e4 : (⟨[], header ++ bytes!"100000" ++ ([] : Bytes).drop (bytes!"100000").length, header.length + (bytes!"100000").length - 5⟩ : Screen) =
      ⟨[], (header ++ bytes!"1") ++ bytes!"00000", (header ++ bytes!"1").length⟩ := by
    simp
  refine (congrArg (fun s => Screen.type s (bytes!"99999" ++ List.replicate 5 0x08)) e4).trans ?_
  rw [type_append, a2, type_back]
  simp

/-- Two workers of a process with 100000 files take up one each: the line then ends in `199999`, and the cursor is not where it was. -/
theorem C126_defect_many (T : Tool) (d : Dir) (pid : Nat) (queue : List Item) (hq : queue.length = 100000) :
    ∃ x s, Watched T 0 ⟨d, [⟨pid, queue, [.idle, .idle], true⟩]⟩ x s ∧ ∃ header, Announces 100000 2 header ∧
      Screen.type ⟨[], [], 0⟩ (workHeader true 100000 2 ++ x) = ⟨[], header ++ bytes!"199999", header.length + 1⟩ := by
  match queue, hq with
  | [], hq => exact absurd hq (by simp)
  | [a], hq => exact absurd hq (by simp)
  | a :: b :: q, hq =>
    have e1 : q.length + 2 = 100000 := hq
    have e2 : q.length + 1 = 99999 := by omega
    obtain ⟨s, hs⟩ := two_taken T d pid a b q
    rw [e1, e2, counter_six, counter_five] at hs
    obtain ⟨header, h1, h2⟩ := header_announces true 100000 2
    rw [if_pos rfl, List.append_nil] at h2
    refine ⟨_, s, hs, header, h1, ?_⟩
    rw [h2]
    exact drifted header (announces_plain h1)

/-- A display of a run on two files by two workers, to its end. -/
example : ∃ x s, Watched sampleTool 0 sampleStart x s ∧ ∃ n, CountsDown n 0 x ∧ n = (sampleStart.procs.map (·.queue.length)).sum ∧ 0 < n := by
  have h0 : Starts sampleStart :=
    ⟨⟨by simp [sampleStart], by simp [sampleStart]⟩, by simp [sampleStart], by simp [sampleStart], by simp [sampleStart], by simp [sampleStart]; decide +kernel⟩
  obtain ⟨l, t, p', h1, h2, _, h3⟩ := C83_finishes sampleTool (fun _ => ⟨_, _, rfl, rfl⟩) sampleStart sampleStart h0 [] .refl 0 _ rfl rfl
  obtain ⟨x, hx⟩ := (C126_every sampleTool 0 sampleStart t).2 ⟨l, h1⟩
  refine ⟨x, t, hx, _, C126_all sampleTool 0 sampleStart t x h0 hx _ p' rfl h2 (by decide) h3 ?_, by decide, by decide⟩
  rintro w _ out ⟨_, h⟩
  cases h

end Verif.Props
