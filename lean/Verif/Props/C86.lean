import Verif.Props.C85
import Verif.Proofs.Tidy.Report
/-! # C86: the report of the lint script and its exit status -/
namespace Verif.Props
open Verif.Tidy Verif.Spec.Tidy

/-- The summary has, for every check, the number of different counted finding lines (with the newlines around them) in the stored texts
of the files of interest. -/
theorem C86_tally (d : Dir) (files : List Item) (check : Bytes) (n : Nat) :
    (check, n) ∈ (tally d files).checks ↔
      0 < n ∧ Distinct (files.flatMap fun f => counted (some []) (completeLines ((d.read (pathFor f)).getD []))) check n :=
  (tally_spec d files).2 check n

private theorem sorted_nodup {l : List (Bytes × Nat)} (h : l.Pairwise fun a b => a.1 < b.1) : l.Nodup := by
  rw [List.nodup_iff_pairwise_ne]
  refine h.imp ?_
  intro a b hlt e
  rw [e] at hlt
  exact List.lt_irrefl _ hlt

private theorem pair_of_mem {α : Type} {R : α → α → Prop} {l : List α} (h : l.Pairwise R) {a b : α} (ha : a ∈ l) (hb : b ∈ l) (hab : a ≠ b) :
    List.Sublist [a, b] l ∨ List.Sublist [b, a] l := by
  induction l with
  | nil => cases ha
  | cons c l ih =>
    rcases List.mem_cons.1 ha with rfl | ha'
    · rcases List.mem_cons.1 hb with rfl | hb'
      · exact absurd rfl hab
      · exact Or.inl (List.cons_sublist_cons.2 (List.singleton_sublist.2 hb'))
    · rcases List.mem_cons.1 hb with rfl | hb'
      · exact Or.inr (List.cons_sublist_cons.2 (List.singleton_sublist.2 ha'))
      · rcases ih (List.pairwise_cons.1 h).2 ha' hb' with h' | h'
        · exact Or.inl (h'.cons _)
        · exact Or.inr (h'.cons _)

/-- It lists each check once, larger numbers first, and checks with the same number by name. -/
theorem C86_summary (d : Dir) (files : List Item) :
    (byCount (tally d files).checks).Perm (tally d files).checks ∧
    (byCount (tally d files).checks).Pairwise fun a b => b.2 < a.2 ∨ (a.2 = b.2 ∧ a.1 < b.1) := by
  have hs := (tally_spec d files).1
  generalize (tally d files).checks = c at hs
  have htr : ∀ a b e : Bytes × Nat, decide (b.2 ≤ a.2) = true → decide (e.2 ≤ b.2) = true → decide (e.2 ≤ a.2) = true := fun a b e h h' => by
    simp only [decide_eq_true_eq] at *; omega
  have htot : ∀ a b : Bytes × Nat, (decide (b.2 ≤ a.2) || decide (a.2 ≤ b.2)) = true := fun a b => by
    simp only [Bool.or_eq_true, decide_eq_true_eq]; omega
  have hperm : (byCount c).Perm c := List.mergeSort_perm _ _
  refine ⟨hperm, ?_⟩
  have hnd : (byCount c).Nodup := hperm.nodup_iff.2 (sorted_nodup hs)
  have hle : (byCount c).Pairwise fun a b => decide (b.2 ≤ a.2) = true := List.pairwise_mergeSort (le := fun a b : Bytes × Nat => decide (b.2 ≤ a.2)) htr htot c
  rw [List.pairwise_iff_forall_sublist] at hle ⊢
  intro a b hab
  have h1 : b.2 ≤ a.2 := by simpa using hle hab
  by_cases h2 : b.2 < a.2
  · exact Or.inl h2
  · refine Or.inr ⟨by omega, ?_⟩
    have hne : a ≠ b := by
      intro e
      subst e
      have := hnd.sublist hab
      simp at this
    have ha : a ∈ c := hperm.mem_iff.1 (hab.subset (by simp))
    have hb : b ∈ c := hperm.mem_iff.1 (hab.subset (by simp))
    rcases pair_of_mem hs ha hb hne with h | h
    · exact (List.pairwise_iff_forall_sublist.1 hs) h
    · have h3 : List.Sublist [b, a] (byCount c) := List.pair_sublist_mergeSort htr htot (by simp; omega) h
      -- both orders in a list without repetition
      exfalso
      have key : ∀ (l : List (Bytes × Nat)), l.Nodup → List.Sublist [a, b] l → List.Sublist [b, a] l → False := by
        intro l
        induction l with
        | nil => intro _ h _; cases h
        | cons e l ih =>
          intro hn k1 k2
          obtain ⟨hn1, hn2⟩ := List.nodup_cons.1 hn
          cases k1 with
          | cons _ k1 =>
            cases k2 with
            | cons _ k2 => exact ih hn2 k1 k2
            | cons_cons _ k2 => exact hn1 (k1.subset (by simp))
          | cons_cons _ k1 =>
            cases k2 with
            | cons _ k2 => exact hn1 (k2.subset (by simp))
            | cons_cons _ k2 => exact hne rfl
      exact key _ hnd hab h3

/-- The exit status is 0 exactly when no text stored for a file of interest has a finding line; files without an entry count
as texts without findings. -/
theorem C86_status (d : Dir) (files : List Item) :
    (exitStatus d files = 0 ∨ exitStatus d files = 1) ∧
      (exitStatus d files = 0 ↔ ∀ f ∈ files, ¬ HasFinding ((d.read (pathFor f)).getD [])) := by
  have h : (tally d files).checks.length = 0 ↔ ∀ f ∈ files, ¬ HasFinding ((d.read (pathFor f)).getD []) := by
    rw [List.length_eq_zero_iff, checks_nil_iff]
    unfold allCounted
    rw [List.flatMap_eq_nil_iff]
    refine forall_congr' fun f => forall_congr' fun _ => ?_
    rw [counted_nil_iff]
    unfold HasFinding contentFor
    simp only [not_exists, not_and]
  unfold exitStatus
  split
  · rename_i h0
    exact ⟨Or.inl rfl, ⟨fun _ => h.1 h0, fun _ => rfl⟩⟩
  · rename_i h0
    refine ⟨Or.inr rfl, ⟨fun e => (by cases e), fun h' => absurd (h.2 h') h0⟩⟩

/-- Where no finding line directly follows another, all of them are counted. -/
theorem C86_counted_partial (lead : Bytes) (lines : List Bytes) (h : ∀ a b l r, lines = l ++ a :: b :: r → (∃ c, Finding a c) → ∀ c, ¬ Finding b c) :
    (counted (some lead) lines).map (·.2) = lines.filterMap checkOf := by
  have key : ∀ n (lines : List Bytes), lines.length ≤ n → (∀ a b l r, lines = l ++ a :: b :: r → (∃ c, Finding a c) → ∀ c, ¬ Finding b c) →
      (∀ lead, (counted (some lead) lines).map (·.2) = lines.filterMap checkOf) := by
    intro n
    induction n with
    | zero =>
      intro lines hn _ lead
      rw [List.length_eq_zero_iff.1 (by omega : lines.length = 0)]
      rfl
    | succ n ih =>
      intro lines hn hadj lead
      cases lines with
      | nil => rfl
      | cons a rest =>
        have hrest : ∀ a' b' l r, rest = l ++ a' :: b' :: r → (∃ c, Finding a' c) → ∀ c, ¬ Finding b' c := fun a' b' l r e =>
          hadj a' b' (a :: l) r (by rw [e]; rfl)
        rw [counted, List.filterMap_cons]
        cases hc : checkOf a with
        | none => exact ih rest (by simp at hn; omega) hrest _
        | some c =>
          simp only [List.map_cons]
          congr 1
          cases rest with
          | nil => rfl
          | cons b rest =>
            have hb : checkOf b = none := checkOf_eq_none.2 (hadj a b [] rest rfl ⟨c, checkOf_eq_some.1 hc⟩)
            rw [counted, List.filterMap_cons, hb]
            exact ih rest (by simp at hn; omega) (fun a' b' l r e => hrest a' b' (b :: l) r (by rw [e]; rfl)) _
  exact key _ lines (Nat.le_refl _) h lead

/-- Of two finding lines one directly behind the other only the first is counted. -/
theorem C86_defect_adjacent (a b c c' : Bytes) (h : Finding a c) (_h' : Finding b c') :
    completeLines (a ++ [0x0a] ++ b ++ [0x0a]) = [a, b] ∧ (counted (some []) [a, b]).map (·.2) = [c] := by
  constructor
  · have e : a ++ [0x0a] ++ b ++ [0x0a] = a ++ 0x0a :: (b ++ 0x0a :: []) := by simp
    rw [e, completeLines_line _ _ (fun hm => (h.oneLine _ hm).1 rfl), completeLines_line _ _ (fun hm => (_h'.oneLine _ hm).1 rfl)]
    rfl
  · rw [counted, checkOf_eq_some.2 h]
    rfl

/-- Only letters, dots and dashes are recognised in the names of checks: lines about checks with a digit in the name
(`cert-err58-cpp`), or about two checks (`a-b,c-d`), are no findings and do not make the status 1. -/
theorem C86_defect_names (pre name : Bytes) (hb : (0x5b : UInt8) ∉ name) (hc : ∃ c ∈ name, ¬ Letter c ∧ c ≠ 0x2e ∧ c ≠ 0x2d) (check : Bytes) :
    ¬ Finding (pre ++ bytes!"[" ++ name ++ bytes!"]") check := by
  rintro ⟨pre', _, h2, e⟩
  obtain ⟨x, y, _, _, hx, hy, rfl⟩ := h2
  obtain ⟨c, hcm, hl, hd, hm⟩ := hc
  have hx5 : ∀ d ∈ x ++ bytes!"-" ++ y, Letter d ∨ d = 0x2e ∨ d = 0x2d := by
    intro d hd
    simp only [List.mem_append, List.mem_singleton] at hd
    rcases hd with (hd | hd) | hd
    · rcases hx d hd with h | h
      · exact Or.inl h
      · exact Or.inr (Or.inl h)
    · exact Or.inr (Or.inr hd)
    · exact hy d hd
  have h5b : ¬ Letter 0x5b := by unfold Letter; decide
  have hr := congrArg List.reverse e
  have := span_unique (p := fun d => decide (d ≠ 0x5b)) (w := name.reverse) (w' := (x ++ bytes!"-" ++ y).reverse) (c := 0x5b) (c' := 0x5b) (r := pre.reverse) (r' := pre'.reverse)
    (fun d hd => by simp only [decide_eq_true_eq]; intro e; exact hb (by rw [← e]; simpa using hd))
    (fun d hd => by
      simp only [decide_eq_true_eq]
      intro e
      rcases hx5 d (List.mem_reverse.1 hd) with h | h | h
      · rw [e] at h; exact h5b h
      · rw [e] at h; revert h; decide
      · rw [e] at h; revert h; decide) (by decide) (by decide) (by simpa using hr)
  have hname : name = x ++ bytes!"-" ++ y := List.reverse_inj.1 this.1
  rcases hx5 c (by rw [← hname]; exact hcm) with h | h | h
  · exact hl h
  · exact hd h
  · exact hm h

/-- The printed summary can be read back: names have no newline. -/
theorem C86_summary_text (c c' : List (Bytes × Nat)) (h : ∀ e ∈ c, (0x0a : UInt8) ∉ e.1) (h' : ∀ e ∈ c', (0x0a : UInt8) ∉ e.1)
    (e : summaryText c = summaryText c') : byCount c = byCount c' := by
  have digit : ∀ n, ∀ d ∈ decimal n, isDigit d = true := decimal_digits
  have lineOf : ∀ x : Bytes × Nat, (0x0a : UInt8) ∉ x.1 → (0x0a : UInt8) ∉ pad5 x.2 ++ [0x20] ++ x.1 := by
    intro x hx hm
    simp only [pad5, List.mem_append, List.mem_replicate, List.mem_singleton] at hm
    rcases hm with ((⟨_, hm⟩ | hm) | hm) | hm
    · revert hm; decide
    · have := digit _ _ hm; revert this; decide
    · revert hm; decide
    · exact hx hm
  have lines : ∀ l : List (Bytes × Nat), (∀ x ∈ l, (0x0a : UInt8) ∉ x.1) →
      completeLines (l.flatMap fun x => pad5 x.2 ++ [0x20] ++ x.1 ++ [0x0a]) = l.map fun x => pad5 x.2 ++ [0x20] ++ x.1 := by
    intro l
    induction l with
    | nil => intro _; rfl
    | cons x l ih =>
      intro hl
      rw [List.flatMap_cons, List.map_cons, ← ih fun y hy => hl y (by simp [hy])]
      have : pad5 x.2 ++ [0x20] ++ x.1 ++ [0x0a] ++ (l.flatMap fun x => pad5 x.2 ++ [0x20] ++ x.1 ++ [0x0a]) =
        (pad5 x.2 ++ [0x20] ++ x.1) ++ 0x0a :: (l.flatMap fun x => pad5 x.2 ++ [0x20] ++ x.1 ++ [0x0a]) := by simp
      rw [this, completeLines_line _ _ (lineOf x (hl x (by simp)))]
  have inj : ∀ x y : Bytes × Nat, pad5 x.2 ++ [0x20] ++ x.1 = pad5 y.2 ++ [0x20] ++ y.1 → x = y := by
    intro x y hxy
    obtain ⟨d, ds, hd⟩ : ∃ d ds, decimal x.2 = d :: ds := List.exists_cons_of_ne_nil (decimal_ne_nil _)
    obtain ⟨d', ds', hd'⟩ : ∃ d ds, decimal y.2 = d :: ds := List.exists_cons_of_ne_nil (decimal_ne_nil _)
    have n1 : isDigit d = true := digit x.2 d (by rw [hd]; simp)
    have n2 : isDigit d' = true := digit y.2 d' (by rw [hd']; simp)
    have sp : ∀ {d : UInt8}, isDigit d = true → decide (d = 0x20) = false := fun {d} h => by
      simp only [decide_eq_false_iff_not]
      intro e
      rw [e] at h
      revert h
      decide
    have e1 : List.replicate (5 - (decimal x.2).length) (0x20 : UInt8) ++ d :: (ds ++ [0x20] ++ x.1) =
        List.replicate (5 - (decimal y.2).length) (0x20 : UInt8) ++ d' :: (ds' ++ [0x20] ++ y.1) := by
      have := hxy
      unfold pad5 at this
      rw [hd, hd'] at this
      rw [hd, hd']
      simpa using this
    obtain ⟨_, e2, e3⟩ := span_unique (p := fun c => decide (c = 0x20)) (fun c hc => by simpa using (List.mem_replicate.1 hc).2) (fun c hc => by simpa using (List.mem_replicate.1 hc).2) (sp n1) (sp n2) e1
    have e4 : ds ++ 0x20 :: x.1 = ds' ++ 0x20 :: y.1 := by simpa using e3
    obtain ⟨e5, _, e6⟩ := span_unique (p := isDigit) (fun c hc => digit x.2 c (by rw [hd]; simp [hc])) (fun c hc => digit y.2 c (by rw [hd']; simp [hc])) (by decide) (by decide) e4
    have : decimal x.2 = decimal y.2 := by rw [hd, hd', e2, e5]
    obtain ⟨a, b⟩ := x
    obtain ⟨a', b'⟩ := y
    simp only at this e6
    rw [e6, decimal_inj this]
  have hb : ∀ x ∈ byCount c, (0x0a : UInt8) ∉ x.1 := fun x hx => h x ((List.mergeSort_perm _ _).mem_iff.1 hx)
  have hb' : ∀ x ∈ byCount c', (0x0a : UInt8) ∉ x.1 := fun x hx => h' x ((List.mergeSort_perm _ _).mem_iff.1 hx)
  have hl := lines _ hb
  have hl' := lines _ hb'
  unfold summaryText at e
  rw [e, hl'] at hl
  revert hl
  generalize byCount c = l
  generalize byCount c' = l'
  intro hl
  induction l generalizing l' with
  | nil => simpa using hl
  | cons x l ih =>
    cases l' with
    | nil => cases hl
    | cons y l' =>
      simp only [List.map_cons, List.cons.injEq] at hl
      rw [inj y x hl.1, ih l' hl.2]

/-! ## A whole run -/

/-- A run that is not interrupted: the status is 0 exactly when no text for a file of interest has a finding, where the
text is what the cache had for its name and key, or else what the tool printed for it in this run. -/
theorem C86_main (T : Tool) (hash : Bytes → BitVec 64) (tree : List (Bytes × Option Bytes)) (pid jobs : Nat) (d d' : Dir) (status : Nat)
    (hd : Sound d) (hj : 0 < jobs) (hn : ((buildWorkList hash d tree).map pathFor).Nodup) (hno : ∀ w ∈ buildWorkList hash d tree, ∀ out, ¬ T.prints w out true)
    (h : MainRun T hash tree pid jobs d d' status) :
    ∃ text : Item → Bytes,
      (∀ f ∈ filesOfInterest hash tree, d.read (pathFor f) = some (text f) ∨
        d.read (pathFor f) = none ∧ ∃ out, T.prints f out false ∧ text f = T.repair (filename f.path) out) ∧
      (status = 0 ∨ status = 1) ∧ (status = 0 ↔ ∀ f ∈ filesOfInterest hash tree, ¬ HasFinding (text f)) := by
  have listed : ∀ f ∈ filesOfInterest hash tree, f ∉ buildWorkList hash d tree → ∃ t, d.read (pathFor f) = some t := fun f hf hnot => by
    unfold buildWorkList at hnot
    rw [List.mem_filter] at hnot
    cases hs : d.names (pathFor f) with
    | none => exact absurd ⟨hf, by unfold needsRefresh; rw [hs]; rfl⟩ hnot
    | some i => exact ⟨d.data i, by simp [Dir.read, hs]⟩
  refine ⟨fun f => (d'.read (pathFor f)).getD [], ?_, ?_⟩
  · cases h with
    | nothing hnil =>
      intro f hf
      obtain ⟨t, ht⟩ := listed f hf (by rw [hnil]; simp)
      exact Or.inl (by simp only [ht]; rfl)
    | @work l s p hne hr hp ha hs =>
      intro f hf
      have st : Starts ⟨d, [⟨pid, buildWorkList hash d tree, List.replicate jobs .idle, true⟩]⟩ :=
        ⟨hd, by simp, by simp, by simp, by simpa using hn⟩
      have hi := Inv.run st hr
      by_cases hw : f ∈ buildWorkList hash d tree
      · refine Or.inr ⟨?_, ?_⟩
        · have := (List.mem_filter.1 hw).2
          unfold needsRefresh at this
          simp only [Option.isNone_iff_eq_none] at this
          rw [Dir.read, this]
          rfl
        · have res := C83_result T _ s st l hr 0 _ p rfl (by rw [hp]; rfl) (by simp; omega) hs hno
          obtain ⟨⟨t, h1, p1, hp1, w', hw', hpath, out, ho, ht⟩, _⟩ := res.2 f hw
          simp only [List.mem_singleton] at hp1
          subst hp1
          have : w' = f := by
            have h3 := hn
            rw [List.nodup_iff_pairwise_ne, List.pairwise_map, List.pairwise_iff_getElem] at h3
            obtain ⟨a, ha, ea⟩ := List.getElem_of_mem hw
            obtain ⟨b, hb, eb⟩ := List.getElem_of_mem hw'
            rcases Nat.lt_trichotomy a b with h | h | h
            · exact absurd (by rw [ea, eb, hpath]) (h3 a b ha hb h)
            · subst h
              exact eb.symm.trans ea
            · exact absurd (by rw [ea, eb, hpath]) (h3 b a hb ha h)
          subst this
          exact ⟨out, ho, by simp only [h1, ht]; rfl⟩
      · obtain ⟨t, ht⟩ := listed f hf hw
        refine Or.inl ?_
        rcases hi.stored (pathFor f) (fun p _ w' _ e => pathFor_not_tmp f (e ▸ tmpFor_isTmp _ _)) with h' | ⟨u, h1, p1, hp1, w', hw', hpath, _⟩
        · have : s.dir.read (pathFor f) = d.read (pathFor f) := by rw [Dir.read_eq, h', ← Dir.read_eq]
          simp only [this, ht]
          rfl
        · simp only [List.mem_singleton] at hp1
          subst hp1
          have := (List.mem_filter.1 hw').2
          unfold needsRefresh at this
          simp only [Option.isNone_iff_eq_none] at this
          rw [hpath] at this
          rw [Dir.read, this] at ht
          cases ht
  · cases h with
    | nothing _ => exact C86_status d _
    | work _ _ _ _ _ => exact C86_status _ _

/-- A command that is killed by `SIGINT` ends the loop of its worker only: the files not examined count as clean.  With an empty cache and one worker
the status is 0 whatever the tool has to say about any file. -/
theorem C86_defect_interrupted (T : Tool) (hash : Bytes → BitVec 64) (tree : List (Bytes × Option Bytes)) (pid : Nat) (w : Item) (rest : List Item) (out : Bytes)
    (hw : filesOfInterest hash tree = w :: rest) (hi : T.prints w out true) :
    ∃ d', MainRun T hash tree pid 1 ⟨fun _ => none, fun _ => [], 0⟩ d' 0 ∧ ∀ name, d'.read name = none := by
  have hlist : buildWorkList hash ⟨fun _ => none, fun _ => [], 0⟩ tree = w :: rest := by
    unfold buildWorkList
    rw [hw, List.filter_eq_self]
    intro a _
    rfl
  let d0 : Dir := ⟨fun _ => none, fun _ => [], 0⟩
  let d1 := (d0.openTrunc (tmpFor pid w)).1
  let i := (d0.openTrunc (tmpFor pid w)).2
  let d2 := d1.write i 0 out
  let d3 := d2.remove (tmpFor pid w)
  let p (q : List Item) (ph : Phase) : Proc := ⟨pid, q, [ph], true⟩
  have q1 : Step T none ⟨d0, [p (w :: rest) .idle]⟩ ⟨d0, [p rest (.start w)]⟩ :=
    Step.main (s := ⟨d0, [p (w :: rest) .idle]⟩) (k := 0) (p := p (w :: rest) .idle) (j := 0) (ph := .idle) (d' := d0) (q' := rest) (ph' := .start w) (ok := true) rfl rfl rfl .take
  have r1 := Run.step (Run.refl (T := T)) q1
  have q2 : Step T (some (0, w)) ⟨d0, [p rest (.start w)]⟩ ⟨d1, [p rest (.running w i 0 out true)]⟩ :=
    Step.child (s := ⟨d0, [p rest (.start w)]⟩) (k := 0) (p := p rest (.start w)) (j := 0) (ph := .start w) (d' := d1) (ph' := .running w i 0 out true) rfl rfl (.start hi)
  have r2 := Run.step r1 q2
  have r3 : ∃ l pos dd, dd.names = d1.names ∧ Run T ⟨d0, [p (w :: rest) .idle]⟩ l ⟨dd, [p rest (.running w i pos [] true)]⟩ := by
    by_cases ho : out = []
    · subst ho
      exact ⟨_, 0, d1, rfl, r2⟩
    · have := Child.write (T := T) (pid := pid) (d := d1) (w := w) (i := i) (pos := 0) (now := out) (later := []) (intr := true) ho
      rw [List.append_nil] at this
      have q3 : Step T none ⟨d1, [p rest (.running w i 0 out true)]⟩ ⟨d1.write i 0 out, [p rest (.running w i (0 + out.length) [] true)]⟩ :=
        Step.child (s := ⟨d1, [p rest (.running w i 0 out true)]⟩) (k := 0) (p := p rest (.running w i 0 out true)) (j := 0) (ph := .running w i 0 out true) rfl rfl this
      exact ⟨_, _, d1.write i 0 out, rfl, .step r2 q3⟩
  obtain ⟨l, pos, dd, hnames, r3⟩ := r3
  have q4 : Step T none ⟨dd, [p rest (.running w i pos [] true)]⟩ ⟨dd.remove (tmpFor pid w), [p rest .stopped]⟩ :=
    Step.main (s := ⟨dd, [p rest (.running w i pos [] true)]⟩) (k := 0) (p := p rest (.running w i pos [] true)) (j := 0) (ph := .running w i pos [] true)
      (q' := rest) (ph' := .stopped) (ok := true) rfl rfl rfl .interrupted
  have r4 := Run.step r3 q4
  have hnone : ∀ name, (dd.remove (tmpFor pid w)).names name = none := by
    intro name
    simp only [Dir.remove, hnames]
    by_cases h : name = tmpFor pid w
    · simp [h]
    · simp [h, d1, d0, Dir.openTrunc]
  refine ⟨dd.remove (tmpFor pid w), ?_, fun name => by rw [Dir.read, hnone]; rfl⟩
  have hm := MainRun.work (T := T) (hash := hash) (tree := tree) (pid := pid) (jobs := 1) (d := d0) (p := p rest .stopped) (by rw [hlist]; simp) (by rw [hlist]; exact r4) rfl rfl (by simp [p])
  have h0 : exitStatus (dd.remove (tmpFor pid w)) (filesOfInterest hash tree) = 0 := by
    refine (C86_status _ _).2.2 fun f _ hf => ?_
    rw [Dir.read, hnone] at hf
    obtain ⟨line, hl, _⟩ := hf
    cases hl
  rw [h0] at hm
  exact hm

/-! ## Non-vacuity -/

/-- `a.cc:1:2: warning: x [bugprone-y]` -/
def sampleFinding : Bytes :=
  bytes!"a.cc:1:2: warning: x [bugprone-y]"

/-- `[bugprone-y]` -/
def sampleCheck : Bytes := bytes!"[bugprone-y]"

theorem sampleFinding_finding : Finding sampleFinding sampleCheck :=
  ⟨bytes!"a.cc:1:2: warning: x ", by unfold OneLine; decide,
    ⟨bytes!"bugprone", bytes!"y", by decide, by decide, by unfold Letter; decide, by unfold Letter; decide, rfl⟩, rfl⟩

example : HasFinding (sampleFinding ++ [0x0a]) :=
  ⟨sampleFinding, by rw [completeLines_line _ _ (by decide)]; simp, sampleCheck, sampleFinding_finding⟩

/-- `cert-err58-cpp` -/
example : ∃ c ∈ (bytes!"cert-err58-cpp" : Bytes), ¬ Letter c ∧ c ≠ 0x2e ∧ c ≠ 0x2d :=
  ⟨0x35, by decide, by unfold Letter; decide, by decide, by decide⟩

/-- The hypotheses of `C86_main` are met: an empty cache, one source file, a tool that is never interrupted. -/
example : ∃ d' status, MainRun sampleTool (fun c => BitVec.ofNat 64 c.length) [(bytes!"m.cc", some sampleSource)] 7 1 ⟨fun _ => none, fun _ => [], 0⟩ d' status := by
  have hl : buildWorkList (fun c => BitVec.ofNat 64 c.length) ⟨fun _ => none, fun _ => [], 0⟩ [(bytes!"m.cc", some sampleSource)] ≠ [] := by decide +kernel
  obtain ⟨l, s, p, hr, hp, ha, hs⟩ := C83_finishes sampleTool (fun _ => ⟨_, _, rfl, rfl⟩)
    (s0 := ⟨⟨fun _ => none, fun _ => [], 0⟩, [⟨7, buildWorkList (fun c => BitVec.ofNat 64 c.length) ⟨fun _ => none, fun _ => [], 0⟩ [(bytes!"m.cc", some sampleSource)], List.replicate 1 .idle, true⟩]⟩) _
    ⟨⟨by simp, by simp⟩, by simp, by simp, by simp, by simp; decide +kernel⟩ [] .refl 0 _ rfl rfl
  have hlen := (Inv.run (T := sampleTool) ⟨⟨by simp, by simp⟩, by simp, by simp, by simp, by simp; decide +kernel⟩ hr).len
  have hps : s.procs = [p] := by
    match hq : s.procs with
    | [] => rw [hq] at hp; cases hp
    | [q] => rw [hq] at hp; cases hp; rfl
    | _ :: _ :: _ => rw [hq] at hlen; simp at hlen
  exact ⟨_, _, MainRun.work hl hr hps ha hs⟩

end Verif.Props
