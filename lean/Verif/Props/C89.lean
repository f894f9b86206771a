import Verif.Props.C88
/-! # C89: from what the tool prints to the exit status of the lint script -/
namespace Verif.Props
open Verif.Tidy Verif.Spec.Tidy Re

/-- In what the tool printed there is, after making names relative, a finding that is kept for the file. -/
def Reported (roots : List Bytes) (file out : Bytes) : Prop :=
  ∃ lines last, (∀ l ∈ lines, (0x0a : UInt8) ∉ l) ∧ (0x0a : UInt8) ∉ last ∧ out = textOf lines last ∧
    ∃ before line after, (lines ++ [last]).map (relativePattern roots) = before ++ line :: after ∧ Shown file (before ++ [line]) ∧ ∃ check, Finding line check

private theorem lines_exist (out : Bytes) : ∃ lines last, (∀ l ∈ lines, (0x0a : UInt8) ∉ l) ∧ (0x0a : UInt8) ∉ last ∧ out = textOf lines last := by
  induction out with
  | nil => exact ⟨[], [], by simp, by simp, rfl⟩
  | cons c r ih =>
    obtain ⟨lines, last, h1, h2, rfl⟩ := ih
    by_cases hc : c = 0x0a
    · subst hc
      exact ⟨[] :: lines, last, by simpa using h1, h2, by simp [textOf]⟩
    · cases lines with
      | nil => exact ⟨[], c :: last, by simp, by simp [h2, Ne.symm hc], by simp [textOf]⟩
      | cons l lines =>
        refine ⟨(c :: l) :: lines, last, ?_, h2, by simp [textOf]⟩
        intro x hx
        rcases List.mem_cons.1 hx with rfl | hx
        · have := h1 l (by simp)
          simp [this, Ne.symm hc]
        · exact h1 x (by simp [hx])

private theorem textOf_inj {lines lines' : List Bytes} {last last' : Bytes} (h : ∀ l ∈ lines, (0x0a : UInt8) ∉ l) (h' : (0x0a : UInt8) ∉ last)
    (g : ∀ l ∈ lines', (0x0a : UInt8) ∉ l) (g' : (0x0a : UInt8) ∉ last') (e : textOf lines last = textOf lines' last') : lines = lines' ∧ last = last' := by
  have nl : ∀ {l : Bytes}, (0x0a : UInt8) ∉ l → ∀ c ∈ l, decide (c ≠ 0x0a) = true := fun hl c hc => by
    simp only [decide_eq_true_eq]; intro e; exact hl (e ▸ hc)
  induction lines generalizing lines' with
  | nil =>
    cases lines' with
    | nil => exact ⟨rfl, by simpa [textOf] using e⟩
    | cons l' lines' =>
      exfalso
      have e : last = textOf (l' :: lines') last' := by simpa [textOf] using e
      exact h' (by rw [e]; simp [textOf])
  | cons l lines ih =>
    cases lines' with
    | nil =>
      exfalso
      have e : textOf (l :: lines) last = last' := by simpa [textOf] using e
      exact g' (by rw [← e]; simp [textOf])
    | cons l' lines' =>
      have e : l ++ 0x0a :: textOf lines last = l' ++ 0x0a :: textOf lines' last' := by simpa [textOf] using e
      obtain ⟨e1, _, e2⟩ := span_unique (p := fun c => decide (c ≠ 0x0a)) (nl (h l (by simp))) (nl (g l' (by simp))) (by decide) (by decide) e
      obtain ⟨e3, e4⟩ := ih (fun x hx => h x (by simp [hx])) (fun x hx => g x (by simp [hx])) e2
      exact ⟨by rw [e1, e3], e4⟩

private theorem relative_mem {roots : List Bytes} {line : Bytes} {c : UInt8} (h : c ∈ relativePattern roots line) : c ∈ line := by
  obtain ⟨k, e, _⟩ := relativePattern_drop roots line
  rw [e] at h
  exact List.mem_of_mem_drop h

private theorem completeLines_kept (ls : List Bytes) (h : ∀ l ∈ ls, (0x0a : UInt8) ∉ l) : completeLines (ls.flatMap (· ++ [0x0a])) = ls := by
  induction ls with
  | nil => rfl
  | cons l ls ih =>
    have : (l :: ls).flatMap (· ++ [0x0a]) = l ++ 0x0a :: ls.flatMap (· ++ [0x0a]) := by simp
    rw [this, completeLines_line _ _ (h l (by simp)), ih fun x hx => h x (by simp [hx])]

private theorem not_finding_nil (check : Bytes) : ¬ Finding [] check := by
  rintro ⟨pre, _, ⟨a, b, _, _, _, _, rfl⟩, e⟩
  have := congrArg List.length e
  simp at this

private theorem take_line (before : List Bytes) (line : Bytes) (after : List Bytes) : (before ++ line :: after).take (before.length + 1) = before ++ [line] := by
  rw [List.take_append, List.take_of_length_le (by omega), Nat.add_sub_cancel_left]
  rfl

open Classical in
/-- The text stored for a file has a finding exactly when the tool reported one that is kept. -/
theorem C89_stored (roots : List Bytes) (hr : ∀ p ∈ roots, PlainPath p) (file out : Bytes) :
    HasFinding (repairText roots file out) ↔ Reported roots file out := by
  obtain ⟨lines, last, h1, h2, rfl⟩ := lines_exist out
  have hrel : ∀ l ∈ lines.map (relativePattern roots), (0x0a : UInt8) ∉ l := by
    intro l hl hm
    obtain ⟨l', hl', rfl⟩ := List.mem_map.1 hl
    exact h1 l' hl' (relative_mem hm)
  have hrel' : (0x0a : UInt8) ∉ relativePattern roots last := fun hm => h2 (relative_mem hm)
  rw [C88_stored_pattern roots hr file lines last h1 h2, C87_filter file _ _ hrel hrel']
  -- with an empty line at the end
  generalize hL : (lines.map (relativePattern roots) ++ if relativePattern roots last = [] then [] else [relativePattern roots last]) = L
  have hLn : ∀ l ∈ L, (0x0a : UInt8) ∉ l := by
    rw [← hL]
    intro l hl
    rcases List.mem_append.1 hl with hl | hl
    · exact hrel l hl
    · split at hl
      · cases hl
      · rw [List.mem_singleton.1 hl]; exact hrel'
  have hmore : (lines ++ [last]).map (relativePattern roots) = L ++ if relativePattern roots last = [] then [[]] else [] := by
    rw [← hL]
    split
    · rename_i h; simp [h]
    · simp
  have hkept : (List.range L.length).flatMap (fun i => if Shown file (L.take (i + 1)) then L[i]?.getD [] ++ [0x0a] else []) =
      (((List.range L.length).filter fun i => decide (Shown file (L.take (i + 1)))).map fun i => L[i]?.getD []).flatMap (· ++ [0x0a]) := by
    rw [List.flatMap_map]
    induction List.range L.length with
    | nil => rfl
    | cons i is ih =>
      rw [List.flatMap_cons, List.filter_cons, ih]
      by_cases h : Shown file (L.take (i + 1))
      · rw [if_pos h, if_pos (by simpa using h)]
        rfl
      · rw [if_neg h, if_neg (by simpa using h)]
        rfl
  rw [hkept]
  unfold HasFinding
  rw [completeLines_kept]
  · constructor
    · rintro ⟨line, hl, check, hf⟩
      obtain ⟨i, hi, rfl⟩ := List.mem_map.1 hl
      rw [List.mem_filter, List.mem_range, decide_eq_true_eq] at hi
      refine ⟨lines, last, h1, h2, rfl, L.take i, L[i], L.drop (i + 1) ++ (if relativePattern roots last = [] then [[]] else []), ?_, ?_, check, ?_⟩
      · have hx : L = L.take i ++ L[i] :: L.drop (i + 1) := by
          rw [← List.drop_eq_getElem_cons hi.1, List.take_append_drop]
        rw [hmore, ← List.cons_append, ← List.append_assoc, ← hx]
      · rw [← List.take_succ_eq_append_getElem hi.1]
        exact hi.2
      · rw [List.getElem?_eq_getElem hi.1] at hf
        exact hf
    · rintro ⟨lines', last', g1, g2, e, before, line, after, hb, hs, check, hf⟩
      obtain ⟨rfl, rfl⟩ := textOf_inj h1 h2 g1 g2 e
      rw [hmore] at hb
      have hlt : before.length < L.length := by
        rcases Nat.lt_or_ge before.length L.length with h | h
        · exact h
        · exfalso
          have : (L ++ if relativePattern roots last = [] then [[]] else [])[before.length]? = some line := by rw [hb]; simp
          rw [List.getElem?_append_right h] at this
          split at this
          · cases hz : before.length - L.length with
            | zero =>
              rw [hz] at this
              cases this
              exact not_finding_nil check hf
            | succ n => rw [hz] at this; cases this
          · cases this
      have hline : L[before.length]? = some line := by
        have : (L ++ if relativePattern roots last = [] then [[]] else [])[before.length]? = some line := by rw [hb]; simp
        rwa [List.getElem?_append_left hlt] at this
      have htake : L.take (before.length + 1) = before ++ [line] := by
        have := congrArg (List.take (before.length + 1)) hb
        rw [List.take_append_of_le_length (by omega)] at this
        rw [this]
        exact (take_line before line after)
      refine ⟨line, List.mem_map.2 ⟨before.length, ?_, by rw [hline]; rfl⟩, check, hf⟩
      rw [List.mem_filter, List.mem_range, decide_eq_true_eq, htake]
      exact ⟨hlt, hs⟩
  · intro l hl
    obtain ⟨i, hi, rfl⟩ := List.mem_map.1 hl
    rw [List.mem_filter, List.mem_range] at hi
    rw [List.getElem?_eq_getElem hi.1]
    exact hLn _ (List.getElem_mem hi.1)

/-- A finding line about the file itself, in any directory and anywhere in the output, is reported. -/
theorem C89_own (roots : List Bytes) (file : Bytes) (lines after : List Bytes) (last : Bytes) (dir row column message check : Bytes)
    (hl : ∀ l ∈ lines, (0x0a : UInt8) ∉ l) (ha : ∀ l ∈ after, (0x0a : UInt8) ∉ l) (h' : (0x0a : UInt8) ∉ last)
    (hd : Directory dir) (n : file ≠ []) (hn : (0x2f : UInt8) ∉ file) (hone : OneLine file)
    (hr : Number row) (hc : Number column) (hm : OneLine message) (hk : CheckName check)
    (hs : (0x2f : UInt8) ∉ message) (hdc : ∀ a d b, 0x30 ≤ d.toNat → d.toNat ≤ 0x39 → message ≠ a ++ [d, 0x3a] ++ b) :
    Reported roots file (textOf (lines ++ (dir ++ file ++ (bytes!":" ++ row ++ bytes!":" ++ column ++ bytes!":" ++ message ++ check)) :: after) last) := by
  obtain ⟨dir', e, hsuf, hab⟩ := C88_about_pattern roots dir file row column message check hd n hn hr hc hm hk hs hdc
  have numNl : ∀ {w}, Number w → OneLine w := fun hw c hc => by
    have := hw.2 c hc
    constructor <;> intro e <;> rw [e] at this <;> revert this <;> decide
  have dirNl : OneLine dir := by
    rcases hd with rfl | ⟨x, hx, rfl⟩
    · intro c hc; cases hc
    · intro c hc
      rcases List.mem_append.1 hc with hc | hc
      · exact hx c hc
      · rw [List.mem_singleton.1 hc]; decide
  have dirNl' : OneLine dir' := fun c hc => dirNl c (hsuf.subset hc)
  have pre : ∀ {d : Bytes}, OneLine d → OneLine (d ++ file ++ (bytes!":" ++ row ++ bytes!":" ++ column ++ bytes!":" ++ message)) := by
    intro d hd c hc'
    simp only [List.mem_append, List.mem_singleton] at hc'
    rcases hc' with (h | h) | ((((h | h) | h) | h) | h) | h
    · exact hd c h
    · exact hone c h
    · rw [h]; decide
    · exact numNl hr c h
    · rw [h]; decide
    · exact numNl hc c h
    · rw [h]; decide
    · exact hm c h
  have hf : ∀ {d : Bytes}, OneLine d → Finding (d ++ file ++ (bytes!":" ++ row ++ bytes!":" ++ column ++ bytes!":" ++ message ++ check)) check := fun hd =>
    ⟨_, pre hd, hk, by simp⟩
  refine ⟨_, last, ?_, h', rfl, lines.map (relativePattern roots),
    relativePattern roots (dir ++ file ++ (bytes!":" ++ row ++ bytes!":" ++ column ++ bytes!":" ++ message ++ check)), (after ++ [last]).map (relativePattern roots), ?_, ?_, check, ?_⟩
  · intro l hl'
    rcases List.mem_append.1 hl' with hl' | hl'
    · exact hl l hl'
    · rcases List.mem_cons.1 hl' with rfl | hl'
      · exact fun hm => ((hf dirNl).oneLine _ hm).1 rfl
      · exact ha l hl'
  · rw [List.append_assoc, List.map_append, List.cons_append, List.map_cons]
  · exact (C87_line file file _ _ hab).2 rfl
  · rw [e]
    exact hf dirNl'

/-- Without a line that ends in the name of a check nothing is reported. -/
theorem C89_silent (roots : List Bytes) (file : Bytes) (lines : List Bytes) (last : Bytes) (hl : ∀ l ∈ lines, (0x0a : UInt8) ∉ l) (h' : (0x0a : UInt8) ∉ last)
    (hno : ∀ l ∈ lines ++ [last], ∀ pre check, CheckName check → l ≠ pre ++ check) : ¬ Reported roots file (textOf lines last) := by
  rintro ⟨lines', last', g1, g2, e, before, line, after, hb, _, check, pre, _, hk, hf⟩
  obtain ⟨rfl, rfl⟩ := textOf_inj hl h' g1 g2 e
  have hm : line ∈ (lines ++ [last]).map (relativePattern roots) := by rw [hb]; simp
  obtain ⟨l, hl1, hl2⟩ := List.mem_map.1 hm
  obtain ⟨k, hk2, _⟩ := relativePattern_drop roots l
  refine hno l hl1 (l.take k ++ pre) check hk ?_
  rw [List.append_assoc, ← hf, ← hl2, hk2, List.take_append_drop]

/-- A run of the script from an empty cache, with any number of workers under any schedule, in which no command is interrupted: there is one complete output of
the tool for every file of the tree such that the status is 1 if one of these outputs has a finding kept for its file, and 0 if none has. -/
theorem C89_main (T : Tool) (roots : List Bytes) (hT : T.repair = repairText roots) (hr : ∀ p ∈ roots, PlainPath p)
    (hash : Bytes → BitVec 64) (tree : List (Bytes × Option Bytes)) (pid jobs : Nat) (d' : Dir) (status : Nat) (hj : 0 < jobs)
    (hn : ((filesOfInterest hash tree).map pathFor).Nodup) (hno : ∀ w ∈ filesOfInterest hash tree, ∀ out, ¬ T.prints w out true)
    (h : MainRun T hash tree pid jobs ⟨fun _ => none, fun _ => [], 0⟩ d' status) :
    ∃ out : Item → Bytes, (∀ f ∈ filesOfInterest hash tree, T.prints f (out f) false) ∧ (status = 0 ∨ status = 1) ∧
      (status = 1 ↔ ∃ f ∈ filesOfInterest hash tree, Reported roots (filename f.path) (out f)) := by
  have hlist : buildWorkList hash ⟨fun _ => none, fun _ => [], 0⟩ tree = filesOfInterest hash tree := by
    unfold buildWorkList
    rw [List.filter_eq_self]
    intro a _
    rfl
  obtain ⟨text, h1, h2, h3⟩ := C86_main T hash tree pid jobs _ d' status ⟨by simp, by simp⟩ hj (by rw [hlist]; exact hn) (by rw [hlist]; exact hno) h
  have hout : ∀ f, ∃ out, f ∈ filesOfInterest hash tree → T.prints f out false ∧ text f = repairText roots (filename f.path) out := by
    intro f
    by_cases hf : f ∈ filesOfInterest hash tree
    · rcases h1 f hf with hx | ⟨_, out, ho, ht⟩
      · cases hx
      · exact ⟨out, fun _ => ⟨ho, by rw [ht, hT]⟩⟩
    · exact ⟨[], fun h => absurd h hf⟩
  obtain ⟨out, hout⟩ := Classical.axiomOfChoice hout
  refine ⟨out, fun f hf => (hout f hf).1, h2, ?_⟩
  have : status = 1 ↔ ¬ status = 0 := by omega
  rw [this, h3]
  constructor
  · intro h
    obtain ⟨f, h⟩ := Classical.not_forall.1 h
    obtain ⟨hf, h⟩ := Classical.not_imp.1 h
    have h := Classical.not_not.1 h
    rw [(hout f hf).2, C89_stored roots hr] at h
    exact ⟨f, hf, h⟩
  · rintro ⟨f, hf, h⟩ hall
    refine hall f hf ?_
    rw [(hout f hf).2, C89_stored roots hr]
    exact h

/-! ## Non-vacuity -/

/-- The finding of `sampleFinding` in an absolute path, between other lines. -/
example : Reported [bytes!"/b"] bytes!"a.cc"
    (textOf ([bytes!"x"] ++ (bytes!"/b/" ++ bytes!"a.cc" ++ (bytes!":" ++ bytes!"1" ++ bytes!":" ++ bytes!"2" ++ bytes!":" ++ bytes!" x" ++ sampleCheck)) :: [bytes!"y"]) []) :=
  C89_own _ _ [bytes!"x"] [bytes!"y"] [] bytes!"/b/" bytes!"1" bytes!"2" bytes!" x" sampleCheck (by decide) (by decide) (by decide)
    (Or.inr ⟨bytes!"/b", by unfold OneLine; decide, rfl⟩) (by decide) (by decide) (by unfold OneLine; decide) ⟨by decide, by decide⟩ ⟨by decide, by decide⟩
    (by unfold OneLine; decide) ⟨bytes!"bugprone", bytes!"y", by decide, by decide, by unfold Letter; decide, by unfold Letter; decide, rfl⟩ (by decide)
    (by
      intro a d b h1 h2 e
      have h : ∀ c ∈ (bytes!" x" : Bytes), ¬ (0x30 ≤ c.toNat ∧ c.toNat ≤ 0x39) := by decide
      exact h d (by rw [e]; simp) ⟨h1, h2⟩)

/-- A tool as `C89_main` wants it, with a run from the empty cache. -/
example : ∃ (T : Tool) (d' : Dir) (status : Nat), T.repair = repairText [bytes!"/b"] ∧ (∀ w out, ¬ T.prints w out true) ∧
    MainRun T (fun c => BitVec.ofNat 64 c.length) [(bytes!"m.cc", some sampleSource)] 7 1 ⟨fun _ => none, fun _ => [], 0⟩ d' status := by
  let T : Tool := ⟨fun _ out i => out = sampleFinding ++ [0x0a] ∧ i = false, repairText [bytes!"/b"]⟩
  refine ⟨T, ?_⟩
  have hl : buildWorkList (fun c => BitVec.ofNat 64 c.length) ⟨fun _ => none, fun _ => [], 0⟩ [(bytes!"m.cc", some sampleSource)] ≠ [] := by decide +kernel
  obtain ⟨l, s, p, hr, hp, ha, hs⟩ := C83_finishes T (fun _ => ⟨_, false, rfl, rfl⟩)
    (s0 := ⟨⟨fun _ => none, fun _ => [], 0⟩, [⟨7, buildWorkList (fun c => BitVec.ofNat 64 c.length) ⟨fun _ => none, fun _ => [], 0⟩ [(bytes!"m.cc", some sampleSource)], List.replicate 1 .idle, true⟩]⟩) _
    ⟨⟨by simp, by simp⟩, by simp, by simp, by simp, by simp; decide +kernel⟩ [] .refl 0 _ rfl rfl
  have hlen := (Inv.run (T := T) ⟨⟨by simp, by simp⟩, by simp, by simp, by simp, by simp; decide +kernel⟩ hr).len
  have hps : s.procs = [p] := by
    match hq : s.procs with
    | [] => rw [hq] at hp; cases hp
    | [q] => rw [hq] at hp; cases hp; rfl
    | _ :: _ :: _ => rw [hq] at hlen; simp at hlen
  exact ⟨_, _, rfl, fun w out h => (by cases h.2), MainRun.work hl hr hps ha hs⟩

end Verif.Props
