import Verif.Spec.Tidy.Session
import Verif.Model.Tidy.Session
import Verif.Props.C84
import Verif.Props.C126
/-! # C127: what the lint script says -/
namespace Verif.Props
open Verif.Tidy Verif.Spec.Tidy

theorem quoted_escaped (p : Bytes) : ∃ t, Escaped p t ∧ quoted p = [0x22] ++ t ++ [0x22] := by
  refine ⟨_, ?_, rfl⟩
  induction p with
  | nil => exact .done
  | cons c p ih =>
    rw [List.flatMap_cons]
    by_cases hc : c = 0x22 ∨ c = 0x5c
    · rw [if_pos hc]; exact .marked hc ih
    · rw [if_neg hc]; exact .plain (fun h => hc (Or.inl h)) (fun h => hc (Or.inr h)) ih

/-- The path can be read back from what is shown. -/
theorem C127_quotes (p p' t : Bytes) (h : Escaped p t) (h' : Escaped p' t) : p = p' := by
  induction h generalizing p' with
  | done => cases h'; rfl
  | plain h1 h2 _ ih =>
    cases h' with
    | plain _ _ h => rw [ih _ h]
    | marked h3 h => exact absurd rfl h2
  | marked h1 _ ih =>
    cases h' with
    | plain h2 h3 h => exact absurd rfl h3
    | marked h3 h => rw [ih _ h]

theorem refusal_spec (h : Host) (hr : Refuses h) : Refusal h (refusalText h) := by
  have e1 : fTidy = ascii ".clang-tidy" := by decide
  have e2 : fCommands = ascii "compile_commands.json" := by decide
  have e3 : fFlags = ascii "compile_flags.txt" := by decide
  have e4 : h.config = configPath h := rfl
  have e5 : h.envWithFallback vTool fTool = toolName h := rfl
  have e6 : h.output (toolName h ++ bytes!" --version") = versionText h := rfl
  unfold refusalText
  rw [e1, e2, e3, e4, e5, e6]
  by_cases h1 : h.present (configPath h) = false
  · rw [if_pos h1]
    exact .config h1
  have h1' : h.present (configPath h) = true := by simpa using h1
  rw [if_neg h1]
  by_cases h2 : h.written (ascii ".clang-tidy") = none
  · rw [if_pos h2]
    exact .place h1' h2
  rw [if_neg h2]
  by_cases h3 : ((h.written (ascii "compile_commands.json")).orElse fun _ => h.written (ascii "compile_flags.txt")) = none
  · rw [if_pos h3]
    have h4 : h.written (ascii "compile_commands.json") = none ∧ h.written (ascii "compile_flags.txt") = none := by
      cases hx : h.written (ascii "compile_commands.json") with
      | none => rw [hx] at h3; exact ⟨rfl, h3⟩
      | some v => rw [hx] at h3; cases h3
    have e7 : bytes!"No compilation db compile_commands.json or compile_flags.txt found; create that first. For cmake projects, often simply\n\tln -s build/compile_commands.json .\n" =
        ascii "No compilation db compile_commands.json or compile_flags.txt found; create that first. For cmake projects, often simply\n" ++
          ascii "\tln -s build/compile_commands.json .\n" := by decide +kernel
    rw [e7]
    exact .compdb h1' h2 h4.1 h4.2
  rw [if_neg h3]
  have h4 : ¬ (h.written (ascii "compile_commands.json") = none ∧ h.written (ascii "compile_flags.txt") = none) := by
    rintro ⟨a, b⟩
    rw [a, b] at h3
    exact h3 rfl
  have h5 : versionText h = [] := by
    rcases hr with h | h | h | h
    · exact absurd h h1
    · exact absurd h h2
    · exact absurd h h4
    · exact h
  rw [if_pos h5]
  exact .tool h1' h2 h4 h5

/-- There is one text for each refusal, and none for a script that starts. -/
theorem C127_one_reason (h : Host) : (Refuses h ↔ ∃ m, Refusal h m) ∧ ∀ m m', Refusal h m → Refusal h m' → m = m' := by
  constructor
  · constructor
    · exact fun hr => ⟨_, refusal_spec h hr⟩
    · rintro ⟨m, hm⟩
      cases hm with
      | config h1 => exact Or.inl h1
      | place _ h2 => exact Or.inr (Or.inl h2)
      | compdb _ _ h3 h4 => exact Or.inr (Or.inr (Or.inl ⟨h3, h4⟩))
      | tool _ _ _ h4 => exact Or.inr (Or.inr (Or.inr h4))
  · intro m m' hm hm'
    cases hm with
    | config h1 =>
      cases hm' with
      | config _ => rfl
      | place h2 _ => rw [h1] at h2; cases h2
      | compdb h2 _ _ _ => rw [h1] at h2; cases h2
      | tool h2 _ _ _ => rw [h1] at h2; cases h2
    | place h1 h2 =>
      cases hm' with
      | config h3 => rw [h1] at h3; cases h3
      | place _ _ => rfl
      | compdb _ h3 _ _ => exact absurd h2 h3
      | tool _ h3 _ _ => exact absurd h2 h3
    | compdb h1 h2 h3 h4 =>
      cases hm' with
      | config h5 => rw [h1] at h5; cases h5
      | place _ h5 => exact absurd h5 h2
      | compdb _ _ _ _ => rfl
      | tool _ _ h5 _ => exact absurd ⟨h3, h4⟩ h5
    | tool h1 h2 h3 h4 =>
      cases hm' with
      | config h5 => rw [h1] at h5; cases h5
      | place _ h5 => exact absurd h5 h2
      | compdb _ _ h5 h6 => exact absurd ⟨h5, h6⟩ h3
      | tool _ _ _ _ => rfl

theorem pathFor_no_slash (w : Item) : (pathFor w).head? ≠ some 0x2f := by
  unfold pathFor
  cases hf : filename w.path with
  | nil => simp [show (bytes!"-" : Bytes) = [0x2d] from rfl]
  | cons c cs =>
    have h := filename_no_slash w.path
    rw [hf] at h
    intro he
    simp at he
    exact h (by simp [he])

/-- The lines about results that cannot be read: one for each, with the path and the reason. -/
theorem C127_misses (why dir : Bytes) (d : Dir) (files : List Item) :
    Misses why dir (fun n => (d.read n).isSome) files (missingLines why (contentsOf dir) d files) := by
  induction files with
  | nil => exact .done
  | cons w ws ih =>
    have e : missingLines why (contentsOf dir) d (w :: ws) =
        (if (d.read (pathFor w)).isSome then [] else cantOpen why (contentsOf dir) w) ++ missingLines why (contentsOf dir) d ws := List.flatMap_cons
    rw [e]
    cases hc : (d.read (pathFor w)).isSome with
    | true => exact .found hc ih
    | false =>
      have e2 : cantOpen why (contentsOf dir) w = under (under dir (ascii "contents")) (pathFor w) ++ ascii ": can't open: " ++ why ++ ascii "\n" := by
        unfold cantOpen contentsOf
        rw [join_under dir _ (by decide), join_under _ (pathFor w) (pathFor_no_slash w)]
        rfl
      rw [if_neg (by simp), e2]
      exact .missing hc ih

section
variable {hash : Bytes → BitVec 64} {h : Host} {argv : List Bytes} {T : Setup → Tool} {tree : List (Bytes × Option Bytes)} {pid : Nat} {terminal : Bool} {why : Bytes}
  {caches caches' : Bytes → Dir} {k k' : Disk} {out err : Bytes} {status : Nat}
  (hs : Session hash h argv T tree pid terminal why caches k caches' k' out err status)
include hs

/-- A script that does not start says why, on standard error, and leaves everything as it is. -/
theorem C127_refused (hr : Refuses h) : caches' = caches ∧ k' = k ∧ out = [] ∧ status = 1 ∧ Refusal h err := by
  have hn := (C94_refuses hash h argv).2 hr
  cases hs with
  | refused _ => exact ⟨rfl, rfl, rfl, rfl, refusal_spec h hr⟩
  | nothing h1 => rw [hn] at h1; cases h1
  | work h1 => rw [hn] at h1; cases h1

/-- With the texts forgotten, it is the script of C94. -/
theorem C127_script : Script hash h argv T tree pid caches caches' status := by
  have st : ∀ {dir cwd : Bytes} {d : Dir} {files : List Item} {a b : Bytes} {r : ReportEnd}, createReport hash dir cwd d files a b k = some r →
      (if r.count = 0 then 0 else 1) = exitStatus d files := by
    intro dir cwd d files a b r hr
    have : r.count = (tally d files).checks.length := by
      unfold createReport at hr
      dsimp only at hr
      split at hr
      · cases hr
      · cases hr; rfl
    unfold exitStatus
    rw [this]
  cases hs with
  | refused h1 => exact .refused h1
  | @nothing s r h1 hw hr =>
    rw [st hr]
    have e : caches = fun dir => if dir = s.dir then caches s.dir else caches dir := by
      funext dir
      by_cases hd : dir = s.dir
      · rw [if_pos hd, hd]
      · rw [if_neg hd]
    have := Script.ran (hash := hash) (h := h) (argv := argv) (T := T) (tree := tree) (pid := pid) (caches := caches) (jobs := 0) h1 (fun hn => absurd hw hn)
      (.nothing hw)
    rw [← e] at this
    exact this
  | @work s r jobs x t p h1 hw hj ht hp ha hd hr =>
    rw [st hr]
    obtain ⟨l, hl⟩ := (C126_every _ _ _ _).1 ⟨x, ht⟩
    exact .ran h1 (fun _ => hj) (.work hw hl hp ha hd)

/-- A script that starts says where its cache is, how many files it looks at, what there is to do (nothing, if there is nothing), which entries of the cache it misses, and how it
went.  The status, the last message and standard output agree: 0, "No clang-tidy complaints" and nothing, or 1, where the reports are, and the summary. -/
theorem C127_says (hr : ¬ Refuses h) : ∃ s place files jobs x head, h.startup hash argv = some s ∧ Escaped s.dir place ∧
    PlainNumber files (filesOfInterest hash tree).length ∧ Verdict s.detailsLink s.summaryLink (decide (status = 0)) head ∧ (out = [] ↔ status = 0) ∧
    ∃ missed, Misses why s.dir (fun n => ((caches' s.dir).read n).isSome) (filesOfInterest hash tree) missed ∧
    err = ascii "Cache dir \"" ++ place ++ ascii "\"\n" ++ (files ++ ascii " files of interest.\n") ++ workText terminal (buildWorkList hash (caches s.dir) tree) jobs x ++
      missed ++ head := by
  have rep : ∀ {dir cwd : Bytes} {d : Dir} {files : List Item} {a b : Bytes} {r : ReportEnd}, createReport hash dir cwd d files a b k = some r →
      Verdict a b (decide ((if r.count = 0 then 0 else 1) = 0)) r.err ∧ (r.out = [] ↔ (if r.count = 0 then 0 else 1) = 0) := by
    intro dir cwd d files a b r hr
    obtain ⟨h1, h2⟩ := C112_headline hash dir cwd d files a b k r hr
    have hout : r.out = summaryText (tally d files).checks ∧ r.count = (tally d files).checks.length := by
      unfold createReport at hr
      dsimp only at hr
      split at hr
      · cases hr
      · cases hr; exact ⟨rfl, rfl⟩
    by_cases hc : exitStatus d files = 0
    · obtain ⟨h3, h4, h5⟩ := h1 hc
      rw [if_pos h3, h5, h4]
      exact ⟨.clean, by simp⟩
    · obtain ⟨h3, h4⟩ := h2 hc
      rw [if_neg (by omega), h4]
      refine ⟨.findings, ⟨fun h => ?_, fun h => by simp at h⟩⟩
      exfalso
      have hlen : (byCount (tally d files).checks).length ≠ 0 := by
        unfold byCount
        rw [List.length_mergeSort]
        omega
      rw [hout.1] at h
      unfold summaryText at h
      cases hb : byCount (tally d files).checks with
      | nil => rw [hb] at hlen; exact hlen rfl
      | cons e l => rw [hb] at h; simp at h
  have cache : ∀ dir, ∃ place, Escaped dir place ∧ cacheLine dir = ascii "Cache dir \"" ++ place ++ ascii "\"\n" := by
    intro dir
    obtain ⟨t, h1, h2⟩ := quoted_escaped dir
    refine ⟨t, h1, ?_⟩
    have e1 : ascii "Cache dir \"" = bytes!"Cache dir " ++ [0x22] := by decide
    have e2 : ascii "\"\n" = [0x22, 0x0a] := by decide
    unfold cacheLine
    rw [h2, e1, e2]
    simp
  cases hs with
  | refused h1 => exact absurd ((C94_refuses hash h argv).1 h1) hr
  | @nothing s r h1 hw hrep =>
    obtain ⟨place, h2, h3⟩ := cache s.dir
    obtain ⟨h4, h5⟩ := rep hrep
    refine ⟨s, place, _, 0, [], r.err, h1, h2, decimal_numeral _, h4, h5, _, C127_misses why s.dir (caches s.dir) (filesOfInterest hash tree), ?_⟩
    rw [hw, h3, (C126_file [] 0 []).1 rfl terminal, List.append_nil]
    rfl
  | @work s r jobs x t p h1 hw hj ht hp ha hd hrep =>
    obtain ⟨place, h2, h3⟩ := cache s.dir
    obtain ⟨h4, h5⟩ := rep hrep
    refine ⟨s, place, _, jobs, x, r.err, h1, h2, decimal_numeral _, h4, h5, missingLines why (contentsOf s.dir) t.dir (filesOfInterest hash tree), ?_, ?_⟩
    · dsimp only
      rw [if_pos rfl]
      exact C127_misses why s.dir t.dir (filesOfInterest hash tree)
    · rw [h3]
      rfl

/-- A script that starts leaves the reports: the links lead to the report files, the details file has the path and the text of every file of interest with a text in the cache, the
summary file has what was printed, one line for each check, and nothing else outside of the cache has changed. -/
theorem C127_files (s : Setup) (hst : h.startup hash argv = some s)
    (hf : Free k (reportFiles hash s.dir h.cwd).1 ∧ Free k (reportFiles hash s.dir h.cwd).2)
    (hl : k s.detailsLink ≠ some .fullDir ∧ k s.summaryLink ≠ some .fullDir) :
    k' s.detailsLink = some (.link (reportFiles hash s.dir h.cwd).1) ∧ k' s.summaryLink = some (.link (reportFiles hash s.dir h.cwd).2) ∧
    (∃ content, k' (reportFiles hash s.dir h.cwd).1 = some (.file content) ∧
      Details (fun f => ((caches' s.dir).read (pathFor f)).getD []) (filesOfInterest hash tree) content) ∧
    k' (reportFiles hash s.dir h.cwd).2 = some (.file out) ∧ Summary (byCount (tally (caches' s.dir) (filesOfInterest hash tree)).checks) out ∧
    (∀ name, name ≠ s.detailsLink → name ≠ s.summaryLink → name ≠ (reportFiles hash s.dir h.cwd).1 → name ≠ (reportFiles hash s.dir h.cwd).2 → k' name = k name) := by
  have rep : ∀ (d : Dir) (r : ReportEnd), createReport hash s.dir h.cwd d (filesOfInterest hash tree) s.detailsLink s.summaryLink k = some r →
      r.disk s.detailsLink = some (.link (reportFiles hash s.dir h.cwd).1) ∧ r.disk s.summaryLink = some (.link (reportFiles hash s.dir h.cwd).2) ∧
      (∃ content, r.disk (reportFiles hash s.dir h.cwd).1 = some (.file content) ∧ Details (fun f => (d.read (pathFor f)).getD []) (filesOfInterest hash tree) content) ∧
      r.disk (reportFiles hash s.dir h.cwd).2 = some (.file r.out) ∧ Summary (byCount (tally d (filesOfInterest hash tree)).checks) r.out ∧
      (∀ name, name ≠ s.detailsLink → name ≠ s.summaryLink → name ≠ (reportFiles hash s.dir h.cwd).1 → name ≠ (reportFiles hash s.dir h.cwd).2 → r.disk name = k name) := by
    intro d r hr
    obtain ⟨r', h1, h2⟩ := C112_report hash s.dir h.cwd d (filesOfInterest hash tree) s.detailsLink s.summaryLink k (C112_apart _ _ _ s hst) hf hl
    rw [hr] at h1
    cases h1
    exact h2
  cases hs with
  | refused h1 => rw [h1] at hst; cases hst
  | nothing h1 hw hr =>
    rw [hst] at h1
    cases h1
    exact rep _ _ hr
  | work h1 hw hj ht hp ha hd hr =>
    rw [hst] at h1
    cases h1
    dsimp only
    rw [if_pos rfl]
    exact rep _ _ hr

end

/-- If the tool is never interrupted, no two files to do share a place in the store, and there are workers, then no entry is missing at the end. -/
theorem C127_nothing_missing {hash : Bytes → BitVec 64} {h : Host} {argv : List Bytes} {T : Setup → Tool} {tree : List (Bytes × Option Bytes)} {pid : Nat} {terminal : Bool}
    {why : Bytes} {caches caches' : Bytes → Dir} {k k' : Disk} {out err : Bytes} {status : Nat}
    (hs : Session hash h argv T tree pid terminal why caches k caches' k' out err status) (s : Setup) (hst : h.startup hash argv = some s)
    (hsound : Sound (caches s.dir)) (hn : ((buildWorkList hash (caches s.dir) tree).map pathFor).Nodup) (hjobs : ∀ jobs, h.jobs = some jobs → 0 < jobs)
    (hno : ∀ w out, ¬ (T s).prints w out true) : missingLines why (contentsOf s.dir) (caches' s.dir) (filesOfInterest hash tree) = [] := by
  have there : ∀ (d : Dir) (w : Item), needsRefresh d w = false → (d.read (pathFor w)).isSome := by
    intro d w hw
    unfold needsRefresh at hw
    unfold Dir.read
    cases hx : d.names (pathFor w) with
    | none => rw [hx] at hw; cases hw
    | some i => rfl
  suffices hall : ∀ w ∈ filesOfInterest hash tree, ((caches' s.dir).read (pathFor w)).isSome by
    unfold missingLines
    rw [List.flatMap_eq_nil_iff]
    intro w hw
    rw [if_pos (hall w hw)]
  have mem : ∀ w ∈ filesOfInterest hash tree, w ∈ buildWorkList hash (caches s.dir) tree ∨ needsRefresh (caches s.dir) w = false := by
    intro w hw
    cases hx : needsRefresh (caches s.dir) w with
    | true => exact Or.inl (List.mem_filter.2 ⟨hw, hx⟩)
    | false => exact Or.inr rfl
  intro w hw
  cases hs with
  | refused h1 => rw [h1] at hst; cases hst
  | @nothing s' r h1 hw' hr =>
    rw [hst] at h1
    cases h1
    rcases mem w hw with h2 | h2
    · rw [hw'] at h2; cases h2
    · exact there _ _ h2
  | @work s' r jobs x t p h1 hw' hj ht hp ha hd hr =>
    rw [hst] at h1
    cases h1
    dsimp only
    rw [if_pos rfl]
    obtain ⟨l, hl⟩ := (C126_every _ _ _ _).1 ⟨x, ht⟩
    have h0 : Starts ⟨caches s.dir, [⟨pid, buildWorkList hash (caches s.dir) tree, List.replicate jobs .idle, true⟩]⟩ := by
      refine ⟨hsound, ?_, ?_, by simp, ?_⟩
      · intro q hq; rw [List.mem_singleton.1 hq]
      · intro q hq ph hph
        rw [List.mem_singleton.1 hq] at hph
        exact (List.mem_replicate.1 hph).2
      · intro q hq; rw [List.mem_singleton.1 hq]; exact hn
    rcases mem w hw with h2 | h2
    · have h3 := (C83_result (T s) _ t h0 l hl 0 _ p rfl (by rw [hp]; rfl) (by have := hjobs jobs hj; cases jobs with | zero => omega | succ n => simp [List.replicate]) hd
        (fun w _ out => hno w out)).2 w h2
      obtain ⟨text, h4, _⟩ := h3.1
      rw [h4]; rfl
    · exact C84_kept_partial (T s) _ t h0 l hl _ (C84_names w w 0 0).1 (there _ _ h2)

/-- A whole session: it starts, there is one file to do, nothing is missing. -/
example : ∃ caches' k' out err status, Session (fun t => BitVec.ofNat 64 t.length) sampleHost [] (fun _ => sampleTool) [(bytes!"m.cc", some sampleSource)] 7 true bytes!"?"
    (fun _ => ⟨fun _ => none, fun _ => [], 0⟩) (fun _ => none) caches' k' out err status ∧ ¬ Refuses sampleHost ∧
    buildWorkList (fun t => BitVec.ofNat 64 t.length) ⟨fun _ => none, fun _ => [], 0⟩ [(bytes!"m.cc", some sampleSource)] ≠ [] := by
  have hr : ¬ Refuses sampleHost := by unfold Refuses; decide
  obtain ⟨s, hs⟩ : ∃ s, sampleHost.startup (fun t => BitVec.ofNat 64 t.length) [] = some s := by
    cases e : sampleHost.startup (fun t => BitVec.ofNat 64 t.length) [] with
    | none => exact absurd ((C94_refuses _ _ _).1 e) hr
    | some s => exact ⟨s, rfl⟩
  have hw : buildWorkList (fun t => BitVec.ofNat 64 t.length) ⟨fun _ => none, fun _ => [], 0⟩ [(bytes!"m.cc", some sampleSource)] ≠ [] := by decide +kernel
  obtain ⟨l, t, p, hrun, hp, ha, hd⟩ := C83_finishes sampleTool (fun _ => ⟨_, _, rfl, rfl⟩)
    ⟨⟨fun _ => none, fun _ => [], 0⟩, [⟨7, buildWorkList (fun t => BitVec.ofNat 64 t.length) ⟨fun _ => none, fun _ => [], 0⟩ [(bytes!"m.cc", some sampleSource)],
      List.replicate 2 .idle, true⟩]⟩ _ ⟨⟨by simp, by simp⟩, by simp, by simp, by simp, by simp; decide +kernel⟩ [] .refl 0 _ rfl rfl
  have hp1 : t.procs = [p] := by
    have hlen := (Inv.run (T := sampleTool) ⟨⟨by simp, by simp⟩, by simp, by simp, by simp, by simp; decide +kernel⟩ hrun).len
    match ht : t.procs, hlen with
    | [q], _ => rw [ht] at hp; simp at hp; rw [hp]
  obtain ⟨x, hx⟩ := (C126_every sampleTool 0 _ t).2 ⟨l, hrun⟩
  obtain ⟨r, hrep, _⟩ := C112_report (fun t => BitVec.ofNat 64 t.length) s.dir sampleHost.cwd t.dir
    (filesOfInterest (fun t => BitVec.ofNat 64 t.length) [(bytes!"m.cc", some sampleSource)]) s.detailsLink s.summaryLink (fun _ => none) (C112_apart _ _ _ s hs)
    ⟨Or.inl rfl, Or.inl rfl⟩ ⟨by simp, by simp⟩
  exact ⟨_, _, _, _, _, .work hs hw (jobs := 2) (by decide +kernel) hx hp1 ha hd hrep, hr, hw⟩

end Verif.Props
