import Verif.Props.C86
import Verif.Props.C94
import Verif.Spec.Tidy.ReportFiles
/-! # C112: the report files of the lint script -/
namespace Verif.Props
open Verif.Tidy Verif.Spec.Tidy
open Verif.Spec (Decimal)

theorem details_spec (d : Dir) (files : List Item) : Details (contentFor d) files (details d files) := by
  induction files with
  | nil => exact .done
  | cons f files ih =>
    have e : details d (f :: files) = (if contentFor d f = [] then [] else f.path ++ bytes!":\n" ++ contentFor d f) ++ details d files := rfl
    rw [e]
    split
    · rename_i h
      exact .quiet h ih
    · rename_i h
      exact .about h ih

theorem details_unique {text : Item → Bytes} {files : List Item} {a b : Bytes} (ha : Details text files a) (hb : Details text files b) : a = b := by
  induction ha generalizing b with
  | done => cases hb; rfl
  | quiet h _ ih =>
    cases hb with
    | quiet _ hb => exact ih hb
    | about h' _ => exact absurd h h'
  | about h _ ih =>
    cases hb with
    | quiet h' _ => exact absurd h' h
    | about _ hb => rw [ih hb]

private theorem digit_range {n : Nat} (h : n < 10) : 0x30 ≤ UInt8.ofNat (0x30 + n) ∧ UInt8.ofNat (0x30 + n) ≤ 0x39 ∧ (UInt8.ofNat (0x30 + n)).toNat - 0x30 = n ∧
    (UInt8.ofNat (0x30 + n) = 0x30 → n = 0) := by
  have : ∀ i : Fin 10, 0x30 ≤ UInt8.ofNat (0x30 + i.1) ∧ UInt8.ofNat (0x30 + i.1) ≤ 0x39 ∧ (UInt8.ofNat (0x30 + i.1)).toNat - 0x30 = i.1 ∧
    (UInt8.ofNat (0x30 + i.1) = 0x30 → i.1 = 0) := by decide +kernel
  exact this ⟨n, h⟩

private theorem decimalAux_append (f n : Nat) (acc : Bytes) : decimalAux f n acc = decimalAux f n [] ++ acc := by
  induction f generalizing n acc with
  | zero => rfl
  | succ f ih =>
    rw [decimalAux, decimalAux]
    split
    · rfl
    · rw [ih, ih _ [_]]
      simp

private theorem decimalAux_spec (f n : Nat) (h : n < f) : Decimal (decimalAux f n []) n ∧ ((decimalAux f n []).head? = some 0x30 → n = 0 ∧ decimalAux f n [] = [0x30]) := by
  induction f generalizing n with
  | zero => omega
  | succ f ih =>
    obtain ⟨a, b, c, z⟩ := digit_range (Nat.mod_lt n (by decide : 0 < 10))
    rw [decimalAux]
    split
    · rename_i h0
      have hn : n % 10 = n := Nat.mod_eq_of_lt (by omega)
      refine ⟨⟨by simp, ?_, ?_⟩, ?_⟩
      · intro x hx
        rw [List.mem_singleton.1 hx]; exact ⟨a, b⟩
      · simp only [List.foldl_cons, List.foldl_nil, c]; omega
      · intro hx
        have e : UInt8.ofNat (0x30 + n % 10) = 0x30 := by simpa using hx
        have := z e
        exact ⟨by omega, by rw [e]⟩
    · rename_i h0
      rw [decimalAux_append]
      obtain ⟨⟨h1, h2, h3⟩, h4⟩ := ih (n / 10) (by omega)
      refine ⟨⟨by simp, ?_, ?_⟩, ?_⟩
      · intro x hx
        rcases List.mem_append.1 hx with hx | hx
        · exact h2 x hx
        · rw [List.mem_singleton.1 hx]; exact ⟨a, b⟩
      · rw [List.foldl_append]
        rw [h3]
        simp only [List.foldl_cons, List.foldl_nil, c]; omega
      · intro hx
        have hh : (decimalAux f (n / 10) []).head? = some 0x30 := by
          cases hl : decimalAux f (n / 10) [] with
          | nil => exact absurd hl h1
          | cons x l => rw [hl] at hx; simpa using hx
        exact absurd (h4 hh).1 h0

theorem decimal_numeral (n : Nat) : PlainNumber (Verif.Tidy.decimal n) n :=
  ⟨(decimalAux_spec _ n (Nat.lt_succ_self n)).1, fun h => ((decimalAux_spec _ n (Nat.lt_succ_self n)).2 h).2⟩

private theorem summary_lines (l : List (Bytes × Nat)) : Summary l (l.flatMap fun e => pad5 e.2 ++ [0x20] ++ e.1 ++ [0x0a]) := by
  induction l with
  | nil => exact .done
  | cons e l ih =>
    refine .line ⟨_, _, ?_, decimal_numeral e.2, ?_, rfl⟩ ih
    · intro c hc
      exact (List.mem_replicate.1 hc).2
    · rw [List.length_append, List.length_replicate]; omega

theorem summary_spec (checks : List (Bytes × Nat)) : Summary (byCount checks) (summaryText checks) := summary_lines _

private theorem put_get (k : Disk) (a b : Bytes) (e : Option Entry) : (k.put a e) b = if b = a then e else k b := rfl

private theorem create_free {k : Disk} {name : Bytes} (h : Free k name) (c : Bytes) : k.create name c = some (k.put name (some (.file c))) := by
  unfold Disk.create
  rcases h with h | ⟨x, h⟩ <;> rw [h]

private theorem link_get {k : Disk} {name : Bytes} (h : k name ≠ some .fullDir) (target n : Bytes) :
    ((k.remove name).symlink target name) n = if n = name then some (.link target) else k n := by
  have e : k.remove name = k.put name none := by
    unfold Disk.remove
    split
    · rename_i h'; exact absurd h' h
    · rfl
  rw [e]
  have e2 : (k.put name none) name = none := by simp [put_get]
  unfold Disk.symlink
  rw [e2]
  dsimp only
  rw [put_get, put_get]
  split <;> rfl

private theorem blocked_get {k : Disk} {name : Bytes} (h : k name = some .fullDir) (target : Bytes) : (k.remove name).symlink target name = k := by
  have e : k.remove name = k := by
    unfold Disk.remove
    rw [h]
  rw [e]
  unfold Disk.symlink
  rw [h]

/-- The links and the report files are four different names. -/
structure Apart (hash : Bytes → BitVec 64) (dir cwd detailLink summaryLink : Bytes) : Prop where
  links : detailLink ≠ summaryLink
  details : detailLink ≠ (reportFiles hash dir cwd).1 ∧ detailLink ≠ (reportFiles hash dir cwd).2
  summary : summaryLink ≠ (reportFiles hash dir cwd).1 ∧ summaryLink ≠ (reportFiles hash dir cwd).2

private theorem hex_last (v : BitVec 64) : ∃ pre i, i < 16 ∧ toHex v = pre ++ [hexDigit i] := by
  refine ⟨hexDigits 15 (v.toNat / 16), v.toNat % 16, Nat.mod_lt _ (by decide), ?_⟩
  unfold toHex
  rw [show (16 : Nat) - 16 = 0 from rfl, List.drop_zero, hexDigits]

private theorem digit_no (c : UInt8) (hc : c = 0x74 ∨ c = 0x79) (i : Nat) (hi : i < 16) : hexDigit i ≠ c := by
  have : ∀ j : Fin 16, hexDigit j.1 ≠ 0x74 ∧ hexDigit j.1 ≠ 0x79 := by decide +kernel
  rcases hc with rfl | rfl
  · exact (this ⟨i, hi⟩).1
  · exact (this ⟨i, hi⟩).2

private theorem join_last (dir name : Bytes) (v : BitVec 64) (x : Bytes) (c : UInt8) (hc : c = 0x74 ∨ c = 0x79) (hx : x.getLast? = some c) :
    x ≠ joinPath dir (name ++ toHex v) := by
  obtain ⟨pre, i, hi, e⟩ := hex_last v
  have hl : (joinPath dir (name ++ toHex v)).getLast? = some (hexDigit i) := by
    rw [e]
    unfold joinPath
    split
    · simp
    · split
      · simp
      · rw [List.append_assoc, List.getLast?_append, ← List.append_assoc name, List.getLast?_append, List.getLast?_concat]; rfl
  intro h
  rw [h, hl] at hx
  exact digit_no c hc i hi (by simpa using hx)

/-- The names the script uses are four different names. -/
theorem C112_apart (hash : Bytes → BitVec 64) (h : Host) (argv : List Bytes) (s : Setup) (hs : h.startup hash argv = some s) :
    Apart hash s.dir h.cwd s.detailsLink s.summaryLink := by
  have e : s.detailsLink = filename h.cwd ++ bytes!"_" ++ fTool ++ bytes!".out" ∧ s.summaryLink = filename h.cwd ++ bytes!"_" ++ fTool ++ bytes!".summary" := by
    unfold Host.startup at hs
    split at hs
    · cases hs
    · split at hs
      · cases hs
      · split at hs
        · cases hs
        · dsimp only at hs
          split at hs
          · cases hs
          · cases hs
            exact ⟨rfl, rfl⟩
  have h1 : s.detailsLink.getLast? = some 0x74 := by rw [e.1, List.getLast?_append]; rfl
  have h2 : s.summaryLink.getLast? = some 0x79 := by rw [e.2, List.getLast?_append]; rfl
  refine ⟨fun hh => ?_, ⟨?_, ?_⟩, ⟨?_, ?_⟩⟩
  · rw [hh, h2] at h1
    cases h1
  · exact join_last s.dir bytes!"tidy.out-" (hash h.cwd) _ _ (Or.inl rfl) h1
  · exact join_last s.dir bytes!"tidy-summary.out-" (hash h.cwd) _ _ (Or.inl rfl) h1
  · exact join_last s.dir bytes!"tidy.out-" (hash h.cwd) _ _ (Or.inr rfl) h2
  · exact join_last s.dir bytes!"tidy-summary.out-" (hash h.cwd) _ _ (Or.inr rfl) h2

/-- What is behind a name after the report. -/
private theorem report_get (hash : Bytes → BitVec 64) (dir cwd : Bytes) (d : Dir) (files : List Item) (detailLink summaryLink : Bytes) (k : Disk)
    (ha : Apart hash dir cwd detailLink summaryLink)
    (hf : Free k (reportFiles hash dir cwd).1 ∧ Free k (reportFiles hash dir cwd).2)
    (hl : k detailLink ≠ some .fullDir ∧ k summaryLink ≠ some .fullDir) :
    ∃ r, createReport hash dir cwd d files detailLink summaryLink k = some r ∧ r.out = summaryText (tally d files).checks ∧
      r.err = headline (tally d files).checks detailLink summaryLink ∧ r.count = (tally d files).checks.length ∧
      ∀ n, r.disk n = if n = summaryLink then some (.link (reportFiles hash dir cwd).2) else if n = (reportFiles hash dir cwd).2 then some (.file r.out)
        else if n = detailLink then some (.link (reportFiles hash dir cwd).1) else if n = (reportFiles hash dir cwd).1 then some (.file (details d files)) else k n := by
  have hne : (reportFiles hash dir cwd).1 ≠ (reportFiles hash dir cwd).2 := (C94_reports hash dir cwd cwd ⟨[], 0⟩).2.2.1
  obtain ⟨h1, ⟨h2, h3⟩, ⟨h4, h5⟩⟩ := ha
  unfold createReport
  dsimp only
  rw [create_free hf.1, Option.getD_some]
  generalize hk1 : Disk.put k (reportFiles hash dir cwd).1 (some (.file (details d files))) = k1
  have g1 : ∀ n, k1 n = if n = (reportFiles hash dir cwd).1 then some (.file (details d files)) else k n := fun n => by rw [← hk1]; rfl
  have hd1 : k1 detailLink ≠ some .fullDir := by rw [g1, if_neg h2]; exact hl.1
  generalize hk2 : (k1.remove detailLink).symlink (reportFiles hash dir cwd).1 detailLink = k2
  have g2 : ∀ n, k2 n = if n = detailLink then some (.link (reportFiles hash dir cwd).1) else k1 n := fun n => by rw [← hk2, link_get hd1]
  have hf2 : Free k2 (reportFiles hash dir cwd).2 := by
    unfold Free
    rw [g2, if_neg (Ne.symm h3), g1, if_neg (Ne.symm hne)]
    exact hf.2
  rw [create_free hf2]
  dsimp only
  generalize hk3 : Disk.put k2 (reportFiles hash dir cwd).2 (some (.file (summaryText (tally d files).checks))) = k3
  have g3 : ∀ n, k3 n = if n = (reportFiles hash dir cwd).2 then some (.file (summaryText (tally d files).checks)) else k2 n := fun n => by rw [← hk3]; rfl
  have hd3 : k3 summaryLink ≠ some .fullDir := by rw [g3, if_neg h5, g2, if_neg (Ne.symm h1), g1, if_neg h4]; exact hl.2
  refine ⟨_, rfl, rfl, rfl, rfl, fun n => ?_⟩
  dsimp only
  rw [link_get hd3, g3, g2, g1]

/-- After the report: the links lead to the report files; the details file has the path and the text of every file with a text, in order; the summary file has what was printed,
one line for each check; nothing else has changed. -/
theorem C112_report (hash : Bytes → BitVec 64) (dir cwd : Bytes) (d : Dir) (files : List Item) (detailLink summaryLink : Bytes) (k : Disk)
    (ha : Apart hash dir cwd detailLink summaryLink)
    (hf : Free k (reportFiles hash dir cwd).1 ∧ Free k (reportFiles hash dir cwd).2)
    (hl : k detailLink ≠ some .fullDir ∧ k summaryLink ≠ some .fullDir) :
    ∃ r, createReport hash dir cwd d files detailLink summaryLink k = some r ∧
      r.disk detailLink = some (.link (reportFiles hash dir cwd).1) ∧ r.disk summaryLink = some (.link (reportFiles hash dir cwd).2) ∧
      (∃ content, r.disk (reportFiles hash dir cwd).1 = some (.file content) ∧ Details (fun f => (d.read (pathFor f)).getD []) files content) ∧
      r.disk (reportFiles hash dir cwd).2 = some (.file r.out) ∧ Summary (byCount (tally d files).checks) r.out ∧
      (∀ name, name ≠ detailLink → name ≠ summaryLink → name ≠ (reportFiles hash dir cwd).1 → name ≠ (reportFiles hash dir cwd).2 → r.disk name = k name) := by
  obtain ⟨r, hr, ho, -, -, hg⟩ := report_get hash dir cwd d files detailLink summaryLink k ha hf hl
  have hne : (reportFiles hash dir cwd).1 ≠ (reportFiles hash dir cwd).2 := (C94_reports hash dir cwd cwd ⟨[], 0⟩).2.2.1
  obtain ⟨h1, ⟨h2, h3⟩, ⟨h4, h5⟩⟩ := ha
  refine ⟨r, hr, ?_, ?_, ⟨details d files, ?_, details_spec d files⟩, ?_, ?_, ?_⟩
  · rw [hg, if_neg h1, if_neg h3, if_pos rfl]
  · rw [hg, if_pos rfl]
  · rw [hg, if_neg (Ne.symm h4), if_neg hne, if_neg (Ne.symm h2), if_pos rfl]
  · rw [hg, if_neg (Ne.symm h5), if_pos rfl]
  · rw [ho]; exact summary_spec _
  · intro n a b c e
    rw [hg, if_neg b, if_neg e, if_neg a, if_neg c]

/-- The headline says that there is nothing exactly when the script's status is 0; otherwise it names the links. -/
theorem C112_headline (hash : Bytes → BitVec 64) (dir cwd : Bytes) (d : Dir) (files : List Item) (detailLink summaryLink : Bytes) (k : Disk) (r : ReportEnd)
    (h : createReport hash dir cwd d files detailLink summaryLink k = some r) :
    (exitStatus d files = 0 → r.count = 0 ∧ r.out = [] ∧ r.err = ascii "No clang-tidy complaints. " ++ [0xf0, 0x9f, 0x98, 0x8e, 0x0a]) ∧
    (exitStatus d files ≠ 0 → 0 < r.count ∧
      r.err = ascii "Details: " ++ detailLink ++ ascii "\nSummary: " ++ summaryLink ++ ascii "\n---- Summary ----\n") := by
  have hr : r.out = summaryText (tally d files).checks ∧ r.err = headline (tally d files).checks detailLink summaryLink ∧ r.count = (tally d files).checks.length := by
    unfold createReport at h
    dsimp only at h
    split at h
    · cases h
    · cases h
      exact ⟨rfl, rfl, rfl⟩
  obtain ⟨ho, he, hc⟩ := hr
  unfold exitStatus headline at *
  cases hk : (tally d files).checks with
  | nil =>
    rw [hk] at ho he hc
    refine ⟨fun _ => ⟨hc, by rw [ho]; simp [summaryText, byCount], ?_⟩, fun h' => absurd rfl h'⟩
    rw [he, if_pos rfl, show ascii "No clang-tidy complaints. " = bytes!"No clang-tidy complaints. " by decide]
  | cons e l =>
    rw [hk] at ho he hc
    refine ⟨fun h' => by simp at h', fun _ => ⟨by rw [hc]; simp, ?_⟩⟩
    rw [he, if_neg (by simp)]
    rw [show ascii "Details: " = bytes!"Details: " by decide, show ascii "\nSummary: " = [0x0a] ++ bytes!"Summary: " by decide,
      show ascii "\n---- Summary ----\n" = [0x0a] ++ (bytes!"---- Summary ----" ++ [0x0a]) by decide]
    simp only [List.append_assoc]

/-- A directory that is not empty keeps its name: the report is written, but there is no link to the details. -/
theorem C112_blocked (hash : Bytes → BitVec 64) (dir cwd : Bytes) (d : Dir) (files : List Item) (detailLink summaryLink : Bytes) (k : Disk) (r : ReportEnd)
    (ha : Apart hash dir cwd detailLink summaryLink) (hb : k detailLink = some .fullDir)
    (hl : k summaryLink ≠ some .fullDir)
    (h : createReport hash dir cwd d files detailLink summaryLink k = some r) : r.disk detailLink = some .fullDir := by
  obtain ⟨h1, ⟨h2, h3⟩, ⟨h4, h5⟩⟩ := ha
  unfold createReport at h
  dsimp only at h
  generalize hk1 : (Disk.create k (reportFiles hash dir cwd).1 (details d files)).getD k = k1 at h
  have g1 : ∀ n, n ≠ (reportFiles hash dir cwd).1 → k1 n = k n := fun n hn => by
    rw [← hk1]
    unfold Disk.create
    split <;> simp [put_get, hn]
  have b1 : k1 detailLink = some .fullDir := by rw [g1 _ h2, hb]
  rw [blocked_get b1] at h
  split at h
  · cases h
  · rename_i k3 hk3
    cases h
    have g3 : ∀ n, n ≠ (reportFiles hash dir cwd).2 → k3 n = k1 n := fun n hn => by
      unfold Disk.create at hk3
      split at hk3
      · cases hk3; simp [put_get, hn]
      · cases hk3; simp [put_get, hn]
      · cases hk3
    dsimp only
    rw [link_get (by rw [g3 _ h5, g1 _ h4]; exact hl), if_neg h1, g3 _ h3, b1]

/-- A second run replaces the links and the report files of the first. -/
theorem C112_again (hash : Bytes → BitVec 64) (dir cwd : Bytes) (d d' : Dir) (files files' : List Item) (detailLink summaryLink : Bytes) (k : Disk) (r r' : ReportEnd)
    (ha : Apart hash dir cwd detailLink summaryLink)
    (hf : Free k (reportFiles hash dir cwd).1 ∧ Free k (reportFiles hash dir cwd).2)
    (hl : k detailLink ≠ some .fullDir ∧ k summaryLink ≠ some .fullDir)
    (h : createReport hash dir cwd d files detailLink summaryLink k = some r)
    (h' : createReport hash dir cwd d' files' detailLink summaryLink k = some r') :
    createReport hash dir cwd d' files' detailLink summaryLink r.disk = some r' := by
  obtain ⟨a, hra, -, -, -, hga⟩ := report_get hash dir cwd d files detailLink summaryLink k ha hf hl
  rw [h] at hra
  cases hra
  obtain ⟨b, hrb, ob, eb, cb, hgb⟩ := report_get hash dir cwd d' files' detailLink summaryLink k ha hf hl
  rw [h'] at hrb
  cases hrb
  have hne : (reportFiles hash dir cwd).1 ≠ (reportFiles hash dir cwd).2 := (C94_reports hash dir cwd cwd ⟨[], 0⟩).2.2.1
  obtain ⟨c, hrc, oc, ec, cc, hgc⟩ := report_get hash dir cwd d' files' detailLink summaryLink r.disk ha
    ⟨Or.inr ⟨details d files, by rw [hga, if_neg (Ne.symm ha.summary.1), if_neg hne, if_neg (Ne.symm ha.details.1), if_pos rfl]⟩,
     Or.inr ⟨r.out, by rw [hga, if_neg (Ne.symm ha.summary.2), if_pos rfl]⟩⟩
    ⟨by rw [hga, if_neg ha.links, if_neg ha.details.2, if_pos rfl]; simp, by rw [hga, if_pos rfl]; simp⟩
  rw [hrc]
  have ed : c.disk = r'.disk := by
    funext n
    rw [hgc, hgb, hga, oc, ob]
    repeat' split
    all_goals rfl
  cases c
  cases r'
  simp only at oc ec cc ob eb cb ed
  subst oc ec cc ob eb cb ed
  rfl

/-- Two stored texts, one of them empty, an old link and an old file under the names. -/
example : ((createReport (fun t => BitVec.ofNat 64 t.length) bytes!"/c" bytes!"/w/p" ⟨fun n => if n = bytes!"b.cc-0000000000000002" then some 0 else none, fun _ => bytes!"x: y [a-b]\n", 1⟩
    [⟨bytes!"fpga/a.cc", 1⟩, ⟨bytes!"fpga/b.cc", 2⟩] bytes!"p_clang-tidy.out" bytes!"p_clang-tidy.summary"
    (fun n => if n = bytes!"p_clang-tidy.out" then some (.link bytes!"/old") else if n = bytes!"p_clang-tidy.summary" then some (.file []) else none)).map fun r =>
      (r.disk bytes!"/c/tidy.out-0000000000000004", r.disk bytes!"p_clang-tidy.summary", r.out, r.count)) =
    some (some (.file bytes!"fpga/b.cc:\nx: y [a-b]\n"), some (.link bytes!"/c/tidy-summary.out-0000000000000004"), bytes!"    1 [a-b]\n", 1) := by decide +kernel

end Verif.Props
