import Verif.Spec.Tidy.Startup
import Verif.Props.C86
import Verif.Props.C90
/-! # C94: when the lint script starts, and where it works -/
namespace Verif.Props
open Verif.Tidy Verif.Spec.Tidy

private theorem env_config (h : Host) : h.config = configPath h := rfl
private theorem env_tool (h : Host) : h.envWithFallback vTool fTool = toolName h := rfl

theorem join_under (a b : Bytes) (h : b.head? ≠ some 0x2f) : joinPath a b = under a b := by
  unfold joinPath under
  rw [if_neg h]
  rfl

private theorem runner_none (hash : Bytes → BitVec 64) (h : Host) (argv : List Bytes) (p : Bytes) :
    h.runner hash argv p = none ↔ versionText h = [] := by
  show (if versionText h = [] then none else _) = none ↔ _
  split
  · rename_i e; simp [e]
  · rename_i e; simp [e]

/-- The script gives up, with status 1 and before it looks at any file, exactly for the reasons listed. -/
theorem C94_refuses (hash : Bytes → BitVec 64) (h : Host) (argv : List Bytes) : h.startup hash argv = none ↔ Refuses h := by
  have e1 : ascii ".clang-tidy" = fTidy := by decide
  have e2 : ascii "compile_commands.json" = fCommands := by decide
  have e3 : ascii "compile_flags.txt" = fFlags := by decide
  unfold Host.startup Refuses
  rw [env_config, e1, e2, e3]
  cases hp : h.present (configPath h) with
  | false => simp
  | true =>
    simp only [Bool.true_eq_false, if_false, false_or]
    cases hw : h.written fTidy with
    | none => simp
    | some build =>
      simp only [reduceCtorEq, false_or]
      cases hc : h.written fCommands with
      | some c =>
        simp only [Option.orElse_eq_orElse, Option.orElse_eq_or, Option.some_or, reduceCtorEq, false_and, false_or]
        rw [← runner_none hash h argv (filename h.cwd ++ bytes!"_")]
        cases h.runner hash argv (filename h.cwd ++ bytes!"_") <;> simp
      | none =>
        cases hf : h.written fFlags with
        | none => simp
        | some c =>
          simp only [Option.orElse_eq_orElse, Option.orElse_eq_or, Option.none_or, reduceCtorEq, and_false, false_or]
          rw [← runner_none hash h argv (filename h.cwd ++ bytes!"_")]
          cases h.runner hash argv (filename h.cwd ++ bytes!"_") <;> simp

private theorem base_spec (h : Host) : CacheBase h h.cacheBase := by
  have e1 : ascii "CACHE_DIR" = vCacheDir := by decide
  have e2 : ascii "HOME" = vHome := by decide
  have e3 : ascii ".cache/" = bytes!".cache/" := by decide
  have e4 : setting h "TMPDIR" (ascii "/tmp") = h.envWithFallback vTmp bytes!"/tmp" := by
    unfold setting Host.envWithFallback
    rw [show ascii "TMPDIR" = vTmp by decide, show ascii "/tmp" = bytes!"/tmp" by decide]
  unfold Host.cacheBase
  cases hc : h.getenv vCacheDir with
  | some dir => exact .told (by rw [e1]; exact hc)
  | none =>
    cases hh : h.getenv vHome with
    | none =>
      dsimp only
      rw [← e4]
      exact .tmp (by rw [e1]; exact hc) (fun dir hd => by rw [e2, hh] at hd; cases hd)
    | some home =>
      dsimp only
      rw [join_under _ _ (by decide), ← e3, ← e4]
      split
      · rename_i hp
        exact .home (by rw [e1]; exact hc) (by rw [e2]; exact hh) hp
      · rename_i hp
        refine .tmp (by rw [e1]; exact hc) (fun dir hd => ?_)
        rw [e2, hh] at hd
        cases hd
        simpa using hp

private theorem mem_takeWhile_imp {p : UInt8 → Bool} {l : Bytes} {c : UInt8} (h : c ∈ l.takeWhile p) : p c = true := by
  induction l with
  | nil => cases h
  | cons d l ih =>
    rw [List.takeWhile_cons] at h
    split at h
    · rename_i hd
      rcases List.mem_cons.1 h with rfl | h
      · exact hd
      · exact ih h
    · cases h

theorem filename_no_slash (p : Bytes) : (0x2f : UInt8) ∉ filename p := by
  intro h
  unfold filename at h
  rw [List.mem_reverse] at h
  have := mem_takeWhile_imp h
  simp at this

private theorem project_head (hash : Bytes → BitVec 64) (path v a c : Bytes) :
    (projectDir hash (filename path ++ bytes!"_") v a c).head? ≠ some 0x2f := by
  unfold projectDir
  cases hf : filename path with
  | nil => simp
  | cons x r =>
    simp only [List.cons_append, List.head?_cons, ne_eq, Option.some.injEq]
    intro e
    exact filename_no_slash path (by rw [hf, e]; simp)

/-- Otherwise it works with the tool and the options meant, in one directory: below the place for caches and `clang-tidy`, named after the project directory and the
configuration (`C90`); the two links in the current directory have the names expected. -/
theorem C94_place (hash : Bytes → BitVec 64) (h : Host) (argv : List Bytes) (s : Setup) (hs : h.startup hash argv = some s) :
    s.tool = toolName h ∧ s.args = assembleArgs (configPath h) argv ∧
      (∃ base, CacheBase h base ∧ s.dir = under (under base (ascii "clang-tidy"))
        (projectDir hash (filename h.cwd ++ ascii "_") (versionText h) s.args (h.content (configPath h)))) ∧
      s.detailsLink = filename h.cwd ++ ascii "_clang-tidy.out" ∧ s.summaryLink = filename h.cwd ++ ascii "_clang-tidy.summary" ∧
      ∃ build compdb, h.written (ascii ".clang-tidy") = some build ∧ s.latest = max build compdb ∧
        (h.written (ascii "compile_commands.json") = some compdb ∨
          (h.written (ascii "compile_commands.json") = none ∧ h.written (ascii "compile_flags.txt") = some compdb)) := by
  have hr : ∃ build compdb, h.runner hash argv (filename h.cwd ++ bytes!"_") = some (s.tool, s.args, s.dir) ∧
      (h.written fTidy = some build ∧ s.latest = max build compdb ∧ ((h.written fCommands).orElse fun _ => h.written fFlags) = some compdb) ∧
      s.detailsLink = filename h.cwd ++ bytes!"_" ++ fTool ++ bytes!".out" ∧
      s.summaryLink = filename h.cwd ++ bytes!"_" ++ fTool ++ bytes!".summary" := by
    unfold Host.startup at hs
    split at hs
    · cases hs
    · split at hs
      · cases hs
      · rename_i build hb
        split at hs
        · cases hs
        · rename_i compdb hcd
          dsimp only at hs
          split at hs
          · cases hs
          · rename_i tool args dir hrun
            cases hs
            exact ⟨build, compdb, hrun, ⟨hb, rfl, hcd⟩, rfl, rfl⟩
  obtain ⟨build, compdb, hr, ⟨h3, h4, h5⟩, h1, h2⟩ := hr
  have hv : versionText h ≠ [] := fun e => by rw [(runner_none hash h argv _).2 e] at hr; cases hr
  have hr' : (if versionText h = [] then none else some (toolName h, assembleArgs (configPath h) argv,
      joinPath (joinPath h.cacheBase fTool) (projectDir hash (filename h.cwd ++ bytes!"_") (versionText h) (assembleArgs (configPath h) argv) (h.content (configPath h))))) =
      some (s.tool, s.args, s.dir) := hr
  rw [if_neg hv] at hr'
  have hr'' := Option.some.inj hr'
  have q1 := (Prod.mk.inj hr'').1
  have q2 := (Prod.mk.inj (Prod.mk.inj hr'').2).1
  have q3 := (Prod.mk.inj (Prod.mk.inj hr'').2).2
  refine ⟨q1.symm, q2.symm, ⟨_, base_spec h, ?_⟩, ?_, ?_, build, compdb, h3, h4, ?_⟩
  · rw [← q2, ← q3, join_under _ _ (project_head _ _ _ _ _), join_under _ _ (by decide)]
    rw [show ascii "_" = bytes!"_" by decide, show ascii "clang-tidy" = fTool by decide]
  · rw [h1, show ascii "_clang-tidy.out" = bytes!"_" ++ fTool ++ bytes!".out" by decide]
    simp
  · rw [h2, show ascii "_clang-tidy.summary" = bytes!"_" ++ fTool ++ bytes!".summary" by decide]
    simp
  · rw [show ascii "compile_commands.json" = fCommands by decide, show ascii "compile_flags.txt" = fFlags by decide]
    cases hc : h.written fCommands with
    | some c =>
      rw [hc] at h5
      exact Or.inl h5
    | none =>
      rw [hc] at h5
      exact Or.inr ⟨rfl, h5⟩

/-- There is one place for caches. -/
theorem C94_one_base (h : Host) : ∃ base, CacheBase h base ∧ ∀ base', CacheBase h base' → base' = base := by
  refine ⟨_, base_spec h, fun b hb => ?_⟩
  have key : ∀ {b b'}, CacheBase h b → CacheBase h b' → b = b' := by
    intro b b' h1 h2
    cases h1 with
    | told e =>
      cases h2 with
      | told e' => rw [e] at e'; exact Option.some.inj e'
      | home e' => rw [e] at e'; cases e'
      | tmp e' => rw [e] at e'; cases e'
    | home e f g =>
      cases h2 with
      | told e' => rw [e] at e'; cases e'
      | home e' f' => rw [f] at f'; cases f'; rfl
      | tmp e' f' => rw [f' _ f] at g; cases g
    | tmp e f =>
      cases h2 with
      | told e' => rw [e] at e'; cases e'
      | home e' f' g' => rw [f _ f'] at g'; cases g'
      | tmp => rfl
  exact key hb (base_spec h)

/-- A run leaves all cache directories alone but its own; in there it is a run as in C83 to C89.  If it gives up, nothing changes. -/
theorem C94_own_directory (hash : Bytes → BitVec 64) (h : Host) (argv : List Bytes) (T : Setup → Tool) (tree : List (Bytes × Option Bytes)) (pid : Nat)
    (caches caches' : Bytes → Dir) (status : Nat) (hr : Script hash h argv T tree pid caches caches' status) :
    (Refuses h ∧ caches' = caches ∧ status = 1) ∨
      ∃ s jobs, ¬ Refuses h ∧ h.startup hash argv = some s ∧ (buildWorkList hash (caches s.dir) tree ≠ [] → h.jobs = some jobs) ∧
        MainRun (T s) hash tree pid jobs (caches s.dir) (caches' s.dir) status ∧ ∀ dir, dir ≠ s.dir → caches' dir = caches dir := by
  cases hr with
  | refused hs => exact Or.inl ⟨(C94_refuses hash h argv).1 hs, rfl, rfl⟩
  | @ran s jobs d' _ hs hj hm =>
    refine Or.inr ⟨s, jobs, fun hn => ?_, hs, hj, by simpa using hm, fun dir hd => by simp [hd]⟩
    rw [(C94_refuses hash h argv).2 hn] at hs
    cases hs

private theorem under_eq (dir : Bytes) : ∃ pre, ∀ name, under dir name = pre ++ name := by
  unfold under
  split
  · exact ⟨dir, fun _ => rfl⟩
  · exact ⟨_, fun _ => rfl⟩

/-- Two checkouts that share a cache have the same report files exactly when the hashes of their directories agree; the two report files of a checkout are different,
and no entry of the cache is one of them. -/
theorem C94_reports (hash : Bytes → BitVec 64) (dir cwd cwd' : Bytes) (w : Item) :
    ((reportFiles hash dir cwd).1 = (reportFiles hash dir cwd').1 ↔ hash cwd = hash cwd') ∧
    ((reportFiles hash dir cwd).2 = (reportFiles hash dir cwd').2 ↔ hash cwd = hash cwd') ∧
    (reportFiles hash dir cwd).1 ≠ (reportFiles hash dir cwd').2 ∧
    under (under dir (ascii "contents")) (pathFor w) ≠ (reportFiles hash dir cwd).1 ∧
    under (under dir (ascii "contents")) (pathFor w) ≠ (reportFiles hash dir cwd).2 := by
  obtain ⟨pre, hp⟩ := under_eq dir
  have e1 : ∀ c, (reportFiles hash dir c).1 = pre ++ (ascii "tidy.out-" ++ toHex (hash c)) := fun c => by
    unfold reportFiles
    dsimp only
    rw [join_under _ _ (by simp), hp]
    rfl
  have e2 : ∀ c, (reportFiles hash dir c).2 = pre ++ (ascii "tidy-summary.out-" ++ toHex (hash c)) := fun c => by
    unfold reportFiles
    dsimp only
    rw [join_under _ _ (by simp), hp]
    rfl
  have e3 : under (under dir (ascii "contents")) (pathFor w) = pre ++ (ascii "contents/" ++ pathFor w) := by
    rw [hp (ascii "contents")]
    have hl : (pre ++ ascii "contents").getLast? = some 0x73 := by
      rw [List.getLast?_append, show (ascii "contents").getLast? = some 0x73 by decide]; rfl
    unfold under
    rw [if_neg (by rw [hl]; simp [show ascii "contents" ≠ [] by decide])]
    rw [show ascii "contents/" = ascii "contents" ++ ascii "/" by decide]
    simp
  rw [e1, e1, e2, e2, e3]
  have h9 : ascii "tidy.out-" = bytes!"tidy.out-" := by decide
  have h10 : ascii "tidy-summary.out-" = bytes!"tidy-summary.out-" := by decide
  have h11 : ascii "contents/" = bytes!"contents/" := by decide
  refine ⟨⟨fun h => ?_, fun h => by rw [h]⟩, ⟨fun h => ?_, fun h => by rw [h]⟩, fun h => ?_, fun h => ?_, fun h => ?_⟩
  · exact toHex_inj (List.append_cancel_left (List.append_cancel_left h))
  · exact toHex_inj (List.append_cancel_left (List.append_cancel_left h))
  · have := List.append_cancel_left h
    rw [h9, h10] at this
    simp at this
  · have := List.append_cancel_left h
    rw [h9, h11] at this
    simp at this
  · have := List.append_cancel_left h
    rw [h10, h11] at this
    simp at this

private theorem isDigit_iff'' (c : UInt8) : isDigit c = true ↔ 0x30 ≤ c.toNat ∧ c.toNat ≤ 0x39 := by
  simp [isDigit, UInt8.le_iff_toNat_le]

private theorem space_iff (c : UInt8) : Text.isSpace c = true ↔ c ∈ ascii " \t\n" ++ [0x0b, 0x0c, 0x0d] := by
  have h : ∀ i : Fin 256, Text.isSpace (UInt8.ofNat i.val) = true ↔ UInt8.ofNat i.val ∈ ascii " \t\n" ++ [0x0b, 0x0c, 0x0d] := by decide +kernel
  have := h ⟨c.toNat, c.toNat_lt⟩
  simpa using this

private theorem dropWhile_white (white r : Bytes) (hw : ∀ c ∈ white, Text.isSpace c = true) (hr : ∀ c t, r = c :: t → Text.isSpace c = false) :
    (white ++ r).dropWhile Text.isSpace = r := by
  induction white with
  | nil =>
    cases r with
    | nil => rfl
    | cons c t => rw [List.nil_append, List.dropWhile_cons, if_neg (by rw [hr c t rfl]; simp)]
  | cons c w ih =>
    rw [List.cons_append, List.dropWhile_cons, if_pos (hw c (by simp))]
    exact ih fun d hd => hw d (by simp [hd])

private theorem takeWhile_digits (ds rest : Bytes) (hd : ∀ c ∈ ds, isDigit c = true) (hr : ∀ c r, rest = c :: r → isDigit c = false) :
    (ds ++ rest).takeWhile isDigit = ds := by
  induction ds with
  | nil =>
    cases rest with
    | nil => rfl
    | cons c t => rw [List.nil_append, List.takeWhile_cons, if_neg (by rw [hr c t rfl]; simp)]
  | cons c w ih =>
    rw [List.cons_append, List.takeWhile_cons, if_pos (hd c (by simp)), ih fun d h => hd d (by simp [h])]

private theorem digits_value (ds : Bytes) (v : Nat) (hd : ∀ c ∈ ds, isDigit c = true) :
    ds.foldl (fun (v : Int) c => v * 10 + (c.toNat - 0x30)) (v : Int) = ((ds.foldl (fun v c => v * 10 + (c.toNat - 0x30)) v : Nat) : Int) := by
  induction ds generalizing v with
  | nil => rfl
  | cons c w ih =>
    have h1 := ((isDigit_iff'' c).1 (hd c (by simp))).1
    rw [List.foldl_cons, List.foldl_cons, ← ih _ fun d h => hd d (by simp [h])]
    congr 1
    omega

/-- The sign `signSplit` sees. -/
private def signOf (neg : Bool) (t : Bytes) : Bytes := if neg then bytes!"-" else if t.head? = some 0x2b then bytes!"+" else []

private theorem signSplit_eq (t : Bytes) : t = signOf (Text.signSplit t).1 t ++ (Text.signSplit t).2 ∧ ((Text.signSplit t).1 = true ↔ t.head? = some 0x2d) := by
  unfold Text.signSplit
  split
  · simp [signOf]
  · simp [signOf]
  · rename_i h1 h2
    cases t with
    | nil => simp [signOf]
    | cons c r =>
      have a1 : c ≠ 0x2d := fun e => h1 r (by rw [e])
      have a2 : c ≠ 0x2b := fun e => h2 r (by rw [e])
      simp [signOf, a1, a2]

private theorem atoi_value (neg : Bool) (sign text : Bytes) (n : Nat) (hs : (neg = false ∧ (sign = [] ∨ sign = bytes!"+")) ∨ (neg = true ∧ sign = bytes!"-"))
    (h : Numeral sign text n) : atoi text = (if -(2 ^ 31) ≤ (if neg then -(n : Int) else n) ∧ (if neg then -(n : Int) else n) < 2 ^ 31 then
      some (if neg then -(n : Int) else n) else none) := by
  obtain ⟨white, ds, rest, e, hw, hne, hd, hr, hv⟩ := h
  have hd' : ∀ c ∈ ds, isDigit c = true := fun c hc => (isDigit_iff'' c).2 (hd c hc)
  have hr' : ∀ c r, rest = c :: r → isDigit c = false := fun c r hc => by
    have := hr c r hc
    rw [← isDigit_iff''] at this
    simpa using this
  obtain ⟨d, ds', hds⟩ := List.exists_cons_of_ne_nil hne
  have hdd := (isDigit_iff'' d).1 (hd' d (by rw [hds]; simp))
  have e1 : text.dropWhile Text.isSpace = sign ++ (ds ++ rest) := by
    rw [e, List.append_assoc, List.append_assoc]
    refine dropWhile_white _ _ (fun c hc => (space_iff c).2 (hw c hc)) ?_
    intro c t hc
    have hd1 : ∀ c : UInt8, 0x30 ≤ c.toNat → c.toNat ≤ 0x39 → Text.isSpace c = false := by
      intro c h1 h2
      have : ∀ i : Fin 256, 0x30 ≤ i.val → i.val ≤ 0x39 → Text.isSpace (UInt8.ofNat i.val) = false := by decide +kernel
      have := this ⟨c.toNat, c.toNat_lt⟩ h1 h2
      simpa using this
    rcases hs with ⟨_, rfl | rfl⟩ | ⟨_, rfl⟩
    · rw [hds] at hc
      simp only [List.nil_append, List.cons_append, List.cons.injEq] at hc
      rw [← hc.1]
      exact hd1 d hdd.1 hdd.2
    · simp only [List.cons_append, List.cons.injEq] at hc
      rw [← hc.1]; decide
    · simp only [List.cons_append, List.cons.injEq] at hc
      rw [← hc.1]; decide
  have e2 : Text.signSplit (sign ++ (ds ++ rest)) = (neg, ds ++ rest) := by
    rcases hs with ⟨rfl, rfl | rfl⟩ | ⟨rfl, rfl⟩
    · rw [hds]
      unfold Text.signSplit
      split
      · rename_i r hc
        simp only [List.nil_append, List.cons_append, List.cons.injEq] at hc
        rw [hc.1] at hdd
        exact absurd hdd.1 (by decide)
      · rename_i r hc
        simp only [List.nil_append, List.cons_append, List.cons.injEq] at hc
        rw [hc.1] at hdd
        exact absurd hdd.1 (by decide)
      · rfl
    · rfl
    · rfl
  unfold atoi
  rw [e1, e2]
  dsimp only
  rw [takeWhile_digits _ _ hd' hr']
  have e3 := digits_value ds 0 hd'
  simp only [Int.ofNat_zero] at e3
  rw [e3, ← hv]

private theorem atoi_numeral (neg : Bool) (sign text : Bytes) (n : Nat) (hs : (neg = false ∧ (sign = [] ∨ sign = bytes!"+")) ∨ (neg = true ∧ sign = bytes!"-"))
    (h : Numeral sign text n) (hn : (neg = false → n < 2 ^ 31) ∧ (neg = true → n ≤ 2 ^ 31)) : atoi text = some (if neg then -(n : Int) else n) := by
  rw [atoi_value neg sign text n hs h]
  cases neg with
  | false =>
    have := hn.1 rfl
    simp only [Bool.false_eq_true, if_false]
    rw [if_pos (by omega)]
  | true =>
    have := hn.2 rfl
    simp only [if_true]
    rw [if_pos (by omega)]

private theorem atoi_large (neg : Bool) (sign text : Bytes) (n : Nat) (hs : (neg = false ∧ (sign = [] ∨ sign = bytes!"+")) ∨ (neg = true ∧ sign = bytes!"-"))
    (h : Numeral sign text n) (hn : (neg = false ∧ 2 ^ 31 ≤ n) ∨ (neg = true ∧ 2 ^ 31 < n)) : atoi text = none := by
  rw [atoi_value neg sign text n hs h]
  rcases hn with ⟨rfl, hn⟩ | ⟨rfl, hn⟩
  · simp only [Bool.false_eq_true, if_false]
    rw [if_neg (by omega)]
  · simp only [if_true]
    rw [if_neg (by omega)]

private theorem atoi_none (text : Bytes) (h : ∀ sign, sign = [] ∨ sign = bytes!"+" ∨ sign = bytes!"-" → ∀ n, ¬ Numeral sign text n) : atoi text = some 0 := by
  unfold atoi
  obtain ⟨e, _⟩ := signSplit_eq (text.dropWhile Text.isSpace)
  generalize hs : signOf (Text.signSplit (text.dropWhile Text.isSpace)).1 (text.dropWhile Text.isSpace) = sign at e
  generalize hd : (Text.signSplit (text.dropWhile Text.isSpace)).2 = d at e
  have hsign : sign = [] ∨ sign = bytes!"+" ∨ sign = bytes!"-" := by
    rw [← hs]
    unfold signOf
    split
    · exact Or.inr (Or.inr rfl)
    · split
      · exact Or.inr (Or.inl rfl)
      · exact Or.inl rfl
  have hnil : d.takeWhile isDigit = [] := by
    by_cases hn : d.takeWhile isDigit = []
    · exact hn
    · exfalso
      refine h sign hsign _ ⟨text.takeWhile Text.isSpace, d.takeWhile isDigit, d.dropWhile isDigit, ?_, ?_, hn, ?_, ?_, rfl⟩
      · rw [List.append_assoc, List.takeWhile_append_dropWhile, List.append_assoc, ← e, List.takeWhile_append_dropWhile]
      · intro c hc
        rw [← space_iff]
        exact mem_takeWhile_imp hc
      · intro c hc
        rw [← isDigit_iff'']
        exact mem_takeWhile_imp hc
      · intro c r hc
        rw [← isDigit_iff'']
        have := List.head?_dropWhile_not isDigit d
        rw [hc] at this
        simpa using this
  have e0 : Text.signSplit (text.dropWhile Text.isSpace) = ((Text.signSplit (text.dropWhile Text.isSpace)).1, d) := by rw [← hd]
  rw [e0]
  dsimp only
  rw [hnil]
  simp

/-- The number of workers: a positive number in `CLANG_TIDY_JOBS` is taken, whatever is written behind it; otherwise there is one for each core.
(A number that is no `int` is undefined behaviour of `atoi`: there is no answer.) -/
theorem C94_jobs (h : Host) :
    (h.getenv (ascii "CLANG_TIDY_JOBS") = none → h.jobs = some h.cores) ∧
    ∀ text, h.getenv (ascii "CLANG_TIDY_JOBS") = some text →
      (∀ n, Numeral [] text n ∨ Numeral (ascii "+") text n → 0 < n → n < 2 ^ 31 → h.jobs = some n) ∧
      (Numeral [] text 0 ∨ Numeral (ascii "+") text 0 → h.jobs = some h.cores) ∧
      (∀ n, Numeral (ascii "-") text n → n ≤ 2 ^ 31 → h.jobs = some h.cores) ∧
      (∀ n, Numeral [] text n ∨ Numeral (ascii "+") text n → 2 ^ 31 ≤ n → h.jobs = none) ∧
      (∀ n, Numeral (ascii "-") text n → 2 ^ 31 < n → h.jobs = none) ∧
      ((∀ sign, sign = [] ∨ sign = ascii "+" ∨ sign = ascii "-" → ∀ n, ¬ Numeral sign text n) → h.jobs = some h.cores) := by
  have ej : ascii "CLANG_TIDY_JOBS" = vJobs := by decide
  have ep : ascii "+" = bytes!"+" := by decide
  have em : ascii "-" = bytes!"-" := by decide
  rw [ej, ep, em]
  constructor
  · intro hn
    unfold Host.jobs
    rw [hn]
  · intro text ht
    have key : ∀ v, atoi text = some v → h.jobs = some (if 0 < v then v.toNat else h.cores) := by
      intro v hv
      unfold Host.jobs
      rw [ht]
      dsimp only
      rw [hv]
    have pos : ∀ n, Numeral [] text n ∨ Numeral bytes!"+" text n → n < 2 ^ 31 → atoi text = some (n : Int) := by
      rintro n (hx | hx) hlt
      · simpa using atoi_numeral false [] text n (Or.inl ⟨rfl, Or.inl rfl⟩) hx ⟨fun _ => hlt, by simp⟩
      · simpa using atoi_numeral false bytes!"+" text n (Or.inl ⟨rfl, Or.inr rfl⟩) hx ⟨fun _ => hlt, by simp⟩
    have none' : atoi text = none → h.jobs = none := by
      intro hv
      unfold Host.jobs
      rw [ht]
      dsimp only
      rw [hv]
    refine ⟨fun n hx h0 hlt => ?_, fun hx => ?_, fun n hx hle => ?_, fun n hx hle => none' ?_, fun n hx hle => none' ?_, fun hx => ?_⟩
    · rw [key _ (pos n hx hlt), if_pos (by omega)]; simp
    · rw [key _ (pos 0 hx (by decide))]; rfl
    · have := atoi_numeral true bytes!"-" text n (Or.inr ⟨rfl, rfl⟩) hx ⟨by simp, fun _ => hle⟩
      rw [if_pos rfl] at this
      rw [key _ this, if_neg (by omega)]
    · rcases hx with hx | hx
      · exact atoi_large false [] text n (Or.inl ⟨rfl, Or.inl rfl⟩) hx (Or.inl ⟨rfl, hle⟩)
      · exact atoi_large false bytes!"+" text n (Or.inl ⟨rfl, Or.inr rfl⟩) hx (Or.inl ⟨rfl, hle⟩)
    · exact atoi_large true bytes!"-" text n (Or.inr ⟨rfl, rfl⟩) hx (Or.inr ⟨rfl, hle⟩)
    · rw [key 0 (atoi_none text hx)]; rfl

/-- Without `CLANG_TIDY_JOBS`, on a system that does not know its number of cores (`hardware_concurrency()` may be 0): nothing is examined, and from an empty
cache the status is 0 whatever the tool has to say. -/
theorem C94_defect_no_cores (hash : Bytes → BitVec 64) (h : Host) (argv : List Bytes) (T : Setup → Tool) (tree : List (Bytes × Option Bytes)) (pid : Nat)
    (hst : ¬ Refuses h) (hj : h.getenv (ascii "CLANG_TIDY_JOBS") = none) (hc : h.cores = 0) :
    (∃ caches' status, Script hash h argv T tree pid (fun _ => ⟨fun _ => none, fun _ => [], 0⟩) caches' status) ∧
    ∀ caches' status, Script hash h argv T tree pid (fun _ => ⟨fun _ => none, fun _ => [], 0⟩) caches' status →
      caches' = (fun _ => ⟨fun _ => none, fun _ => [], 0⟩) ∧ status = 0 := by
  have hjobs : h.jobs = some 0 := by rw [(C94_jobs h).1 hj, hc]
  obtain ⟨s, hs⟩ : ∃ s, h.startup hash argv = some s := by
    cases e : h.startup hash argv with
    | none => exact absurd ((C94_refuses hash h argv).1 e) hst
    | some s => exact ⟨s, rfl⟩
  have hzero : exitStatus ⟨fun _ => none, fun _ => [], 0⟩ (filesOfInterest hash tree) = 0 := by
    rw [(C86_status _ _).2]
    intro f _
    rintro ⟨l, hl, _⟩
    simp [Dir.read, completeLines] at hl
  constructor
  · refine ⟨_, _, .ran (jobs := 0) (d' := ⟨fun _ => none, fun _ => [], 0⟩) (status := 0) hs (fun _ => hjobs) ?_⟩
    by_cases hb : buildWorkList hash ⟨fun _ => none, fun _ => [], 0⟩ tree = []
    · have := MainRun.nothing (T := T s) (pid := pid) (jobs := 0) hb
      rw [hzero] at this
      exact this
    · have := MainRun.work (T := T s) (pid := pid) (jobs := 0) hb (.refl) rfl rfl (by simp)
      rw [hzero] at this
      exact this
  · intro caches' status hr
    cases hr with
    | refused h' => rw [h'] at hs; cases hs
    | @ran s' jobs d' _ hs' hj' hm =>
      have hd : d' = ⟨fun _ => none, fun _ => [], 0⟩ ∧ status = 0 := by
        cases hm with
        | nothing _ => exact ⟨rfl, hzero⟩
        | @work l t p hb hrun hp ha hst' =>
          have h0 := hj' hb
          rw [hjobs] at h0
          cases h0
          have hdir := (C83_no_jobs _ _ _ _ _ _ hrun).1
          exact ⟨hdir, by rw [hdir]; exact hzero⟩
      refine ⟨?_, hd.2⟩
      funext dir
      simp [hd.1]

/-- A project directory `/w/p` with a configuration and a compilation database, a tool that says `version 15`, eight cores and `CLANG_TIDY_JOBS=2x`. -/
def sampleHost : Host :=
  { getenv := fun v => if v = ascii "HOME" then some (ascii "/h") else if v = ascii "CLANG_TIDY_JOBS" then some (ascii " 2x") else none
    present := fun p => p = ascii ".clang-tidy" ∨ p = ascii "/h/.cache/"
    written := fun p => if p = ascii ".clang-tidy" then some 5 else if p = ascii "compile_flags.txt" then some 7 else none
    content := fun _ => ascii "Checks: x"
    cwd := ascii "/w/p"
    output := fun c => if c = ascii "clang-tidy --version" then ascii "LLVM version 15.0\n" else []
    cores := 8 }

example : ¬ Refuses sampleHost ∧ CacheBase sampleHost (ascii "/h/.cache/") ∧ sampleHost.jobs = some 2 := by
  refine ⟨?_, ?_, by decide +kernel⟩
  · unfold Refuses; decide
  · exact CacheBase.home (h := sampleHost) (dir := ascii "/h") (by decide) (by decide) (by decide)

example : ((sampleHost.startup (fun t => BitVec.ofNat 64 t.length) []).map fun s => (s.dir, s.latest, s.detailsLink)) =
    some (ascii "/h/.cache/clang-tidy/p_v15_0000008a", 7, ascii "p_clang-tidy.out") := by decide +kernel

/-- Without `.clang-tidy` in the current directory every run fails, even if `CLANG_TIDY_CONFIG` names a configuration file that exists. -/
theorem C94_defect_config (hash : Bytes → BitVec 64) (h : Host) (argv : List Bytes) (T : Setup → Tool) (tree : List (Bytes × Option Bytes)) (pid : Nat)
    (caches caches' : Bytes → Dir) (status : Nat) (hw : h.written (ascii ".clang-tidy") = none) (hr : Script hash h argv T tree pid caches caches' status) :
    caches' = caches ∧ status = 1 := by
  rcases C94_own_directory hash h argv T tree pid caches caches' status hr with ⟨_, h1, h2⟩ | ⟨_, _, hn, _⟩
  · exact ⟨h1, h2⟩
  · exact absurd (Or.inr (Or.inl hw)) hn

/-- The hypotheses of `C94_defect_no_cores`. -/
example : ∃ h : Host, ¬ Refuses h ∧ h.getenv (ascii "CLANG_TIDY_JOBS") = none ∧ h.cores = 0 :=
  ⟨{ sampleHost with getenv := fun _ => none, cores := 0 }, by unfold Refuses; decide, rfl, rfl⟩

end Verif.Props
