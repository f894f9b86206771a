import Verif.Model.Exists
import Verif.Spec.Exists
import Verif.Props.C125
/-! # C131: questions the system does not answer -/
namespace Verif.Props
open Verif.Db Verif.Asm Verif.Spec Verif.Text Verif.Xc7

variable {refuses : Path → Bool} {env : Env}

/-- The four files asked about, in order. -/
def askedNames (T : Bytes) : List Bytes :=
  [segbitsFile (lowerCase T), blockRamFile (lowerCase T), ppipsFile (lowerCase T), maskFile (lowerCase T)]

theorem ifExistsT_eq (p : Path) : ifExistsT refuses env p = if refuses p then .abort else .ok (ifExists env p) := by
  unfold ifExistsT existsT ifExists
  cases refuses p <;> rfl

theorem databasePathsT_eq (dir : Path) (T : Bytes) :
    databasePathsT refuses env (dir ++ [tileTypeFile T]) =
      if (askedNames T).any (fun n => refuses (dir ++ [n])) then .abort else .ok (databasePaths env (dir ++ [tileTypeFile T])) := by
  have hT : ((tileTypeFile T).drop tileTypePrefix.length).take
      ((tileTypeFile T).length - tileTypePrefix.length - jsonSuffix.length) = T := by
    have := congrArg Prod.fst (databasePaths_eq env dir T)
    unfold databasePaths at this
    simpa using this
  have hl : T.map toLower = lowerCase T := map_toLower T
  rw [databasePaths_eq]
  unfold databasePathsT
  simp only [List.getLast?_append, List.getLast?_singleton, Option.some_or, Option.getD_some, List.dropLast_concat]
  rw [hT, hl]
  simp only [ifExistsT_eq]
  show (if refuses (dir ++ [segbitsFile (lowerCase T)]) then Outcome.abort else _) >>= (fun segbits =>
    (if refuses (dir ++ [blockRamFile (lowerCase T)]) then Outcome.abort else _) >>= (fun blockRam =>
    (if refuses (dir ++ [ppipsFile (lowerCase T)]) then Outcome.abort else _) >>= (fun ppips =>
    (if refuses (dir ++ [maskFile (lowerCase T)]) then Outcome.abort else _) >>= fun _ => _))) = _
  simp only [askedNames, List.any_cons, List.any_nil, Bool.or_false]
  cases refuses (dir ++ [segbitsFile (lowerCase T)]) <;> cases refuses (dir ++ [blockRamFile (lowerCase T)]) <;>
    cases refuses (dir ++ [ppipsFile (lowerCase T)]) <;> cases refuses (dir ++ [maskFile (lowerCase T)]) <;> rfl

/-- A step of `indexTileTypes`. -/
def indexStep (env : Env) (m : List (Bytes × DbPaths)) (e : Path × Bool) : List (Bytes × DbPaths) :=
  let filename := e.1.getLast?.getD []
  if e.2 && startsWith tileTypePrefix filename && jsonSuffix.isSuffixOf filename then
    let p := databasePaths env e.1
    insertNew m p.1 p.2
  else m

/-- The entry makes the program ask a question that is not answered. -/
def EntryRefused (refuses : Path → Bool) (e : Path × Bool) : Prop :=
  ∃ dir T name, e = (dir ++ [tileTypeFile T], true) ∧ name ∈ askedNames T ∧ refuses (dir ++ [name]) = true

theorem indexStepT_eq (m : List (Bytes × DbPaths)) (e : Path × Bool) :
    (EntryRefused refuses e ∧ indexStepT refuses env m e = .abort) ∨
    (¬ EntryRefused refuses e ∧ indexStepT refuses env m e = .ok (indexStep env m e)) := by
  by_cases hc : (e.2 && startsWith tileTypePrefix (e.1.getLast?.getD []) && jsonSuffix.isSuffixOf (e.1.getLast?.getD [])) = true
  · obtain ⟨d, hd⟩ : ∃ d, typeEntry env e = some d := ⟨databasePaths env e.1, by unfold typeEntry; rw [hc]; rfl⟩
    obtain ⟨T, d⟩ := d
    obtain ⟨dir, rfl, _⟩ := (typeEntry_iff env e T d).1 hd
    have h1 : indexStepT refuses env m (dir ++ [tileTypeFile T], true) =
        databasePathsT refuses env (dir ++ [tileTypeFile T]) >>= fun p => .ok (insertNew m p.1 p.2) := by
      unfold indexStepT; dsimp only; rw [if_pos hc]
    have h2 : indexStep env m (dir ++ [tileTypeFile T], true) =
        insertNew m (databasePaths env (dir ++ [tileTypeFile T])).1 (databasePaths env (dir ++ [tileTypeFile T])).2 := by
      unfold indexStep; dsimp only; rw [if_pos hc]
    rw [h1, h2, databasePathsT_eq]
    cases hr : (askedNames T).any (fun n => refuses (dir ++ [n])) with
    | true =>
      obtain ⟨n, hn, hn'⟩ := List.any_eq_true.1 hr
      exact Or.inl ⟨⟨dir, T, n, rfl, hn, hn'⟩, rfl⟩
    | false =>
      refine Or.inr ⟨?_, rfl⟩
      rintro ⟨dir', T', n, h3, hn, hn'⟩
      have h4 := List.append_inj' (Prod.mk.inj h3).1 rfl
      have h5 : T = T' := by
        have := (List.cons.inj h4.2).1
        unfold tileTypeFile at this
        exact List.append_cancel_left (List.append_cancel_right this)
      rw [← h4.1] at hn'
      rw [← h5] at hn
      have := List.any_eq_false.1 hr n hn
      exact this hn'
  · refine Or.inr ⟨?_, ?_⟩
    · rintro ⟨dir, T, n, rfl, _⟩
      refine hc ?_
      have := (typeName_iff (tileTypeFile T)).2 ⟨T, rfl⟩
      simpa using this
    · unfold indexStepT indexStep
      dsimp only
      rw [if_neg hc, if_neg hc]

theorem indexFoldT (entries : List (Path × Bool)) (m : List (Bytes × DbPaths)) :
    ((∃ e ∈ entries, EntryRefused refuses e) → entries.foldlM (indexStepT refuses env) m = .abort) ∧
    ((∀ e ∈ entries, ¬ EntryRefused refuses e) → entries.foldlM (indexStepT refuses env) m = .ok (entries.foldl (indexStep env) m)) := by
  induction entries generalizing m with
  | nil => exact ⟨(by rintro ⟨e, h, _⟩; cases h), fun _ => rfl⟩
  | cons e es ih =>
    rw [List.foldlM_cons]
    rcases indexStepT_eq (refuses := refuses) (env := env) m e with ⟨h1, h2⟩ | ⟨h1, h2⟩
    · rw [h2]
      exact ⟨fun _ => rfl, fun h => absurd h1 (h e (List.mem_cons_self ..))⟩
    · rw [h2]
      refine ⟨?_, ?_⟩
      · rintro ⟨x, hx, hr⟩
        rcases List.mem_cons.1 hx with rfl | hx
        · exact absurd hr h1
        · exact (ih _).1 ⟨x, hx, hr⟩
      · intro h
        exact (ih _).2 fun x hx => h x (List.mem_cons_of_mem _ hx)

theorem askedNames_iff (T name : Bytes) : name ∈ askedNames T ↔ name = segbitsFile (lowerCase T) ∨ name = blockRamFile (lowerCase T) ∨
    name = ppipsFile (lowerCase T) ∨ name = maskFile (lowerCase T) := by
  simp [askedNames]

/-- Some question about a file of a tile type is not answered. -/
def IndexRefused (refuses : Path → Bool) (env : Env) (root : Path) : Prop := ∃ p, AsksAbout env root p ∧ refuses p = true

theorem index_abort {root : Path} (h : IndexRefused refuses env root) : indexTileTypesT refuses env root = .abort := by
  obtain ⟨p, ⟨entries, dir, T, name, h1, h2, rfl, h3⟩, h4⟩ := h
  unfold indexTileTypesT
  rw [h1]
  exact (indexFoldT entries []).1 ⟨_, h2, dir, T, name, rfl, (askedNames_iff T name).2 h3, h4⟩

theorem index_same {root : Path} (h : ¬ IndexRefused refuses env root) : indexTileTypesT refuses env root = indexTileTypes env root := by
  unfold indexTileTypesT indexTileTypes
  cases hl : env.listing root with
  | none => rfl
  | some entries =>
    refine (indexFoldT entries []).2 fun e he => ?_
    rintro ⟨dir, T, name, rfl, h1, h2⟩
    exact h ⟨_, ⟨entries, dir, T, name, hl, he, rfl, (askedNames_iff T name).1 h1⟩, h2⟩

theorem gridLoads_iff (root : Path) (part : Bytes) : GridLoads env root part ↔
    ∃ info grid, parsePartInfo env root part = .ok info ∧ parseJsonFile env parseTileGrid (root ++ [info.fabric, kTilegrid]) = .ok grid := by
  constructor
  · rintro ⟨info, grid, h1, c, j, h2, h3, h4⟩
    refine ⟨info, grid, (table_lookup h1).1 info rfl, ?_⟩
    unfold parseJsonFile
    have h2' : env.read (root ++ [info.fabric, kTilegrid]) = some c := h2
    rw [h2']
    dsimp only
    rw [h3]
    exact (C73_grid j grid).2 h4
  · rintro ⟨info, grid, h1, h2⟩
    refine ⟨info, grid, table_of_info h1, ?_⟩
    unfold parseJsonFile at h2
    cases hr : env.read (root ++ [info.fabric, kTilegrid]) with
    | none => rw [hr] at h2; cases h2
    | some c =>
      rw [hr] at h2
      dsimp only at h2
      cases hj : env.json c.1 with
      | none => rw [hj] at h2; cases h2
      | some j =>
        rw [hj] at h2
        exact ⟨c, j, hr, hj, (C73_grid j grid).1 h2⟩

theorem database_abort {load : LoadOrder} {root : Path} {part : Bytes} (h : GridLoads env root part) (h1 : IndexRefused refuses env root) :
    parseDatabaseT refuses env load root part = .abort := by
  obtain ⟨info, grid, h2, h3⟩ := (gridLoads_iff root part).1 h
  unfold parseDatabaseT
  rw [h2]
  show (parseJsonFile env parseTileGrid (root ++ [info.fabric, kTilegrid]) >>= _) = _
  rw [h3]
  show (indexTileTypesT refuses env root >>= _) = _
  rw [index_abort h1]
  rfl

theorem database_same {load : LoadOrder} {root : Path} {part : Bytes} (h : ¬ (GridLoads env root part ∧ IndexRefused refuses env root)) :
    parseDatabaseT refuses env load root part = parseDatabase env load root part := by
  by_cases hi : IndexRefused refuses env root
  · unfold parseDatabaseT parseDatabase
    cases h1 : parsePartInfo env root part with
    | err => rfl
    | abort => rfl
    | ub => rfl
    | ok info =>
      show (parseJsonFile env parseTileGrid (root ++ [info.fabric, kTilegrid]) >>= _) = (parseJsonFile env parseTileGrid (root ++ [info.fabric, kTilegrid]) >>= _)
      cases h2 : parseJsonFile env parseTileGrid (root ++ [info.fabric, kTilegrid]) with
      | err => rfl
      | abort => rfl
      | ub => rfl
      | ok grid => exact absurd ⟨(gridLoads_iff root part).2 ⟨info, grid, h1, h2⟩, hi⟩ h
  · unfold parseDatabaseT parseDatabase
    rw [index_same hi]

variable (load : LoadOrder) (ord : HashOrder) (inv : Invocation) (out : OStream) (fuel : Nat)

/-- A question that is not answered ends the program. -/
theorem C131_throws (h : NoAnswer refuses env inv) : mainT refuses env load ord inv out fuel = some .abort := by
  cases h with
  | directory path h h1 h2 h3 =>
    unfold mainT
    rw [if_neg (Nat.not_lt.2 h), (C61_setting _ _ _).2 h1]
    dsimp only
    rw [if_neg h2]
    unfold existsT
    rw [if_pos h3]
  | file path p h h1 h2 h3 h4 =>
    obtain ⟨a, b, c, d, e⟩ := h
    unfold mainT
    rw [if_neg (Nat.not_lt.2 a), (C61_setting _ _ _).2 b]
    dsimp only
    rw [if_neg c]
    unfold existsT
    rw [h1, if_neg (by decide), d]
    dsimp only
    rw [if_neg e, database_abort h2 ⟨p, h3, h4⟩]

/-- If all are answered, the program is the one that cannot be refused an answer. -/
theorem C131_answered (h : ¬ NoAnswer refuses env inv) : mainT refuses env load ord inv out fuel = main env load ord inv out fuel := by
  unfold mainT main
  by_cases a : inv.args.length > 2
  · rw [if_pos a, if_pos a]
  rw [if_neg a, if_neg a]
  cases b : getOptFlagOrFromEnv inv.dbFlag inv.dbEnv with
  | err => rfl
  | abort => rfl
  | ub => rfl
  | ok path =>
    dsimp only
    by_cases c : path = []
    · rw [if_pos c, if_pos (Or.inl c)]
    rw [if_neg c]
    have hs := (C61_setting _ _ _).1 b
    have hr : refuses [path] = false := by
      cases hr : refuses [path] with
      | false => rfl
      | true => exact absurd (.directory path (Nat.not_lt.1 a) hs c hr) h
    unfold existsT
    rw [hr, if_neg (by decide)]
    cases d : env.fileExists [path] with
    | false => rw [if_pos (Or.inr rfl)]
    | true =>
      rw [if_neg (fun h : path = [] ∨ true = false => h.elim c (fun h => by cases h))]
      dsimp only
      by_cases e : inv.part = []
      · rw [if_pos e, if_pos e]
      have hn : ¬ (GridLoads env [path] inv.part ∧ IndexRefused refuses env [path]) := by
        rintro ⟨h1, p, h2, h3⟩
        exact h (.file path p ⟨Nat.not_lt.1 a, hs, c, d, e⟩ hr h1 h2 h3)
      rw [if_neg e, if_neg e, database_same hn]
      cases parseDatabase env load [path] inv.part <;> rfl

/-- A bitstream is written exactly if every question is answered and the design assembles. -/
theorem C131_success (o : OStream) : mainT refuses env load ord inv out fuel = some (.ok (0, o)) ↔
    ¬ NoAnswer refuses env inv ∧ main env load ord inv out fuel = some (.ok (0, o)) := by
  by_cases h : NoAnswer refuses env inv
  · rw [C131_throws load ord inv out fuel h]
    exact ⟨fun h => (by cases h), fun h1 => absurd h h1.1⟩
  · rw [C131_answered load ord inv out fuel h]
    exact ⟨fun h1 => ⟨h, h1⟩, fun h1 => h1.2⟩

/-- The same for every other end: nothing but being terminated is added. -/
theorem C131_ends (r : Outcome (Nat × OStream)) (hr : r ≠ .abort) : mainT refuses env load ord inv out fuel = some r ↔
    ¬ NoAnswer refuses env inv ∧ main env load ord inv out fuel = some r := by
  by_cases h : NoAnswer refuses env inv
  · rw [C131_throws load ord inv out fuel h]
    exact ⟨fun h => absurd (Option.some.inj h).symm hr, fun h1 => absurd h h1.1⟩
  · rw [C131_answered load ord inv out fuel h]
    exact ⟨fun h1 => ⟨h, h1⟩, fun h1 => h1.2⟩

/-! ## What the file system would have said does not matter -/

theorem mainT_fileExists (f : Path → Bool) (hf : ∀ p, refuses p = false → f p = env.fileExists p) :
    mainT refuses { env with fileExists := f } load ord inv out fuel = mainT refuses env load ord inv out fuel := by
  have h1 : ∀ p, existsT refuses { env with fileExists := f } p = existsT refuses env p := by
    intro p
    unfold existsT
    cases hr : refuses p with
    | true => rfl
    | false => show Outcome.ok (f p) = _; rw [hf p hr]; rfl
  have h2 : ∀ p, databasePathsT refuses { env with fileExists := f } p = databasePathsT refuses env p := by
    intro p
    unfold databasePathsT ifExistsT
    simp only [h1]
  have h3 : indexStepT refuses { env with fileExists := f } = indexStepT refuses env := by
    funext m e
    unfold indexStepT
    simp only [h2]
  have h4 : ∀ root, indexTileTypesT refuses { env with fileExists := f } root = indexTileTypesT refuses env root := by
    intro root
    unfold indexTileTypesT
    rw [h3]
  have h5 : ∀ root, parseDatabaseT refuses { env with fileExists := f } load root inv.part = parseDatabaseT refuses env load root inv.part := by
    intro root
    unfold parseDatabaseT
    rw [h4]
    rfl
  unfold mainT
  simp only [h1, h5]

/-- What would have been the answer to a question that is not answered is irrelevant. -/
theorem C131_no_guess (f : Path → Bool) (hf : ∀ p, refuses p = false → f p = env.fileExists p) :
    mainT refuses { env with fileExists := f } load ord inv out fuel = mainT refuses env load ord inv out fuel :=
  mainT_fileExists load ord inv out fuel f hf

/-! ## Long names -/

theorem asked_length (T name : Bytes) (h : name = segbitsFile (lowerCase T) ∨ name = blockRamFile (lowerCase T) ∨
    name = ppipsFile (lowerCase T) ∨ name = maskFile (lowerCase T)) : name.length ≤ T.length + 21 := by
  have hl : (lowerCase T).length = T.length := List.length_map ..
  rcases h with rfl | rfl | rfl | rfl <;>
    simp [segbitsFile, blockRamFile, ppipsFile, maskFile, hl]

theorem blockRam_length (T : Bytes) : (blockRamFile (lowerCase T)).length = T.length + 21 := by
  have hl : (lowerCase T).length = T.length := List.length_map ..
  simp [blockRamFile, hl]

/-- If long names are all the system objects to, and no name in the directory is too long, an unanswered question is one for
a tile type with a name of 235 bytes or more: `segbits_T.block_ram.db` is longer than `tile_type_T.json`. -/
theorem C131_long_names {path : Bytes} (hreal : RealListing env path) :
    (∃ p, AsksAbout env [path] p ∧ longName p = true) ↔
      ∃ entries dir T, env.listing [path] = some entries ∧ (dir ++ [tileTypeFile T], true) ∈ entries ∧ 235 ≤ T.length := by
  constructor
  · rintro ⟨p, ⟨entries, dir, T, name, h1, h2, rfl, h3⟩, h4⟩
    refine ⟨entries, dir, T, h1, h2, ?_⟩
    obtain ⟨r, hne, hr, hl⟩ := hreal entries h1 _ h2
    have hlast : tileTypeFile T ∈ dir ++ [tileTypeFile T] := by simp
    have hlen := asked_length T name h3
    cases dir with
    | nil =>
      simp [longName] at h4
    | cons d ds =>
      have hr' : ds ++ [tileTypeFile T] = r := (List.cons.inj hr).2
      unfold longName at h4
      obtain ⟨c, hc, hc'⟩ := List.any_eq_true.1 h4
      have hc : c ∈ ds ++ [name] := hc
      have hc' : 255 < c.length := of_decide_eq_true hc'
      rcases List.mem_append.1 hc with hm | hm
      · have := hl c (by rw [← hr']; exact List.mem_append_left _ hm)
        omega
      · rw [List.mem_singleton.1 hm] at hc'
        omega
  · rintro ⟨entries, dir, T, h1, h2, h3⟩
    obtain ⟨r, hne, hr, hl⟩ := hreal entries h1 _ h2
    refine ⟨dir ++ [blockRamFile (lowerCase T)], ⟨entries, dir, T, _, h1, h2, rfl, Or.inr (Or.inl rfl)⟩, ?_⟩
    have hb := blockRam_length T
    cases dir with
    | nil =>
      exact absurd (List.cons.inj hr).2.symm hne
    | cons d ds =>
      unfold longName
      exact List.any_eq_true.2 ⟨blockRamFile (lowerCase T), by simp, decide_eq_true (by omega)⟩

/-! ## A design that assembles, in a directory that has another tile type with a long name -/

/-- 235 letters. -/
def longType : Bytes := List.replicate 235 0x5a

/-- The directory of C66, and in it `tile_type_ZZ….json`. -/
def longEnv : Env :=
  { fileEnv with
    listing := fun _ => some [([bytes!"d", bytes!"f", tileTypeFile bytes!"X"], true), ([bytes!"d", bytes!"f", tileTypeFile longType], true)] }

theorem long_real : RealListing longEnv bytes!"d" := by
  intro entries h e he
  cases h
  simp only [List.mem_cons, List.not_mem_nil, or_false] at he
  rcases he with rfl | rfl
  · exact ⟨_, by decide, rfl, by decide +kernel⟩
  · exact ⟨[bytes!"f", tileTypeFile longType], by simp, rfl, by decide +kernel⟩

theorem long_first (dir : Path) : FirstTypeDir [([bytes!"d", bytes!"f", tileTypeFile bytes!"X"], true)] bytes!"X" dir ↔
    FirstTypeDir [([bytes!"d", bytes!"f", tileTypeFile bytes!"X"], true), ([bytes!"d", bytes!"f", tileTypeFile longType], true)] bytes!"X" dir := by
  constructor
  · intro h
    have := first_small h
    subst this
    exact ⟨[], _, rfl, fun e he => by cases he⟩
  · rintro ⟨pre, post, h, h'⟩
    cases pre with
    | nil =>
      have h := congrArg List.dropLast (congrArg Prod.fst (List.cons.inj h).1)
      rw [List.dropLast_concat] at h
      have h : [bytes!"d", bytes!"f"] = dir := h
      subst h
      exact ⟨[], [], rfl, fun e he => by cases he⟩
    | cons e pre => exact absurd (List.cons.inj h).1.symm (h' e (List.mem_cons_self ..) [bytes!"d", bytes!"f"])

theorem long_info : parsePartInfo fileEnv [bytes!"d"] fileInv.part = .ok ⟨bytes!"d", bytes!"f", bytes!"k", bytes!"1"⟩ := by decide +kernel

theorem long_needed : NeededByRun fileEnv longEnv sameLoad fileInv := by
  intro path hp
  have : path = bytes!"d" := by
    rcases hp with ⟨h, _⟩ | ⟨_, h⟩
    cases h
    rfl
  subst this
  have types : ∀ T, (∃ db text, Starts fileEnv sameLoad fileInv db text ∧ NamesType db.tiles text T) → T = bytes!"X" := by
    rintro T ⟨db, text, hs, h⟩
    obtain ⟨rfl, rfl⟩ := starts_unique hs file_starts
    exact names_only h
  exact
    { json_eq := rfl
      junk_eq := rfl
      root_eq := rfl
      parts := rfl
      devices := rfl
      grid := fun _ _ => rfl
      part := rfl
      pins := rfl
      listed := ⟨fun h => (by cases h), fun h => (by cases h)⟩
      dirs := by
        intro entries entries' h h' T hT dir
        cases h; cases h'
        rw [types T hT]
        exact long_first dir
      files := fun _ _ _ _ _ _ => ⟨⟨rfl, fun _ => rfl⟩, ⟨rfl, fun _ => rfl⟩, ⟨rfl, fun _ => rfl⟩⟩ }

theorem long_grid : GridLoads longEnv [bytes!"d"] fileInv.part := by
  rw [gridLoads_iff]
  exact ⟨_, _, long_info, file_grid⟩

theorem long_noAnswer : NoAnswer longName longEnv fileInv := by
  obtain ⟨p, h1, h2⟩ := (C131_long_names long_real).2 ⟨_, [bytes!"d", bytes!"f"], longType, rfl, by simp, by decide +kernel⟩
  exact .file bytes!"d" p ⟨by decide, Or.inr ⟨rfl, rfl⟩, by decide, by decide +kernel, by decide⟩ (by decide) long_grid h1 h2

/-- The names in the directory are all of a length that is allowed, the design uses none of the tile type with the long name, and
if all questions were answered it would be assembled — but the program is terminated. -/
theorem C131_terminated : RealListing longEnv bytes!"d" ∧
    (∃ fuel o, main longEnv sameLoad sameOrder fileInv ⟨[], 0, true, false⟩ fuel = some (.ok (0, o))) ∧
    ∀ fuel, mainT longName longEnv sameLoad sameOrder fileInv ⟨[], 0, true, false⟩ fuel = some .abort := by
  refine ⟨long_real, ?_, fun fuel => C131_throws _ _ _ _ fuel long_noAnswer⟩
  obtain ⟨p, _, fuel, h⟩ := file_example
  obtain ⟨o, c, h1, _⟩ := h fuel (Nat.le_refl _)
  exact ⟨fuel, o, (C125_program long_needed sameLoad_ok sameOrder sameOrder sameOrder_permutes sameOrder_permutes _ o fuel).1 h1⟩

/-- In the directory of C66 all questions are answered. -/
theorem file_answered : ¬ NoAnswer longName fileEnv fileInv := by
  intro h
  cases h with
  | directory path h h1 h2 h3 =>
    rcases h1 with h1 | ⟨_, h1⟩
    · cases h1
    · cases h1; exact absurd h3 (by decide)
  | file path p h h1 h2 h3 h4 =>
    have : path = bytes!"d" := by
      rcases h.2.1 with h1 | ⟨_, h1⟩
      · cases h1
      · cases h1; rfl
    subst this
    have hreal : RealListing fileEnv bytes!"d" := by
      intro entries h e he
      cases h
      simp only [List.mem_cons, List.not_mem_nil, or_false] at he
      subst he
      exact ⟨_, by decide, rfl, by decide +kernel⟩
    obtain ⟨entries, dir, T, g1, g2, g3⟩ := (C131_long_names hreal).1 ⟨p, h3, h4⟩
    cases g1
    have := List.mem_singleton.1 g2
    have e := (List.cons.inj (List.append_inj' (Prod.mk.inj this).1 (s₂ := [bytes!"d", bytes!"f"]) (t₂ := [tileTypeFile bytes!"X"]) rfl).2).1
    have e := congrArg List.length e
    have hT : (tileTypeFile T).length = T.length + 15 := by simp [tileTypeFile]
    rw [hT] at e
    have : (tileTypeFile bytes!"X").length = 16 := by decide
    omega

example : ∃ fuel o, mainT longName fileEnv sameLoad sameOrder fileInv ⟨[], 0, true, false⟩ fuel = some (.ok (0, o)) := by
  obtain ⟨p, _, fuel, h⟩ := file_example
  obtain ⟨o, c, h1, _⟩ := h fuel (Nat.le_refl _)
  exact ⟨fuel, o, (C131_success sameLoad sameOrder fileInv _ fuel o).2 ⟨file_answered, h1⟩⟩

end Verif.Props
