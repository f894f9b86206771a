import Verif.Props.C99
import Verif.Props.C97
/-! # C100: trouble reading the database

Wanted: when part of the database cannot be read, the user is told — by the status or on standard error.  The program does not do so
(`C100_defect`): the walk over the directory stops at the first directory that fails, without a word, and files of a tile type that cannot
be opened count as if there were no such type.  What holds is that everything a successful run needed was read (`C100_needed_partial`,
`C100_main_files`), and that the trouble did not change its output (C99). -/
namespace Verif.Props
open Verif.Db Verif.Spec Verif.Text Verif.Asm Verif.Xc7

/-- Loading succeeds only if the five main files of the part can be read. -/
theorem C100_main_files (env : Env) (load : LoadOrder) (root : Path) (name : Bytes) (db : PartDatabase)
    (h : parseDatabase env load root name = .ok db) :
    env.read (root ++ [bytes!"mapping", bytes!"parts.yaml"]) ≠ none ∧ env.read (root ++ [bytes!"mapping", bytes!"devices.yaml"]) ≠ none ∧
    (∃ fabric, env.read (root ++ [fabric, bytes!"tilegrid.json"]) ≠ none) ∧ env.read (root ++ [name, bytes!"part.json"]) ≠ none ∧
    env.read (root ++ [name, bytes!"package_pins.csv"]) ≠ none := by
  obtain ⟨info, grid, paths, part, pins, h1, h2, _, h4, h5, _⟩ := parseDatabase_iff.1 h
  unfold parsePartInfo at h1
  refine ⟨?_, ?_, ⟨info.fabric, ?_⟩, ?_, ?_⟩
  · intro e
    have e : env.read (root ++ [kMapping, kPartsYaml]) = none := e
    rw [e] at h1; cases h1
  · intro e
    have e : env.read (root ++ [kMapping, kDevicesYaml]) = none := e
    rw [e] at h1
    split at h1 <;> cases h1
  · intro e
    have e : env.read (root ++ [info.fabric, kTilegrid]) = none := e
    unfold parseJsonFile at h2
    rw [e] at h2; cases h2
  · intro e
    have e : env.read (root ++ [name, kPartJson]) = none := e
    unfold parseJsonFile at h4
    rw [e] at h4; cases h4
  · intro e
    have e : env.read (root ++ [name, kPackagePins]) = none := e
    unfold parseFile at h5
    rw [e] at h5; cases h5

/-- A tile type that was loaded: its `tile_type_T.json` was found, and each of its three files that exists was read. -/
private theorem loaded_type {env : Env} {root : Path} {m : List (Bytes × DbPaths)} (hm : indexTileTypes env root = .ok m) {T : Bytes} {sb : SegBits}
    (h : tilesDatabase env m T = .ok (some sb)) :
    ∃ entries dir, env.listing root = some entries ∧ FirstTypeDir entries T dir ∧
      ∀ p ∈ [segbitsFile (lowerCase T), blockRamFile (lowerCase T), ppipsFile (lowerCase T)],
        env.fileExists (dir ++ [p]) = true → env.read (dir ++ [p]) ≠ none := by
  cases hd : m.lookup T with
  | none => unfold tilesDatabase at h; rw [hd] at h; cases h
  | some d =>
    cases hl : env.listing root with
    | none => unfold indexTileTypes at hm; rw [hl] at hm; cases hm
    | some entries =>
      obtain ⟨dir, h1, f1, f2, f3⟩ := (C44_index env root entries m hl hm T d).1 hd
      obtain ⟨l1, l2, _, l3⟩ := C44_loaded env m T d sb hd h
      have key : ∀ {α : Type} {parse : Option UInt8 → Bytes → Outcome α} {p : Path} {o : Option Path} {r : Option α},
          FileIfPresent env p o → LoadedFrom env parse o r → env.fileExists p = true → env.read p ≠ none := by
        intro α parse p o r hf hlo he
        rcases hf with ⟨_, rfl⟩ | ⟨h0, _⟩
        · rcases hlo with ⟨h2, _⟩ | ⟨q, c, a, h2, h3, _⟩
          · cases h2
          · cases h2; rw [h3]; simp
        · rw [h0] at he; cases he
      refine ⟨entries, dir, rfl, h1, ?_⟩
      intro p hp he
      simp only [List.mem_cons, List.not_mem_nil, or_false] at hp
      rcases hp with rfl | rfl | rfl
      · exact key f1 l1 he
      · exact key f2 l2 he
      · rcases l3 with ⟨l3, _⟩ | l3
        · rcases f3 with ⟨_, f3⟩ | ⟨f3, _⟩
          · rw [l3] at f3; cases f3
          · rw [f3] at he; cases he
        · exact key f3 l3 he

/-- **Everything a successful run needed was read**: for every statement of the design (written or added) and every bit it asks for, the
tile type of the tile was found below the directory and all its files were read.  Missing: that trouble with the other files and
directories is reported. -/
theorem C100_needed_partial (env : Env) (load : LoadOrder) (hload : LoadOk load) (ord : HashOrder) (hord : Permutes ord) (inv : Invocation)
    (out o : OStream) (fuel : Nat) (h : Asm.main env load ord inv out fuel = some (.ok (0, o))) (db : PartDatabase) (text : Bytes)
    (hst : Starts env load inv db text) (F : FasmFeature) (hF : Design db.tiles text F)
    (tile feature : Bytes) (addr : Nat) (ha : Asks F tile feature addr) :
    ∃ path t ty f entries dir, Setting inv.dbFlag inv.dbEnv path ∧ db.tiles.grid.lookup tile = some t ∧ KnownAs t feature ty f ∧
      env.listing [path] = some entries ∧ FirstTypeDir entries ty dir ∧
      ∀ p ∈ [segbitsFile (lowerCase ty), blockRamFile (lowerCase ty), ppipsFile (lowerCase ty)],
        env.fileExists (dir ++ [p]) = true → env.read (dir ++ [p]) ≠ none := by
  rcases C58_stages_partial env load ord inv out o fuel 0 h with ⟨h, _⟩ | ⟨_, db1, text1, db', frames, hs1, hasm, _⟩
  · cases h
  obtain ⟨_, _, hi, path, hp1, hp2, hp3, hp4⟩ := id hst
  obtain ⟨_, _, hi1, path1, hq1, _, _, hq4⟩ := hs1
  have e1 : path1 = path := by
    have h1 := (C61_setting _ _ _).2 hp1
    rw [(C61_setting _ _ _).2 hq1] at h1
    exact Outcome.ok.inj h1
  subst e1
  have e2 : text1 = text := by
    have h1 := (inputText_iff _ _).2 hi
    rw [(inputText_iff _ _).2 hi1] at h1
    exact Option.some.inj h1
  subst e2
  have e3 : db1 = db := by
    rw [hp4] at hq4
    exact (Outcome.ok.inj hq4).symm
  subst e3
  obtain ⟨hok, hfresh⟩ := C45_loaded env load hload _ _ db1 hp4
  obtain ⟨_, _, hall, _⟩ := (C50_succeeds hok ord hord _ _ hfresh).1 ⟨_, hasm⟩
  obtain ⟨bits, ⟨t, ty, f, sb, h1, h2, h3, _⟩, _⟩ := (hall F hF).2.2 tile feature addr ha
  obtain ⟨info, grid, paths, part, pins, _, _, g3, _, _, rfl⟩ := parseDatabase_iff.1 hp4
  obtain ⟨entries, dir, g1, g2, g4⟩ := loaded_type g3 h3
  exact ⟨path1, t, ty, f, entries, dir, hp1, h1, h2, g1, g2, g4⟩

/-! ## The defect -/

/-- The example directory as a tree, with a directory that fails. -/
def troubleTree : Contents :=
  .cons bytes!"f" (.dir <| .cons (tileTypeFile bytes!"X") .file .nil) <| .cons bytes!"z" (.dir .failed) <|
  .cons bytes!"y" (.dir <| .cons (tileTypeFile bytes!"Y") .file .nil) .nil

def troubleEnv : Env := { fileEnv with listing := fun root => treeListing root troubleTree }

theorem trouble_database : parseDatabase troubleEnv sameLoad [bytes!"d"] bytes!"p" = .ok ⟨fileTiles, []⟩ := by
  have h1 : parsePartInfo troubleEnv [bytes!"d"] bytes!"p" = .ok ⟨bytes!"d", bytes!"f", bytes!"k", bytes!"1"⟩ := by decide +kernel
  have h2 : indexTileTypes troubleEnv [bytes!"d"] = .ok filePaths := by decide +kernel
  have h3 : parseJsonFile troubleEnv parseTileGrid ([bytes!"d"] ++ [bytes!"f", kTilegrid]) = .ok [(bytes!"T", fileT)] := file_grid
  have h4 : parseJsonFile troubleEnv parsePart ([bytes!"d"] ++ [bytes!"p", kPartJson]) = .ok smallDesc := file_part
  have h5 : parseFile troubleEnv parsePackagePins ([bytes!"d"] ++ [bytes!"p", kPackagePins]) = .ok [] := rfl
  unfold parseDatabase
  rw [h1, Outcome.bind_ok]
  dsimp only
  rw [h3, Outcome.bind_ok, h2, Outcome.bind_ok, h4, Outcome.bind_ok, h5, Outcome.bind_ok]
  rfl

/-- A directory below the database fails, the tile type `Y` is lost: status 0, and not a word on standard error. -/
theorem C100_defect (x : Texts) : Broken troubleTree ∧ FileAt troubleTree [bytes!"y", tileTypeFile bytes!"Y"] ∧
    (∀ root, troubleEnv.listing root = treeListing root troubleTree) ∧ fileTiles.bits bytes!"Y" = .ok none ∧
    ∃ fuel0, ∀ fuel ≥ fuel0, ∃ o, mainM x troubleEnv sameLoad sameOrder fileInv ⟨[], 0, true, false⟩ fuel = some (.ok (0, o, [])) := by
  refine ⟨.later _ _ (.inside _ _ .here), .later _ _ (.later _ _ (.inside _ _ (.here _ _))), fun _ => rfl, by decide +kernel, ?_⟩
  obtain ⟨_, _, fuel0, hrun⟩ := file_example
  refine ⟨fuel0, fun fuel hf => ?_⟩
  obtain ⟨o, _, h1, _⟩ := hrun fuel hf
  have hst : Starts troubleEnv sameLoad fileInv ⟨fileTiles, []⟩ bytes!"T.F\n" :=
    ⟨by decide, by decide, Or.inr ⟨fun _ _ h => by simp [fileInv] at h, rfl⟩, bytes!"d", Or.inr ⟨rfl, rfl⟩, by decide, by decide,
      trouble_database⟩
  have h2 : Asm.main troubleEnv sameLoad sameOrder fileInv ⟨[], 0, true, false⟩ fuel = some (.ok (0, o)) := by
    rcases C58_stages_partial fileEnv sameLoad sameOrder fileInv _ o fuel 0 h1 with ⟨h, _⟩ | ⟨_, db1, text1, db', frames, hs1, hasm, henc⟩
    · cases h
    obtain ⟨_, _, hi1, path1, hq1, _, _, hq4⟩ := hs1
    have e1 : path1 = bytes!"d" := by
      have h1 := (C61_setting _ _ _).2 hq1
      exact (Outcome.ok.inj h1).symm
    subst e1
    have e2 : text1 = bytes!"T.F\n" := by
      have h1 := (inputText_iff _ _).2 hi1
      exact (Option.some.inj h1).symm
    subst e2
    rw [show fileInv.part = bytes!"p" from rfl, file_database] at hq4
    have e3 := Outcome.ok.inj hq4
    subst e3
    exact C58_success troubleEnv sameLoad sameOrder fileInv _ o fuel _ _ hst db' frames hasm henc
  obtain ⟨err, h3⟩ := (C96_ends x troubleEnv sameLoad sameOrder fileInv _ o fuel 0).1 h2
  refine ⟨o, ?_⟩
  suffices err = [] by rw [← this]; exact h3
  rcases C96_run x _ _ _ _ _ o fuel 0 err h3 with ⟨h, _⟩ | ⟨_, db, text, ls, hs, hin, hacc, hm⟩
  · cases h
  obtain ⟨_, _, hi1, _⟩ := hs
  have e2 : text = bytes!"T.F\n" := by
    have h1 := (inputText_iff _ _).2 hi1
    exact (Option.some.inj h1).symm
  subst e2
  have els := inputLines_getlines hin
  have e3 : getlines bytes!"T.F\n" = [bytes!"T.F\n"] := by decide
  rw [e3] at els
  subst els
  have h0 : LineMessages 1 bytes!"T.F\n" [] := by
    have h := assembleLineM_says [] bytes!"T.F\n" (Or.inl ⟨bytes!"T.F", rfl, by decide⟩) (by decide) (by decide)
    have e0 : (assembleLineM [] bytes!"T.F\n").1 = [] := by decide +kernel
    rw [e0] at h
    exact h
  cases hm with
  | cons h1 t1 =>
    cases t1
    rename_i a
    have ha0 : a = [] := List.eq_nil_of_length_eq_zero (accepted_length (hacc _ List.mem_cons_self) h1 h0)
    subst ha0
    rfl

end Verif.Props
