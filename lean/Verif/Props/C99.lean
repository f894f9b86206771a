import Verif.Proofs.Fewer
import Verif.Spec.Lost
import Verif.Props.C98
import Verif.Props.C58_C61
/-! # C99: files of the database that cannot be read fail the run or do not matter -/
namespace Verif.Props
open Verif.Db Verif.Spec Verif.Text Verif.Asm Verif.Xc7

/-- A tile type that cannot be had never changes the frames of a design that assembles without it: with the tile type the frames are the
same, word for word. -/
theorem C99_frames (t t' : Tiles) (hg : t'.grid = t.grid) (hb : t'.banks = t.banks) (hp : t'.part = t.part)
    (hl : ∀ ty, t'.bits ty = t.bits ty ∨ t'.bits ty = .ok none) (ord : HashOrder) (text : Bytes) (frames : Frames) (db' : PartDatabase)
    (fr : Frames) (h : assembleFrames ord text ⟨t', []⟩ frames = .ok (db', fr)) :
    ∃ db, assembleFrames ord text ⟨t, []⟩ frames = .ok (db, fr) := by
  obtain ⟨r, h1, _, _, h2⟩ := assembleFrames_fewer ⟨hg, hb, hp, hl⟩ ord text frames h
  dsimp only at h2
  subst h2
  exact ⟨r.1, h1⟩

section
variable {env env' : Env} (hlost : LostFiles env env')
include hlost

private theorem parseFile_lost {α : Type} (parse : Option UInt8 → Bytes → Outcome α) (p : Path) :
    parseFile env' parse p = parseFile env parse p ∨ parseFile env' parse p = .err := by
  unfold parseFile
  rcases hlost.read p with h | h
  · rw [h]; exact Or.inl rfl
  · rw [h]; exact Or.inr rfl

private theorem parseTileType_lost (d : DbPaths) : parseTileType env' d = parseTileType env d ∨ parseTileType env' d = .err := by
  have hj : env'.junk = env.junk := funext hlost.junk
  unfold parseTileType
  rw [hj]
  have stepr : ∀ {α β : Type} {a a' : Outcome α} {f f' : α → Outcome β}, (a' = a ∨ a' = .err) → (∀ x, f' x = f x ∨ f' x = .err) →
      (a' >>= f') = (a >>= f) ∨ (a' >>= f') = .err := by
    intro α β a a' f f' h1 h2
    rcases h1 with rfl | rfl
    · cases a' with
      | ok x => exact h2 x
      | err => exact Or.inr rfl
      | abort => exact Or.inl rfl
      | ub => exact Or.inl rfl
    · exact Or.inr rfl
  refine stepr ?_ (fun pips => stepr ?_ (fun clb => stepr ?_ (fun ram => Or.inl rfl)))
  · cases d.ppips with
    | none => exact Or.inl rfl
    | some p => exact parseFile_lost hlost _ p
  · cases d.segbits with
    | none => exact Or.inl rfl
    | some p => exact stepr (parseFile_lost hlost _ p) fun _ => Or.inl rfl
  · cases d.blockRam with
    | none => exact Or.inl rfl
    | some p => exact stepr (parseFile_lost hlost _ p) fun _ => Or.inl rfl

private theorem index_lost {root : Path} {m' : List (Bytes × DbPaths)} (h : indexTileTypes env' root = .ok m') :
    ∃ m, indexTileTypes env root = .ok m ∧ ∀ T, m'.lookup T = m.lookup T ∨ m'.lookup T = none := by
  rcases hlost.listing root with h1 | ⟨es, es', h1, h2, h3⟩
  · unfold indexTileTypes at h
    rw [h1] at h
    cases h
  · rcases C44_error env root with ⟨h4, _⟩ | ⟨m, hm⟩
    · rw [h4] at h1; cases h1
    · refine ⟨m, hm, ?_⟩
      intro T
      cases hT : m'.lookup T with
      | none => exact Or.inr rfl
      | some d =>
        left
        obtain ⟨dir, h5, h6⟩ := (C44_index env' root es' m' h2 h T d).1 hT
        refine ((C44_index env root es m h1 hm T d).2 ⟨dir, h3 T dir h5, ?_⟩).symm
        simpa only [FileIfPresent, hlost.fileExists] using h6

private theorem bits_lost {m m' : List (Bytes × DbPaths)} (h : ∀ T, m'.lookup T = m.lookup T ∨ m'.lookup T = none) (T : Bytes) :
    tilesDatabase env' m' T = tilesDatabase env m T ∨ tilesDatabase env' m' T = .ok none := by
  unfold tilesDatabase
  rcases h T with h | h
  · rw [h]
    cases m.lookup T with
    | none => exact Or.inl rfl
    | some d =>
      dsimp only
      rcases parseTileType_lost hlost d with h1 | h1
      · rw [h1]; exact Or.inl rfl
      · rw [h1]; exact Or.inr rfl
  · rw [h]; exact Or.inr rfl

private theorem parseJsonFile_lost {α : Type} (f : Json → Outcome α) (p : Path) {a : α} (h : parseJsonFile env' f p = .ok a) :
    parseJsonFile env f p = .ok a := by
  unfold parseJsonFile at h ⊢
  rcases hlost.read p with h1 | h1
  · rw [h1] at h
    cases hc : env.read p with
    | none => rw [hc] at h; cases h
    | some c =>
      rw [hc] at h
      simp only [hlost.json] at h
      exact h
  · rw [h1] at h; cases h

private theorem partInfo_lost (root : Path) (name : Bytes) {i : PartInfo} (h : parsePartInfo env' root name = .ok i) :
    parsePartInfo env root name = .ok i := by
  unfold parsePartInfo at h ⊢
  rcases hlost.read (root ++ [kMapping, kPartsYaml]) with h1 | h1
  · rw [h1] at h
    rcases hlost.read (root ++ [kMapping, kDevicesYaml]) with h2 | h2
    · rw [h2] at h
      exact h
    · rw [h2] at h
      split at h <;> cases h
  · rw [h1] at h; cases h

/-- A database that loads although part of it cannot be read: in full it loads too, and it is the same but for tile types that cannot be had. -/
theorem C99_database (load : LoadOrder) (root : Path) (name : Bytes) (db' : PartDatabase) (h : parseDatabase env' load root name = .ok db') :
    ∃ db, parseDatabase env load root name = .ok db ∧ db'.tiles.grid = db.tiles.grid ∧ db'.tiles.banks = db.tiles.banks ∧
      db'.tiles.part = db.tiles.part ∧ ∀ ty, db'.tiles.bits ty = db.tiles.bits ty ∨ db'.tiles.bits ty = .ok none := by
  unfold parseDatabase at h ⊢
  obtain ⟨info, h1, h⟩ := Outcome.bind_eq_ok.1 h
  obtain ⟨grid, h2, h⟩ := Outcome.bind_eq_ok.1 h
  obtain ⟨m', h3, h⟩ := Outcome.bind_eq_ok.1 h
  obtain ⟨part, h4, h⟩ := Outcome.bind_eq_ok.1 h
  obtain ⟨pins, h5, h⟩ := Outcome.bind_eq_ok.1 h
  cases h
  obtain ⟨m, h6, h7⟩ := index_lost hlost h3
  have h8 : parseFile env parsePackagePins (root ++ [name, kPackagePins]) = .ok pins := by
    rcases parseFile_lost hlost parsePackagePins (root ++ [name, kPackagePins]) with h8 | h8
    · rw [← h8]; exact h5
    · rw [h8] at h5; cases h5
  rw [partInfo_lost hlost _ _ h1, Outcome.bind_ok, parseJsonFile_lost hlost _ _ h2, Outcome.bind_ok, h6, Outcome.bind_ok,
    parseJsonFile_lost hlost _ _ h4, Outcome.bind_ok, h8, Outcome.bind_ok]
  exact ⟨_, rfl, rfl, rfl, rfl, bits_lost hlost h7⟩

/-- **Trouble reading the database never changes a bitstream**: if a run on a database of which part cannot be read ends with status 0, the same
run on the full database ends with status 0 and the same output. -/
theorem C99_output (load : LoadOrder) (ord : HashOrder) (inv : Invocation) (out out' : OStream) (fuel : Nat)
    (h : Asm.main env' load ord inv out fuel = some (.ok (0, out'))) : Asm.main env load ord inv out fuel = some (.ok (0, out')) := by
  unfold Asm.main at h ⊢
  split at h
  · simp at h
  · rename_i hargs
    rw [if_neg hargs]
    cases hpath : getOptFlagOrFromEnv inv.dbFlag inv.dbEnv with
    | ok path =>
      rw [hpath] at h
      dsimp only at h ⊢
      rw [hlost.fileExists] at h
      split at h
      · simp at h
      · rename_i h1
        rw [if_neg h1]
        split at h
        · simp at h
        · rename_i h2
          rw [if_neg h2]
          split at h
          · simp at h
          · simp at h
          · simp at h
          · rename_i db' hdb
            obtain ⟨db, h3, hg, hb, hp, hbits⟩ := C99_database hlost load [path] inv.part db' hdb
            rw [h3]
            dsimp only
            have e' : db' = ⟨db'.tiles, []⟩ := by
              unfold parseDatabase at hdb
              obtain ⟨_, _, hdb⟩ := Outcome.bind_eq_ok.1 hdb
              obtain ⟨_, _, hdb⟩ := Outcome.bind_eq_ok.1 hdb
              obtain ⟨_, _, hdb⟩ := Outcome.bind_eq_ok.1 hdb
              obtain ⟨_, _, hdb⟩ := Outcome.bind_eq_ok.1 hdb
              obtain ⟨_, _, hdb⟩ := Outcome.bind_eq_ok.1 hdb
              cases hdb; rfl
            have e : db = ⟨db.tiles, []⟩ := by
              unfold parseDatabase at h3
              obtain ⟨_, _, h3⟩ := Outcome.bind_eq_ok.1 h3
              obtain ⟨_, _, h3⟩ := Outcome.bind_eq_ok.1 h3
              obtain ⟨_, _, h3⟩ := Outcome.bind_eq_ok.1 h3
              obtain ⟨_, _, h3⟩ := Outcome.bind_eq_ok.1 h3
              obtain ⟨_, _, h3⟩ := Outcome.bind_eq_ok.1 h3
              cases h3; rfl
            unfold mainLoaded at h ⊢
            cases hin : inputText inv with
            | none => rw [hin] at h; simp at h
            | some text =>
              rw [hin] at h
              dsimp only at h ⊢
              rw [e'] at h
              rw [e]
              cases hf : assembleFrames ord text ⟨db'.tiles, []⟩ [] with
              | err => rw [hf] at h; simp at h
              | abort => rw [hf] at h; simp at h
              | ub => rw [hf] at h; simp at h
              | ok r' =>
                obtain ⟨r, h4, h5, h6, h7⟩ := assembleFrames_fewer ⟨hg, hb, hp, hbits⟩ ord text [] hf
                rw [hf] at h
                rw [h4]
                dsimp only at h ⊢
                rw [h5, h7, ← hp, ← h6]
                exact h
    | err => rw [hpath] at h; simp at h
    | abort => rw [hpath] at h; simp at h
    | ub => rw [hpath] at h; simp at h

end

/-- Files that cannot be opened: `LostFiles`. -/
theorem C99_unreadable (env : Env) (gone : Path → Bool) :
    LostFiles env { env with read := fun p => if gone p then none else env.read p } where
  fileExists _ := rfl
  read p := by
    dsimp only
    split
    · exact Or.inr rfl
    · exact Or.inl rfl
  json _ := rfl
  junk _ := rfl
  listing root := by
    dsimp only
    cases env.listing root with
    | none => exact Or.inl rfl
    | some es => exact Or.inr ⟨es, es, rfl, rfl, fun _ _ h => h⟩

/-- A directory tree with failing directories, and the same with those directories readable: `LostFiles`. -/
theorem C99_failing_tree (env : Env) (tree tree' : Path → Contents) (h : ∀ root, Repaired (tree root) (tree' root)) :
    LostFiles { env with listing := fun root => treeListing root (tree' root) }
      { env with listing := fun root => treeListing root (tree root) } where
  fileExists _ := rfl
  read _ := Or.inl rfl
  json _ := rfl
  junk _ := rfl
  listing root := by
    dsimp only
    by_cases hc : tree root = .failed
    · left; rw [hc]; rfl
    · right
      have hc' : tree' root ≠ .failed := by
        intro h'
        have := h root
        rw [h'] at this
        generalize tree root = x at this hc
        cases this
        exact hc rfl
      refine ⟨_, _, treeListing_eq root _ hc', treeListing_eq root _ hc, ?_⟩
      rintro T dir ⟨pre, post, h1, h2⟩
      have he := contents_repaired root (h root)
      have hp : ((tree root).flat root).1 <+: ((tree' root).flat root).1 := by
        unfold Extends at he
        split at he
        · exact he
        · rw [he]; exact List.prefix_rfl
      obtain ⟨more, hm⟩ := hp
      exact ⟨pre, post ++ more, by rw [← hm, h1]; simp, h2⟩

/-- A walk that misses entries (directories without permission, say), if no tile type has two files: `LostFiles`. -/
theorem C99_missing_entries (env : Env) (es es' : Path → List (Path × Bool)) (h : ∀ root, (es' root).Sublist (es root))
    (hu : ∀ root T dir dir' pre post, es root = pre ++ (dir ++ [tileTypeFile T], true) :: post → (dir' ++ [tileTypeFile T], true) ∉ pre ++ post) :
    LostFiles { env with listing := fun root => some (es root) } { env with listing := fun root => some (es' root) } where
  fileExists _ := rfl
  read _ := Or.inl rfl
  json _ := rfl
  junk _ := rfl
  listing root := by
    right
    refine ⟨_, _, rfl, rfl, ?_⟩
    rintro T dir ⟨pre, post, h1, h2⟩
    have hm : (dir ++ [tileTypeFile T], true) ∈ es root := (h root).subset (by rw [h1]; simp)
    obtain ⟨a, b, hab⟩ := List.append_of_mem hm
    refine ⟨a, b, hab, ?_⟩
    rintro x hx d rfl
    exact hu root T dir d a b hab (List.mem_append_left _ hx)

/-! ## Examples -/

/-- The example directory with a further tile type. -/
def moreEnv : Env := { fileEnv with listing := fun _ => some [([bytes!"d", bytes!"f", tileTypeFile bytes!"X"], true),
  ([bytes!"d", bytes!"f", tileTypeFile bytes!"Y"], true)] }

theorem more_lost : LostFiles moreEnv fileEnv where
  fileExists _ := rfl
  read _ := Or.inl rfl
  json _ := rfl
  junk _ := rfl
  listing _ := by
    refine Or.inr ⟨_, _, rfl, rfl, ?_⟩
    rintro T dir ⟨pre, post, h1, h2⟩
    exact ⟨pre, post ++ [([bytes!"d", bytes!"f", tileTypeFile bytes!"Y"], true)], by
      rw [← List.cons_append, ← List.append_assoc, ← h1]; rfl, h2⟩

/-- Without `Y` the run succeeds, so with `Y` it does, with the same output. -/
example : ∃ fuel0, ∀ fuel ≥ fuel0, ∃ o, Asm.main fileEnv sameLoad sameOrder fileInv ⟨[], 0, true, false⟩ fuel = some (.ok (0, o)) ∧
    Asm.main moreEnv sameLoad sameOrder fileInv ⟨[], 0, true, false⟩ fuel = some (.ok (0, o)) := by
  obtain ⟨_, _, fuel0, hrun⟩ := file_example
  refine ⟨fuel0, fun fuel hf => ?_⟩
  obtain ⟨o, _, h1, _⟩ := hrun fuel hf
  exact ⟨o, h1, C99_output more_lost _ _ _ _ _ _ h1⟩

end Verif.Props
