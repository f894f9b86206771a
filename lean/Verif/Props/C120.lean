import Verif.Proofs.Members
import Verif.Props.C66
import Verif.Props.C111
/-! # C120: the order of members in JSON files -/
namespace Verif.Props
open Verif.Db Verif.Asm Verif.Spec Verif.Text Verif.Xc7

/-- A tile grid with its members in another order is accepted as well, and is the same grid. -/
theorem C120_grid {j j' : Json} (h : Permuted j j') (hd : DistinctNames j) (g : TileGrid) (hg : parseTileGrid j = .ok g) :
    ∃ g', parseTileGrid j' = .ok g' ∧ Reordered TileReordered g g' := by
  obtain ⟨g', h1, h2⟩ := grid_moved ((parseTileGrid_iff _ _).1 hg) h hd
  exact ⟨g', (parseTileGrid_iff _ _).2 h1, h2⟩

/-- One order is accepted exactly if the other is. -/
theorem C120_grid_accepted {j j' : Json} (h : Permuted j j') (hd : DistinctNames j) :
    (∃ g, parseTileGrid j = .ok g) ↔ ∃ g, parseTileGrid j' = .ok g := by
  constructor
  · rintro ⟨g, hg⟩
    obtain ⟨g', h1, _⟩ := C120_grid h hd g hg
    exact ⟨g', h1⟩
  · rintro ⟨g, hg⟩
    obtain ⟨g', h1, _⟩ := C120_grid h.symm (hd.moved h) g hg
    exact ⟨g', h1⟩

/-- A part description accepted in two orders is the same part: rows and columns have to stand in sequence in both. -/
theorem C120_part {j j' : Json} (h : Permuted j j') (hd : DistinctNames j) (hb : OneNamePerBank j) (p p' : Db.Part)
    (hp : parsePart j = .ok p) (hp' : parsePart j' = .ok p') : PartReordered p p' :=
  part_moved ((parsePart_iff _ _).1 hp) ((parsePart_iff _ _).1 hp') h hd hb

/-! ## The database -/

theorem moved_other {α : Type} {env env' : Env} (hm : MembersMoved env env') (parse : Option UInt8 → Bytes → Outcome α) (p : Path) (name : Bytes)
    (h1 : name ≠ bytes!"tilegrid.json") (h2 : name ≠ bytes!"part.json") : parseFile env' parse (p ++ [name]) = parseFile env parse (p ++ [name]) := by
  unfold parseFile
  rw [hm.other p name h1 h2]

theorem path_last (root : Path) (a b : Bytes) : root ++ [a, b] = (root ++ [a]) ++ [b] := by rw [List.append_assoc]; rfl

theorem moved_info {env env' : Env} (hm : MembersMoved env env') (root : Path) (part : Bytes) : parsePartInfo env' root part = parsePartInfo env root part := by
  unfold parsePartInfo
  rw [path_last root kMapping kPartsYaml, path_last root kMapping kDevicesYaml, hm.other _ kPartsYaml (by decide) (by decide),
    hm.other _ kDevicesYaml (by decide) (by decide)]

theorem moved_index {env env' : Env} (hm : MembersMoved env env') (root : Path) : indexTileTypes env' root = indexTileTypes env root := by
  unfold indexTileTypes databasePaths ifExists
  rw [hm.listing_eq, hm.exists_eq]

theorem indexed_paths (env : Env) (root : Path) (paths : List (Bytes × DbPaths)) (h : indexTileTypes env root = .ok paths)
    (t : Bytes) (d : DbPaths) (hd : paths.lookup t = some d) : ∃ x, d = (databasePaths env x).2 := by
  unfold indexTileTypes at h
  split at h
  · cases h
  · rename_i entries _
    have h := Outcome.ok.inj h
    subst h
    have key : ∀ (entries : List (Path × Bool)) (m : List (Bytes × DbPaths)),
        (∀ e ∈ m, ∃ x, e.2 = (databasePaths env x).2) →
        ∀ e ∈ entries.foldl (fun m e =>
            let filename := e.1.getLast?.getD []
            if e.2 && startsWith tileTypePrefix filename && jsonSuffix.isSuffixOf filename then
              let p := databasePaths env e.1
              insertNew m p.1 p.2
            else m) m, ∃ x, e.2 = (databasePaths env x).2 := by
      intro entries
      induction entries with
      | nil => intro m hm; exact hm
      | cons x entries ih =>
        intro m hm
        rw [List.foldl_cons]
        refine ih _ ?_
        dsimp only
        split
        · unfold insertNew
          split
          · exact hm
          · intro e he
            rcases List.mem_append.1 he with he | he
            · exact hm e he
            · rw [List.mem_singleton.1 he]
              exact ⟨x.1, rfl⟩
        · exact hm
    exact key entries [] (by intro e he; cases he) _ (mem_of_lookup hd)

/-- The files of tile types that are read have names with the right beginning. -/
theorem indexed_names (env : Env) (root : Path) (paths : List (Bytes × DbPaths)) (h : indexTileTypes env root = .ok paths)
    (t : Bytes) (d : DbPaths) (hd : paths.lookup t = some d) (p : Path) (hp : d.ppips = some p ∨ d.segbits = some p ∨ d.blockRam = some p) :
    ∃ base name, p = base ++ [name] ∧ ((bytes!"ppips_" : Bytes) <+: name ∨ (bytes!"segbits_" : Bytes) <+: name) := by
  obtain ⟨x, rfl⟩ := indexed_paths env root paths h t d hd
  have one : ∀ (base : Path) (name : Bytes), ifExists env (base ++ [name]) = some p → p = base ++ [name] := by
    intro base name h
    unfold ifExists at h
    split at h
    · exact (Option.some.inj h).symm
    · cases h
  rcases hp with hp | hp | hp
  · exact ⟨_, _, one _ _ hp, Or.inl (by rw [List.append_assoc]; exact List.prefix_append _ _)⟩
  · exact ⟨_, _, one _ _ hp, Or.inr (by rw [List.append_assoc]; exact List.prefix_append _ _)⟩
  · exact ⟨_, _, one _ _ hp, Or.inr (by rw [List.append_assoc]; exact List.prefix_append _ _)⟩

theorem prefix_other {name : Bytes} (h : (bytes!"ppips_" : Bytes) <+: name ∨ (bytes!"segbits_" : Bytes) <+: name) :
    name ≠ bytes!"tilegrid.json" ∧ name ≠ bytes!"part.json" := by
  rcases h with h | h <;> constructor <;> rintro rfl <;> revert h <;> decide

theorem moved_tiles {env env' : Env} (hm : MembersMoved env env') (root : Path) (paths : List (Bytes × DbPaths))
    (hi : indexTileTypes env root = .ok paths) : tilesDatabase env' paths = tilesDatabase env paths := by
  funext t
  unfold tilesDatabase
  cases hd : paths.lookup t with
  | none => rfl
  | some d =>
    dsimp only
    have hf : ∀ {α : Type} (parse : Option UInt8 → Bytes → Outcome α) p, (d.ppips = some p ∨ d.segbits = some p ∨ d.blockRam = some p) →
        parseFile env' parse p = parseFile env parse p := by
      intro α parse p hp
      obtain ⟨base, name, rfl, hn⟩ := indexed_names env root paths hi t d hd p hp
      exact moved_other hm parse base name (prefix_other hn).1 (prefix_other hn).2
    have ht : parseTileType env' d = parseTileType env d := by
      obtain ⟨sb, br, pp⟩ := d
      unfold parseTileType
      rw [hm.junk_eq]
      refine bind_same ?_ fun _ _ => bind_same ?_ fun _ _ => bind_same ?_ fun _ _ => rfl
      · cases pp with
        | none => rfl
        | some p => exact hf _ p (Or.inl rfl)
      · cases sb with
        | none => rfl
        | some p => exact bind_same (hf _ p (Or.inr (Or.inl rfl))) fun _ _ => rfl
      · cases br with
        | none => rfl
        | some p => exact bind_same (hf _ p (Or.inr (Or.inr rfl))) fun _ _ => rfl
    rw [ht]

theorem jsonFile_ok {α : Type} {env : Env} {u : Json → Outcome α} {p : Path} {a : α} :
    parseJsonFile env u p = .ok a ↔ ∃ text b j, env.read p = some (text, b) ∧ env.json text = some j ∧ u j = .ok a := by
  unfold parseJsonFile
  constructor
  · intro h
    split at h
    · cases h
    · rename_i c hc
      split at h
      · cases h
      · rename_i j hj
        exact ⟨c.1, c.2, j, hc, hj, h⟩
  · rintro ⟨text, b, j, h1, h2, h3⟩
    rw [h1]
    dsimp only
    rw [h2]
    exact h3

theorem moved_texts {env env' : Env} (hm : MembersMoved env env') (p : Path) :
    (∃ text b j, env.read p = some (text, b) ∧ env.json text = some j) ↔ ∃ text b j, env'.read p = some (text, b) ∧ env.json text = some j := by
  constructor
  · rintro ⟨text, b, j, h1, h2⟩
    cases h3 : env'.read p with
    | none => rw [(hm.none_iff p).2 h3] at h1; cases h1
    | some c =>
      cases h4 : env.json c.1 with
      | none => rw [(hm.invalid p text b c.1 c.2 h1 h3).2 h4] at h2; cases h2
      | some j' => exact ⟨c.1, c.2, j', rfl, h4⟩
  · rintro ⟨text, b, j, h1, h2⟩
    cases h3 : env.read p with
    | none => rw [(hm.none_iff p).1 h3] at h1; cases h1
    | some c =>
      cases h4 : env.json c.1 with
      | none => rw [(hm.invalid p c.1 c.2 text b h3 h1).1 h4] at h2; cases h2
      | some j' => exact ⟨c.1, c.2, j', rfl, h4⟩

/-- What is read from the one `tilegrid.json` is read from the other, in another order. -/
theorem moved_grid {env env' : Env} (hm : MembersMoved env env') (p : Path) :
    (∀ g, parseJsonFile env parseTileGrid (p ++ [bytes!"tilegrid.json"]) = .ok g →
      ∃ g', parseJsonFile env' parseTileGrid (p ++ [bytes!"tilegrid.json"]) = .ok g' ∧ Reordered TileReordered g g') ∧
    ((∃ g', parseJsonFile env' parseTileGrid (p ++ [bytes!"tilegrid.json"]) = .ok g') →
      ∃ g, parseJsonFile env parseTileGrid (p ++ [bytes!"tilegrid.json"]) = .ok g) := by
  constructor
  · intro g hg
    obtain ⟨text, b, j, h1, h2, h3⟩ := jsonFile_ok.1 hg
    obtain ⟨text', b', j', h4, h5⟩ := (moved_texts hm _).1 ⟨text, b, j, h1, h2⟩
    obtain ⟨h6, h7⟩ := hm.grid p text b text' b' j j' h1 h4 h2 h5
    obtain ⟨g', h8, h9⟩ := C120_grid h6 h7 g h3
    exact ⟨g', jsonFile_ok.2 ⟨text', b', j', h4, by rw [hm.json_eq]; exact h5, h8⟩, h9⟩
  · rintro ⟨g', hg⟩
    obtain ⟨text', b', j', h4, h5, h3⟩ := jsonFile_ok.1 hg
    rw [hm.json_eq] at h5
    obtain ⟨text, b, j, h1, h2⟩ := (moved_texts hm _).2 ⟨text', b', j', h4, h5⟩
    obtain ⟨h6, h7⟩ := hm.grid p text b text' b' j j' h1 h4 h2 h5
    obtain ⟨g, h8⟩ := (C120_grid_accepted h6 h7).2 ⟨g', h3⟩
    exact ⟨g, jsonFile_ok.2 ⟨text, b, j, h1, h2, h8⟩⟩

theorem moved_part {env env' : Env} (hm : MembersMoved env env') (p : Path) :
    (∀ d, parseJsonFile env parsePart (p ++ [bytes!"part.json"]) = .ok d →
      ∃ d', parseJsonFile env' parsePart (p ++ [bytes!"part.json"]) = .ok d' ∧ PartReordered d d') ∧
    ((∃ d', parseJsonFile env' parsePart (p ++ [bytes!"part.json"]) = .ok d') →
      ∃ d, parseJsonFile env parsePart (p ++ [bytes!"part.json"]) = .ok d) := by
  constructor
  · intro d hd
    obtain ⟨text, b, j, h1, h2, h3⟩ := jsonFile_ok.1 hd
    obtain ⟨text', b', j', h4, h5⟩ := (moved_texts hm _).1 ⟨text, b, j, h1, h2⟩
    obtain ⟨h6, h7, h8, h9⟩ := hm.part p text b text' b' j j' h1 h4 h2 h5
    obtain ⟨d', h10⟩ := h9.1 ⟨d, (parsePart_iff _ _).1 h3⟩
    have h10 := (parsePart_iff _ _).2 h10
    exact ⟨d', jsonFile_ok.2 ⟨text', b', j', h4, by rw [hm.json_eq]; exact h5, h10⟩, C120_part h6 h7 h8 d d' h3 h10⟩
  · rintro ⟨d', hd⟩
    obtain ⟨text', b', j', h4, h5, h3⟩ := jsonFile_ok.1 hd
    rw [hm.json_eq] at h5
    obtain ⟨text, b, j, h1, h2⟩ := (moved_texts hm _).2 ⟨text', b', j', h4, h5⟩
    obtain ⟨h6, h7, h8, h9⟩ := hm.part p text b text' b' j j' h1 h4 h2 h5
    obtain ⟨d, h10⟩ := h9.2 ⟨d', (parsePart_iff _ _).1 h3⟩
    exact ⟨d, jsonFile_ok.2 ⟨text, b, j, h1, h2, (parsePart_iff _ _).2 h10⟩⟩

/-- Moving members is like iterating over the hash maps in another order. -/
theorem C120_database {env env' : Env} (hm : MembersMoved env env') (load' : LoadOrder) (hload' : LoadOk load') (root : Path) (part : Bytes) :
    ∃ load, LoadOk load ∧ ∀ db, parseDatabase env' load' root part = .ok db ↔ parseDatabase env load root part = .ok db := by
  by_cases hok : ∃ info grid paths p pins,
      parsePartInfo env root part = .ok info ∧ parseJsonFile env parseTileGrid (root ++ [info.fabric, kTilegrid]) = .ok grid ∧
      indexTileTypes env root = .ok paths ∧ parseJsonFile env parsePart (root ++ [part, kPartJson]) = .ok p ∧
      parseFile env parsePackagePins (root ++ [part, kPackagePins]) = .ok pins
  · obtain ⟨info, grid, paths, p, pins, h1, h2, h3, h4, h5⟩ := hok
    obtain ⟨grid', h6, h7⟩ : ∃ g', parseJsonFile env' parseTileGrid (root ++ [info.fabric, kTilegrid]) = .ok g' ∧ Reordered TileReordered grid g' := by
      rw [path_last] at h2 ⊢
      exact (moved_grid hm (root ++ [info.fabric])).1 grid h2
    obtain ⟨p', h8, h9⟩ : ∃ d', parseJsonFile env' parsePart (root ++ [part, kPartJson]) = .ok d' ∧ PartReordered p d' := by
      rw [path_last] at h4 ⊢
      exact (moved_part hm (root ++ [part])).1 p h4
    have h10 : parseFile env' parsePackagePins (root ++ [part, kPackagePins]) = .ok pins := by
      rw [path_last] at h5 ⊢
      rw [moved_other hm _ _ kPackagePins (by decide) (by decide)]
      exact h5
    classical
    refine ⟨{ sets := load'.sets
              grid := fun g => if g = grid then load'.grid grid' else load'.grid g
              part := fun d => if d = p then load'.part p' else load'.part d }, ⟨hload'.sets, ?_, ?_⟩, ?_⟩
    · intro g
      dsimp only
      split
      · rename_i hg
        rw [hg]
        exact reordered_trans tileReordered_trans h7 (hload'.grid grid')
      · exact hload'.grid g
    · intro d
      dsimp only
      split
      · rename_i hd
        rw [hd]
        exact partReordered_trans h9 (hload'.part p')
      · exact hload'.part d
    · intro db
      rw [parseDatabase_iff.2 ⟨info, grid', paths, p', pins, by rw [moved_info hm]; exact h1, h6, by rw [moved_index hm]; exact h3, h8, h10, rfl⟩,
        parseDatabase_iff.2 ⟨info, grid, paths, p, pins, h1, h2, h3, h4, h5, rfl⟩]
      rw [moved_tiles hm root paths h3]
      dsimp only
      rw [if_pos rfl, if_pos rfl]
  · refine ⟨load', hload', fun db => ⟨fun h => ?_, fun h => ?_⟩⟩
    · obtain ⟨info, grid', paths, p', pins, h1, h2, h3, h4, h5, _⟩ := parseDatabase_iff.1 h
      exfalso
      rw [moved_info hm] at h1
      rw [moved_index hm] at h3
      rw [path_last] at h2 h4 h5
      obtain ⟨grid, h6⟩ := (moved_grid hm (root ++ [info.fabric])).2 ⟨grid', h2⟩
      obtain ⟨p, h7⟩ := (moved_part hm (root ++ [part])).2 ⟨p', h4⟩
      rw [moved_other hm _ _ kPackagePins (by decide) (by decide)] at h5
      exact hok ⟨info, grid, paths, p, pins, h1, by rw [path_last]; exact h6, h3, by rw [path_last]; exact h7, by rw [path_last]; exact h5⟩
    · obtain ⟨info, grid, paths, p, pins, h1, h2, h3, h4, h5, _⟩ := parseDatabase_iff.1 h
      exact (hok ⟨info, grid, paths, p, pins, h1, h2, h3, h4, h5⟩).elim

/-! ## The program -/

/-- The order of members means nothing to the output: for a database in which nothing is left to the hash order, a run ends
with status 0 exactly if it does so with the files rewritten, and with the same output. -/
theorem C120_program {env env' : Env} (hm : MembersMoved env env') (load load' : LoadOrder) (hload : LoadOk load) (hload' : LoadOk load')
    (ord ord' : HashOrder) (hord : Permutes ord) (hord' : Permutes ord') (inv : Invocation)
    (hset : ∀ db text, Starts env load inv db text → Settled db.tiles) (out o : OStream) (fuel : Nat) :
    main env load ord inv out fuel = some (.ok (0, o)) ↔ main env' load' ord' inv out fuel = some (.ok (0, o)) := by
  constructor
  · intro h
    rcases C58_stages_partial env load ord inv out o fuel 0 h with ⟨h, _⟩ | ⟨_, _, _, _, _, hs, _, _⟩
    · cases h
    · obtain ⟨_, _, _, path, hp, _, _, _⟩ := hs
      obtain ⟨load2, hl2, hdb⟩ := C120_database hm load' hload' [path] inv.part
      rw [C66_reproducible env load load2 hload hl2 ord ord' hord hord' inv hset] at h
      rcases C58_stages_partial env load2 ord' inv out o fuel 0 h with ⟨h, _⟩ | ⟨_, db, text, db', fr, ⟨a1, a2, a3, path', a4, a5, a6, a7⟩, a8, a9⟩
      · cases h
      · have : path' = path := by
          have h1 := (C61_setting _ _ _).2 a4
          rw [(C61_setting _ _ _).2 hp] at h1
          exact (Outcome.ok.inj h1).symm
        subst this
        exact main_started env' load' ord' inv out fuel db text ⟨a1, a2, a3, path', a4, a5, by rw [hm.exists_eq]; exact a6, (hdb db).2 a7⟩ db' fr a8 o a9
  · intro h
    rcases C58_stages_partial env' load' ord' inv out o fuel 0 h with ⟨h, _⟩ | ⟨_, db, text, db', fr, ⟨a1, a2, a3, path, a4, a5, a6, a7⟩, a8, a9⟩
    · cases h
    · obtain ⟨load2, hl2, hdb⟩ := C120_database hm load' hload' [path] inv.part
      rw [C66_reproducible env load load2 hload hl2 ord ord' hord hord' inv hset]
      exact main_started env load2 ord' inv out fuel db text ⟨a1, a2, a3, path, a4, a5, by rw [← hm.exists_eq]; exact a6, (hdb db).1 a7⟩ db' fr a8 o a9

/-! ## Examples, and why the conditions -/

/-- The members of every object up to depth `n`, last first. -/
def turned : Nat → Json → Json
  | 0, j => j
  | n + 1, .obj ms => .obj ((ms.map fun e => (e.1, turned n e.2)).reverse)
  | n + 1, .arr items => .arr (items.map (turned n))
  | _ + 1, j => j

theorem turned_permuted : ∀ n j, Permuted j (turned n j) := by
  intro n
  induction n with
  | zero => intro j; exact .same j
  | succ n ih =>
    intro j
    cases j with
    | obj ms =>
      have := Permuted.obj ms (ms.map fun e => (e.1, e.2, turned n e.2)).reverse (by
          rw [List.map_reverse, List.map_map]
          have e : ((fun z : Bytes × Json × Json => (z.1, z.2.1)) ∘ fun e : Bytes × Json => (e.1, e.2, turned n e.2)) = id := rfl
          rw [e, List.map_id]
          exact (List.reverse_perm ms).symm) (by
        intro z hz
        rw [List.mem_reverse] at hz
        obtain ⟨e, _, rfl⟩ := List.mem_map.1 hz
        exact ih e.2)
      rw [List.map_reverse, List.map_map] at this
      exact this
    | arr items =>
      have := Permuted.arr (items.map fun j => (j, turned n j)) (by
        intro z hz
        obtain ⟨e, _, rfl⟩ := List.mem_map.1 hz
        exact ih e)
      rw [List.map_map, List.map_map] at this
      have e : ((fun z : Json × Json => z.1) ∘ fun j => (j, turned n j)) = id := rfl
      rw [e, List.map_id] at this
      exact this
    | null => exact .same _
    | bool b => exact .same _
    | int i => exact .same _
    | dbl => exact .same _
    | str s => exact .same _

/-- The small directory, with a parser that knows the rewritten files as well. -/
def movedEnv : Env :=
  { fileEnv with
    json := fun c =>
      if c = bytes!"G" then some (gridObj [(bytes!"T", fileT)]) else if c = bytes!"P" then some (partObj smallDesc)
      else if c = bytes!"H" then some (turned 5 (gridObj [(bytes!"T", fileT)])) else if c = bytes!"Q" then some (turned 3 (partObj smallDesc))
      else none }

/-- Every file `tilegrid.json` and `part.json` rewritten. -/
def movedEnv' : Env :=
  { movedEnv with
    read := fun p =>
      if p = [bytes!"d", bytes!"f", kTilegrid] then some (bytes!"H", none)
      else if p = [bytes!"d", bytes!"p", kPartJson] then some (bytes!"Q", some 0)
      else movedEnv.read p }

theorem moved_database : parseDatabase movedEnv sameLoad [bytes!"d"] bytes!"p" = .ok ⟨fileTiles, []⟩ := by
  have h1 : parsePartInfo movedEnv [bytes!"d"] bytes!"p" = .ok ⟨bytes!"d", bytes!"f", bytes!"k", bytes!"1"⟩ := by decide +kernel
  have h2 : indexTileTypes movedEnv [bytes!"d"] = .ok filePaths := by decide +kernel
  have h3 : parseJsonFile movedEnv parseTileGrid ([bytes!"d"] ++ [bytes!"f", kTilegrid]) = .ok [(bytes!"T", fileT)] := file_grid
  have h4 : parseJsonFile movedEnv parsePart ([bytes!"d"] ++ [bytes!"p", kPartJson]) = .ok smallDesc := file_part
  have h5 : parseFile movedEnv parsePackagePins ([bytes!"d"] ++ [bytes!"p", kPackagePins]) = .ok [] := rfl
  exact parseDatabase_iff.2 ⟨_, _, _, _, _, h1, h3, h2, h4, h5, rfl⟩

/-- The two really differ: the tile begins with another member. -/
example : turned 5 (gridObj [(bytes!"T", fileT)]) ≠ gridObj [(bytes!"T", fileT)] := by
  intro h
  have h := Json.obj.inj h
  simp only [List.map_cons, List.map_nil, List.reverse_cons, List.reverse_nil, List.nil_append, List.cons.injEq, Prod.mk.injEq] at h
  have h := Json.obj.inj h.1.2
  have := congrArg (fun l : List (Bytes × Json) => l.head?.map (·.1)) h
  revert this
  decide +kernel

theorem moved_part_turned : ∃ d, parsePart (turned 3 (partObj smallDesc)) = .ok d := by
  have h : (match parsePart (turned 3 (partObj smallDesc)) with | .ok _ => true | _ => false) = true := by decide +kernel
  revert h
  cases parsePart (turned 3 (partObj smallDesc)) with
  | ok d => intro _; exact ⟨d, rfl⟩
  | err => intro h; cases h
  | abort => intro h; cases h
  | ub => intro h; cases h

theorem moved_grid_distinct : DistinctNames (gridObj [(bytes!"T", fileT)]) := by
  simp only [gridObj, fileT, tileObj, busObj, blockObj, stringObj, distinct_obj, distinct_arr, List.map_cons, List.map_nil,
    List.mem_cons, List.not_mem_nil, or_false, forall_eq, Option.map_none, Option.toList_none, List.append_nil, forall_eq_or_imp,
    distinct_str, distinct_int, List.nodup_nil, false_implies, implies_true, and_true, true_and]
  decide +kernel

theorem moved_part_distinct : DistinctNames (partObj smallDesc) := by
  simp only [partObj, smallDesc, halfObj, rowObj, sequenceObj, busObj, busColumnsObj, columnObj, distinct_obj, List.map_cons, List.map_nil,
    List.zipIdx_cons, List.zipIdx_nil,
    List.mem_cons, List.not_mem_nil, or_false, forall_eq, forall_eq_or_imp,
    distinct_int, List.nodup_nil, false_implies, implies_true, and_true, true_and]
  repeat' apply And.intro
  all_goals decide +kernel

theorem movedEnv_grid_only (p : Path) (c : Bytes × Option UInt8) (h : movedEnv.read (p ++ [bytes!"tilegrid.json"]) = some c) :
    p ++ [bytes!"tilegrid.json"] = [bytes!"d", bytes!"f", kTilegrid] := by
  have key : ∀ q : Path, p ++ [bytes!"tilegrid.json"] = q → q.getLast? = some bytes!"tilegrid.json" := by
    intro q h; rw [← h, List.getLast?_concat]
  unfold movedEnv fileEnv at h
  dsimp only at h
  repeat' split at h
  all_goals first
    | cases h; done
    | assumption
    | (rename_i hq
       exfalso
       have := key _ hq
       revert this; decide)

theorem movedEnv_part_only (p : Path) (c : Bytes × Option UInt8) (h : movedEnv.read (p ++ [bytes!"part.json"]) = some c) :
    p ++ [bytes!"part.json"] = [bytes!"d", bytes!"p", kPartJson] := by
  have key : ∀ q : Path, p ++ [bytes!"part.json"] = q → q.getLast? = some bytes!"part.json" := by
    intro q h; rw [← h, List.getLast?_concat]
  unfold movedEnv fileEnv at h
  dsimp only at h
  repeat' split at h
  all_goals first
    | cases h; done
    | assumption
    | (rename_i hq
       exfalso
       have := key _ hq
       revert this; decide)

theorem movedEnv_read (p : Path) : (movedEnv'.read p = movedEnv.read p) ∨
    (p = [bytes!"d", bytes!"f", kTilegrid] ∧ movedEnv.read p = some (bytes!"G", none) ∧ movedEnv'.read p = some (bytes!"H", none)) ∨
    (p = [bytes!"d", bytes!"p", kPartJson] ∧ movedEnv.read p = some (bytes!"P", none) ∧ movedEnv'.read p = some (bytes!"Q", some 0)) := by
  by_cases h1 : p = [bytes!"d", bytes!"f", kTilegrid]
  · subst h1; exact Or.inr (Or.inl ⟨rfl, by decide +kernel, by decide +kernel⟩)
  · by_cases h2 : p = [bytes!"d", bytes!"p", kPartJson]
    · subst h2; exact Or.inr (Or.inr ⟨rfl, by decide +kernel, by decide +kernel⟩)
    · left
      show (if p = [bytes!"d", bytes!"f", kTilegrid] then some (bytes!"H", none)
        else if p = [bytes!"d", bytes!"p", kPartJson] then some (bytes!"Q", some 0) else movedEnv.read p) = _
      rw [if_neg h1, if_neg h2]

theorem movedEnv_moved : MembersMoved movedEnv movedEnv' where
  exists_eq := rfl
  listing_eq := rfl
  json_eq := rfl
  junk_eq := rfl
  other := by
    intro p name h1 h2
    rcases movedEnv_read (p ++ [name]) with h | ⟨h, _⟩ | ⟨h, _⟩
    · exact h
    · have := congrArg List.getLast? h
      rw [List.getLast?_concat] at this
      exact absurd (Option.some.inj this) h1
    · have := congrArg List.getLast? h
      rw [List.getLast?_concat] at this
      exact absurd (Option.some.inj this) h2
  none_iff := by
    intro p
    rcases movedEnv_read p with h | ⟨_, h, h'⟩ | ⟨_, h, h'⟩
    · rw [h]
    · rw [h, h']; simp
    · rw [h, h']; simp
  invalid := by
    intro p text b text' b' h1 h2
    rcases movedEnv_read p with h | ⟨_, h, h'⟩ | ⟨_, h, h'⟩
    · rw [h, h1] at h2; cases h2; exact Iff.rfl
    · rw [h] at h1; rw [h'] at h2; cases h1; cases h2
      exact ⟨fun h => (by cases h), fun h => (by cases h)⟩
    · rw [h] at h1; rw [h'] at h2; cases h1; cases h2
      exact ⟨fun h => (by cases h), fun h => (by cases h)⟩
  grid := by
    intro p text b text' b' j j' h1 h2 h3 h4
    have hp := movedEnv_grid_only p _ h1
    rcases movedEnv_read (p ++ [bytes!"tilegrid.json"]) with h | ⟨_, h, h'⟩ | ⟨h, _⟩
    · exfalso; rw [hp] at h; revert h; decide +kernel
    · rw [h] at h1; rw [h'] at h2; cases h1; cases h2
      have h3 : some (gridObj [(bytes!"T", fileT)]) = some j := h3
      have h4 : some (turned 5 (gridObj [(bytes!"T", fileT)])) = some j' := h4
      rw [← Option.some.inj h3, ← Option.some.inj h4]
      exact ⟨turned_permuted _ _, moved_grid_distinct⟩
    · exfalso; rw [hp] at h; revert h; decide
  part := by
    intro p text b text' b' j j' h1 h2 h3 h4
    have hp := movedEnv_part_only p _ h1
    rcases movedEnv_read (p ++ [bytes!"part.json"]) with h | ⟨h, _⟩ | ⟨_, h, h'⟩
    · exfalso; rw [hp] at h; revert h; decide +kernel
    · exfalso; rw [hp] at h; revert h; decide
    · rw [h] at h1; rw [h'] at h2; cases h1; cases h2
      have h3 : some (partObj smallDesc) = some j := h3
      have h4 : some (turned 3 (partObj smallDesc)) = some j' := h4
      rw [← Option.some.inj h3, ← Option.some.inj h4]
      refine ⟨turned_permuted _ _, moved_part_distinct, ?_, fun _ => ?_, fun _ => ?_⟩
      · rintro ms ⟨ms', hm, hl⟩
        have hm := Json.obj.inj hm
        rw [← hm] at hl
        have hl : some (Json.obj []) = some (.obj ms) := hl
        cases hl
        exact List.Pairwise.nil
      · obtain ⟨d, hd⟩ := moved_part_turned
        exact ⟨d, (parsePart_iff _ _).1 hd⟩
      · exact ⟨smallDesc, (parsePart_iff _ _).1 file_part⟩

theorem moved_starts : Starts movedEnv sameLoad fileInv ⟨fileTiles, []⟩ bytes!"T.F\n" :=
  ⟨by decide, by decide, Or.inr ⟨fun _ _ h => by simp [fileInv] at h, rfl⟩, bytes!"d", Or.inr ⟨rfl, rfl⟩, by decide, by decide,
    moved_database⟩

/-- With the members of both files in another order, and the hash maps as well, the program succeeds. -/
example : ∃ fuel o, main movedEnv' reversed sameOrder fileInv ⟨[], 0, true, false⟩ fuel = some (.ok (0, o)) := by
  obtain ⟨_, _, fuel0, h⟩ := file_example
  obtain ⟨o, _, h1, _⟩ := h fuel0 (Nat.le_refl _)
  refine ⟨fuel0, o, (C120_program movedEnv_moved sameLoad reversed sameLoad_ok reversed_ok sameOrder sameOrder sameOrder_permutes
    sameOrder_permutes fileInv ?_ _ o fuel0).1 ?_⟩
  · intro db text hs
    obtain ⟨rfl, rfl⟩ := starts_unique moved_starts hs
    exact file_settled
  · rcases C58_stages_partial _ _ _ _ _ _ _ _ h1 with ⟨h, _⟩ | ⟨_, db, text, db', fr, hs, a8, a9⟩
    · cases h
    · obtain ⟨rfl, rfl⟩ := starts_unique file_starts hs
      exact main_started _ _ _ _ _ _ _ _ moved_starts _ _ a8 _ a9

/-- Rows that are no longer in sequence: the file is the same up to the order of members, but the program is aborted. -/
theorem C120_order_rows : ∃ j j', Permuted j j' ∧ DistinctNames j ∧ OneNamePerBank j ∧ (∃ p, parsePart j = .ok p) ∧ parsePart j' = .abort := by
  refine ⟨partObj smallDesc, turned 4 (partObj smallDesc), turned_permuted _ _, moved_part_distinct, ?_, ⟨_, file_part⟩, ?_⟩
  · rintro ms ⟨ms', hm, hl⟩
    have hm := Json.obj.inj hm
    rw [← hm] at hl
    have hl : some (Json.obj []) = some (.obj ms) := hl
    cases hl
    exact List.Pairwise.nil
  · decide +kernel

/-- Two tiles of one name: which of them counts is a matter of their order. -/
theorem C120_order_twice : ∃ j j' g g', Permuted j j' ∧ parseTileGrid j = .ok g ∧ parseTileGrid j' = .ok g' ∧ ¬ Reordered TileReordered g g' := by
  refine ⟨gridObj [(bytes!"T", fileT), (bytes!"T", { fileT with type := bytes!"Y" })],
    turned 1 (gridObj [(bytes!"T", fileT), (bytes!"T", { fileT with type := bytes!"Y" })]), [(bytes!"T", fileT)], [(bytes!"T", { fileT with type := bytes!"Y" })],
    turned_permuted _ _, by decide +kernel, by decide +kernel, ?_⟩
  intro h
  obtain ⟨t', h1, h2⟩ := h.mem_left (k := bytes!"T") (v := fileT) (by simp)
  simp only [List.mem_singleton, Prod.mk.injEq, true_and] at h1
  have := h2.1
  rw [h1] at this
  revert this
  decide

/-- A part with two names of one bank. -/
def twiceNamed : Json :=
  .obj [(bytes!"idcode", .int 1), (bytes!"iobanks", .obj [(bytes!"1", .str bytes!"a"), (bytes!"01", .str bytes!"b")]),
    (bytes!"global_clock_regions", .obj [(bytes!"bottom", .obj [(bytes!"rows", .obj [])]), (bytes!"top", .obj [(bytes!"rows", .obj [])])])]

/-- `"1"` and `"01"` are two names of one bank: which of them counts is a matter of their order. -/
theorem C120_order_banks : ∃ j j' p p', Permuted j j' ∧ DistinctNames j ∧ parsePart j = .ok p ∧ parsePart j' = .ok p' ∧
    ¬ p.iobanks.Perm p'.iobanks := by
  refine ⟨twiceNamed, turned 2 twiceNamed, ⟨[], [], 1, [(1, bytes!"a")]⟩, ⟨[], [], 1, [(1, bytes!"b")]⟩, turned_permuted _ _, ?_,
    by decide +kernel, by decide +kernel, by decide +kernel⟩
  simp only [twiceNamed, distinct_obj, List.map_cons, List.map_nil, List.mem_cons, List.not_mem_nil, or_false, forall_eq, forall_eq_or_imp,
    distinct_int, distinct_str, List.nodup_nil, false_implies, implies_true, and_true, true_and]
  repeat' apply And.intro
  all_goals decide +kernel

end Verif.Props
