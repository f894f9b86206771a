import Verif.Spec.Respelled
import Verif.Props.C122
import Verif.Props.C82
import Verif.Props.C104
import Verif.Props.C96
/-! # C123: how the JSON files are written -/
namespace Verif.Props
open Verif.Db Verif.Asm Verif.Spec Verif.Text Verif.Xc7
open Verif.Db.JsonText (parseJson)

/-- Whoever reads one of two texts that say the same reads the other in the same way. -/
theorem C123_reads {big : Bytes → Bool} {text text' : Bytes} (h : SameJson big text text') (v : Json) :
    JsonGrammar.Reads big text v ↔ JsonGrammar.Reads big text' v := by
  rcases h with rfl | ⟨w, h1, h2⟩
  · exact Iff.rfl
  · constructor
    · intro h; rw [C82_unique big text v w h h1]; exact h2
    · intro h; rw [C82_unique big text' v w h h2]; exact h1

theorem said_same {α β : Type} {r r' : Said α} {f g : α → Said β} (h : r = r') (hf : ∀ a, r' = .ok a → f a = g a) : (r >>= f) = (r' >>= g) := by
  subst h
  cases r with
  | ok a => exact hf a rfl
  | _ => rfl

theorem respelled_other {big : Bytes → Bool} {env env' : Env} (hm : JsonRespelled big env env') (root : Path) (a name : Bytes)
    (h1 : name ≠ bytes!"tilegrid.json") (h2 : name ≠ bytes!"part.json") : env'.read (root ++ [a, name]) = env.read (root ++ [a, name]) := by
  rw [path_last]
  exact hm.other _ name h1 h2

theorem respelled_map {big : Bytes → Bool} {env env' : Env} (hm : JsonRespelled big env env') (x : LibTexts) (root : Path) (a name : Bytes)
    (h1 : name ≠ bytes!"tilegrid.json") (h2 : name ≠ bytes!"part.json") :
    mapFileM x env' (root ++ [a, name]) = mapFileM x env (root ++ [a, name]) := by
  unfold mapFileM
  rw [respelled_other hm root a name h1 h2]

theorem respelled_json {α : Type} {big : Bytes → Bool} {env env' : Env} (hm : JsonRespelled big env env') (hj : env.json = parseJson big)
    (x : LibTexts) (u : Json → Said α) (root : Path) (a name : Bytes) (hn : name = bytes!"tilegrid.json" ∨ name = bytes!"part.json") :
    parseJsonFileM x env' u (root ++ [a, name]) = parseJsonFileM x env u (root ++ [a, name]) := by
  unfold parseJsonFileM mapFileM
  rw [hm.json_eq, path_last]
  cases h1 : env.read (root ++ [a] ++ [name]) with
  | none => rw [(hm.none_iff _).1 h1]
  | some c =>
    cases h2 : env'.read (root ++ [a] ++ [name]) with
    | none => rw [(hm.none_iff _).2 h2] at h1; cases h1
    | some c' =>
      show (match env.json c'.1 with | none => Said.err (msgJson (x.jsonError c'.1)) | some j => u j) =
        (match env.json c.1 with | none => Said.err (msgJson (x.jsonError c.1)) | some j => u j)
      rcases hm.same _ name c.1 c.2 c'.1 c'.2 hn h1 h2 with h | ⟨v, h3, h4⟩
      · rw [h]
      · rw [hj, (C82_reads _ _ _).2 h3, (C82_reads _ _ _).2 h4]

theorem respelled_index {big : Bytes → Bool} {env env' : Env} (hm : JsonRespelled big env env') (root : Path) : indexTileTypes env' root = indexTileTypes env root := by
  unfold indexTileTypes databasePaths ifExists
  rw [hm.listing_eq, hm.exists_eq]

theorem respelled_tiles {big : Bytes → Bool} {env env' : Env} (hm : JsonRespelled big env env') (root : Path) (paths : List (Bytes × DbPaths))
    (hi : indexTileTypes env root = .ok paths) : tilesDatabase env' paths = tilesDatabase env paths := by
  funext t
  unfold tilesDatabase
  cases hd : paths.lookup t with
  | none => rfl
  | some d =>
    dsimp only
    have hf : ∀ {α : Type} (parse : Option UInt8 → Bytes → Outcome α) p, (d.ppips = some p ∨ d.segbits = some p ∨ d.blockRam = some p) →
        parseFile env' parse p = parseFile env parse p := by
      intro α parse p hp
      obtain ⟨base, name, rfl, hn⟩ := indexed_names env root paths hi t d hd p hp
      unfold parseFile
      rw [hm.other base name ?_ ?_] <;> rintro rfl <;> rcases hn with hn | hn <;> revert hn <;> decide
    have ht : parseTileType env' d = parseTileType env d := by
      obtain ⟨sb, br, pp⟩ := d
      unfold parseTileType
      rw [hm.junk_eq]
      refine bind_same ?_ fun _ _ => bind_same ?_ fun _ _ => bind_same ?_ fun _ _ => rfl
      · cases pp with
        | none => rfl
        | some p => exact hf _ p (Or.inl rfl)
      · cases sb with
        | none => rfl
        | some p => exact bind_same (hf _ p (Or.inr (Or.inl rfl))) fun _ _ => rfl
      · cases br with
        | none => rfl
        | some p => exact bind_same (hf _ p (Or.inr (Or.inr rfl))) fun _ _ => rfl
    rw [ht]

theorem respelled_database {big : Bytes → Bool} {env env' : Env} (hm : JsonRespelled big env env') (hj : env.json = parseJson big) (x : LibTexts)
    (load : LoadOrder) (root : Path) (part : Bytes) : parseDatabaseM x env' load root part = parseDatabaseM x env load root part := by
  unfold parseDatabaseM
  refine said_same ?_ fun info _ => ?_
  · unfold parsePartInfoM
    refine said_same (respelled_map hm x root _ _ (by decide) (by decide)) fun _ _ => ?_
    exact said_same (respelled_map hm x root _ _ (by decide) (by decide)) fun _ _ => rfl
  refine said_same (respelled_json hm hj x _ root _ _ (Or.inl rfl)) fun grid _ => ?_
  refine said_same (congrArg _ (respelled_index hm root)) fun paths hi => ?_
  refine said_same (respelled_json hm hj x _ root _ _ (Or.inr rfl)) fun p _ => ?_
  refine said_same (respelled_map hm x root _ _ (by decide) (by decide)) fun _ _ => ?_
  refine said_same rfl fun pins _ => ?_
  rw [respelled_tiles hm root paths ?_]
  cases h : indexTileTypes env root with
  | ok m => rw [h] at hi; exact congrArg Outcome.ok (Said.ok.inj hi)
  | _ => rw [h] at hi; cases hi

/-- The database is the same, whether it loads or not. -/
theorem C123_database {big : Bytes → Bool} {env env' : Env} (hm : JsonRespelled big env env') (hj : env.json = parseJson big)
    (load : LoadOrder) (root : Path) (part : Bytes) : parseDatabase env' load root part = parseDatabase env load root part := by
  have x : LibTexts := ⟨fun _ => [], fun _ => ([], 0), fun _ => []⟩
  rw [← C104_same_database x, respelled_database hm hj, C104_same_database]

/-- Everything the program does is the same. -/
theorem C123_program {big : Bytes → Bool} {env env' : Env} (hm : JsonRespelled big env env') (hj : env.json = parseJson big)
    (load : LoadOrder) (ord : HashOrder) (inv : Invocation) (out : OStream) (fuel : Nat) :
    main env' load ord inv out fuel = main env load ord inv out fuel := by
  unfold main
  simp only [hm.exists_eq, C123_database hm hj]

/-- Every message is the same as well. -/
theorem C123_messages {big : Bytes → Bool} {env env' : Env} (hm : JsonRespelled big env env') (hj : env.json = parseJson big) (x : Texts)
    (load : LoadOrder) (ord : HashOrder) (inv : Invocation) (out : OStream) (fuel : Nat) :
    mainM x env' load ord inv out fuel = mainM x env load ord inv out fuel := by
  unfold mainM
  simp only [hm.exists_eq, respelled_database hm hj]

/-! ## A directory whose JSON files are JSON -/

mutual
/-- Equality of values, to be computed. -/
def jsonEq : Json → Json → Bool
  | .null, .null => true
  | .bool a, .bool b => a == b
  | .int a, .int b => a == b
  | .dbl, .dbl => true
  | .str a, .str b => a == b
  | .arr a, .arr b => itemsEq a b
  | .obj a, .obj b => membersEq a b
  | _, _ => false
def itemsEq : List Json → List Json → Bool
  | [], [] => true
  | a :: as, b :: bs => jsonEq a b && itemsEq as bs
  | _, _ => false
def membersEq : List (Bytes × Json) → List (Bytes × Json) → Bool
  | [], [] => true
  | a :: as, b :: bs => memberEq a b && membersEq as bs
  | _, _ => false
def memberEq : Bytes × Json → Bytes × Json → Bool
  | (n, a), (m, b) => n == m && jsonEq a b
end

mutual
theorem jsonEq_eq : ∀ a b, jsonEq a b = true → a = b
  | .null, b, h => by cases b <;> first | rfl | (simp [jsonEq] at h)
  | .bool a, b, h => by cases b <;> simp [jsonEq] at h; rw [h]
  | .int a, b, h => by cases b <;> simp [jsonEq] at h; rw [h]
  | .dbl, b, h => by cases b <;> first | rfl | (simp [jsonEq] at h)
  | .str a, b, h => by cases b <;> simp [jsonEq] at h; rw [h]
  | .arr a, b, h => by cases b <;> simp [jsonEq] at h; rw [itemsEq_eq _ _ h]
  | .obj a, b, h => by cases b <;> simp [jsonEq] at h; rw [membersEq_eq _ _ h]
theorem itemsEq_eq : ∀ a b, itemsEq a b = true → a = b
  | [], b, h => by cases b <;> first | rfl | (simp [itemsEq] at h)
  | a :: as, b, h => by cases b <;> simp [itemsEq] at h; rw [jsonEq_eq _ _ h.1, itemsEq_eq _ _ h.2]
theorem membersEq_eq : ∀ a b, membersEq a b = true → a = b
  | [], b, h => by cases b <;> first | rfl | (simp [membersEq] at h)
  | a :: as, b, h => by cases b <;> simp [membersEq] at h; rw [memberEq_eq _ _ h.1, membersEq_eq _ _ h.2]
theorem memberEq_eq : ∀ a b, memberEq a b = true → a = b
  | (n, a), (m, b), h => by simp [memberEq] at h; rw [h.1, jsonEq_eq _ _ h.2]
end

theorem parsed {big : Bytes → Bool} {t : Bytes} {v : Json} (h : (parseJson big t).any (jsonEq · v) = true) : parseJson big t = some v := by
  obtain ⟨w, h1, h2⟩ := Option.any_eq_true _ _ |>.1 h
  rw [h1, jsonEq_eq _ _ h2]

/-- The grid of the small directory as text. -/
def gridText : Bytes := bytes!"{\"T\":{\"type\":\"X\",\"grid_x\":0,\"grid_y\":0,\"bits\":{\"CLB_IO_CLK\":{\"baseaddr\":\"0x0\",\"frames\":36,\"offset\":2,\"words\":2}},\"pin_functions\":{},\"sites\":{},\"prohibited_sites\":[]}}"

/-- The same with a byte order mark, white space, escapes, a `-0` and something behind a NUL. -/
def gridText' : Bytes := [0xef, 0xbb, 0xbf] ++ bytes!"\n{ \"\\u0054\" : {\"t\\u0079pe\":\"X\",\"grid_x\":-0, \"grid_y\":0,\"bits\":{\"CLB_IO_CLK\":\n{\"baseaddr\":\"0\\u00780\",\"frames\":36,\"offset\":2,\"words\":2}},\"pin_functions\":{ },\"sites\":{\t},\"prohibited_sites\":[ ]}} " ++ 0 :: bytes!"]"

/-- The part of the small directory as text. -/
def partText : Bytes := bytes!"{\"idcode\":56807571,\"iobanks\":{},\"global_clock_regions\":{\"bottom\":{\"rows\":{\"0\":{\"configuration_buses\":{\"BLOCK_RAM\":{\"configuration_columns\":{\"0\":{\"frame_count\":128}}},\"CLB_IO_CLK\":{\"configuration_columns\":{\"0\":{\"frame_count\":42},\"1\":{\"frame_count\":30}}}}}}},\"top\":{\"rows\":{\"0\":{\"configuration_buses\":{\"CLB_IO_CLK\":{\"configuration_columns\":{\"0\":{\"frame_count\":36},\"1\":{\"frame_count\":28},\"2\":{\"frame_count\":2}}},\"BLOCK_RAM\":{\"configuration_columns\":{\"0\":{\"frame_count\":128}}}}},\"1\":{\"configuration_buses\":{\"CLB_IO_CLK\":{\"configuration_columns\":{\"0\":{\"frame_count\":36}}},\"BLOCK_RAM\":{\"configuration_columns\":{\"0\":{\"frame_count\":3},\"1\":{\"frame_count\":5}}}}}}}}}"

/-- The small directory with JSON texts, read by the JSON reader. -/
def textEnv (grid : Bytes) : Env :=
  { fileEnv with
    read := fun p =>
      if p = [bytes!"d", bytes!"f", kTilegrid] then some (grid, none)
      else if p = [bytes!"d", bytes!"p", kPartJson] then some (partText, none)
      else fileEnv.read p
    json := parseJson (fun _ => false) }

set_option maxRecDepth 20000 in
theorem gridText_reads : JsonGrammar.Reads (fun _ => false) gridText (gridObj [(bytes!"T", fileT)]) :=
  (C82_reads _ _ _).1 (parsed (by decide +kernel))

set_option maxRecDepth 20000 in
theorem gridText'_reads : JsonGrammar.Reads (fun _ => false) gridText' (gridObj [(bytes!"T", fileT)]) :=
  (C82_reads _ _ _).1 (parsed (by decide +kernel))

set_option maxRecDepth 20000 in
theorem partText_reads : parseJson (fun _ => false) partText = some (partObj smallDesc) := parsed (by decide +kernel)

set_option maxRecDepth 20000 in
theorem textEnv_database : parseDatabase (textEnv gridText) sameLoad [bytes!"d"] bytes!"p" = .ok ⟨fileTiles, []⟩ := by
  have h1 : parsePartInfo (textEnv gridText) [bytes!"d"] bytes!"p" = .ok ⟨bytes!"d", bytes!"f", bytes!"k", bytes!"1"⟩ := by decide +kernel
  have h2 : indexTileTypes (textEnv gridText) [bytes!"d"] = .ok filePaths := by decide +kernel
  have h3 : parseJsonFile (textEnv gridText) parseTileGrid ([bytes!"d"] ++ [bytes!"f", kTilegrid]) = .ok [(bytes!"T", fileT)] := by
    have : parseJsonFile (textEnv gridText) parseTileGrid ([bytes!"d"] ++ [bytes!"f", kTilegrid]) =
        match parseJson (fun _ => false) gridText with | none => .err | some j => parseTileGrid j := rfl
    rw [this, (C82_reads _ _ _).2 gridText_reads]
    exact file_grid
  have h4 : parseJsonFile (textEnv gridText) parsePart ([bytes!"d"] ++ [bytes!"p", kPartJson]) = .ok smallDesc := by
    have : parseJsonFile (textEnv gridText) parsePart ([bytes!"d"] ++ [bytes!"p", kPartJson]) =
        match parseJson (fun _ => false) partText with | none => .err | some j => parsePart j := rfl
    rw [this, partText_reads]
    exact file_part
  have h5 : parseFile (textEnv gridText) parsePackagePins ([bytes!"d"] ++ [bytes!"p", kPackagePins]) = .ok [] := rfl
  have h6 : tilesDatabase (textEnv gridText) filePaths = tilesDatabase fileEnv filePaths := by
    funext t
    unfold tilesDatabase
    cases h : filePaths.lookup t with
    | none => rfl
    | some d =>
      have hm := Verif.Text.mem_of_lookup h
      simp only [filePaths, List.mem_singleton, Prod.mk.injEq] at hm
      rw [hm.2]
      rfl
  unfold parseDatabase
  rw [h1, Outcome.bind_ok]
  dsimp only
  rw [h3, Outcome.bind_ok, h2, Outcome.bind_ok, h4, Outcome.bind_ok, h5, Outcome.bind_ok, h6]
  rfl

theorem textEnv_read (g : Bytes) (p : Path) : (textEnv g).read p = (textEnv gridText).read p ∨ p = [bytes!"d", bytes!"f", kTilegrid] := by
  by_cases h : p = [bytes!"d", bytes!"f", kTilegrid]
  · exact Or.inr h
  · left
    show (if p = [bytes!"d", bytes!"f", kTilegrid] then _ else _) = (if p = [bytes!"d", bytes!"f", kTilegrid] then _ else _)
    rw [if_neg h, if_neg h]

theorem textEnv_grid (g : Bytes) : (textEnv g).read [bytes!"d", bytes!"f", kTilegrid] = some (g, none) := rfl

theorem textEnv_respelled : JsonRespelled (fun _ => false) (textEnv gridText) (textEnv gridText') where
  exists_eq := rfl
  listing_eq := rfl
  json_eq := rfl
  junk_eq := rfl
  other := by
    intro p name h1 _
    rcases textEnv_read gridText' (p ++ [name]) with h | h
    · exact h
    · exact absurd (Option.some.inj (line_last h).symm) h1
  none_iff := by
    intro p
    rcases textEnv_read gridText' p with h | rfl
    · rw [h]
    · exact ⟨fun h => by (rw [textEnv_grid] at h; cases h), fun h => by (rw [textEnv_grid] at h; cases h)⟩
  same := by
    intro p name text b text' b' _ h1 h2
    rcases textEnv_read gridText' (p ++ [name]) with h | h
    · rw [h, h1] at h2; cases h2; exact Or.inl rfl
    · rw [h, textEnv_grid] at h1 h2
      cases h1; cases h2
      exact Or.inr ⟨_, gridText_reads, gridText'_reads⟩

theorem textEnv_starts : Starts (textEnv gridText) sameLoad fileInv ⟨fileTiles, []⟩ bytes!"T.F\n" :=
  ⟨by decide, by decide, Or.inr ⟨fun _ _ h => by simp [fileInv] at h, rfl⟩, bytes!"d", Or.inr ⟨rfl, rfl⟩, by decide, by decide,
    textEnv_database⟩

/-- The program succeeds with JSON texts, however they are written. -/
theorem textEnv_succeeds : ∃ fuel o, main (textEnv gridText) sameLoad sameOrder fileInv ⟨[], 0, true, false⟩ fuel = some (.ok (0, o)) := by
  obtain ⟨_, _, fuel0, h⟩ := file_example
  obtain ⟨o, _, h1, _⟩ := h fuel0 (Nat.le_refl _)
  rcases C58_stages_partial fileEnv sameLoad sameOrder fileInv _ o fuel0 0 h1 with ⟨h, _⟩ | ⟨_, db, text, _, _, hs, ha, he⟩
  · cases h
  · obtain ⟨rfl, rfl⟩ := starts_unique hs file_starts
    exact ⟨fuel0, o, main_started _ _ _ _ _ _ _ _ textEnv_starts _ _ ha _ he⟩

example : ∃ fuel o, main (textEnv gridText') sameLoad sameOrder fileInv ⟨[], 0, true, false⟩ fuel = some (.ok (0, o)) := by
  obtain ⟨fuel, o, h⟩ := textEnv_succeeds
  exact ⟨fuel, o, (C123_program textEnv_respelled rfl _ _ _ _ _).trans h⟩

end Verif.Props
