import Verif.Spec.Needed
import Verif.Props.C124
import Verif.Props.C109
/-! # C125: the files a design needs -/
namespace Verif.Props
open Verif.Db Verif.Asm Verif.Spec Verif.Text Verif.Xc7

theorem written_place {text pre line post : Bytes} (hp : Place text pre line post) {G : FasmFeature} (hG : Written pre G) : Written text G := by
  obtain ⟨l, st, n, ⟨p, q, h1, h2, h3⟩, h4⟩ := hG
  obtain ⟨e, hpre, _⟩ := hp
  refine ⟨l, st, n, ⟨p, q ++ (line ++ post), by rw [e, h1]; simp, h2, ?_⟩, h4⟩
  rcases h3 with h3 | ⟨rfl, h5, h6⟩
  · exact Or.inl h3
  · rcases hpre with rfl | ⟨p', rfl⟩
    · rw [List.append_nil] at h1
      exact absurd (List.append_eq_nil_iff.1 h1.symm).2 h5
    · exfalso
      rw [List.append_nil] at h1
      rcases List.append_eq_append_iff.1 h1 with ⟨x, h7, h8⟩ | ⟨x, h7, h8⟩
      · exact h6 (by
          cases x with
          | nil => rw [List.nil_append] at h8; rw [← h8]; simp
          | cons c x =>
            rw [h7] at h1
            have : [0x0a] = (c :: x) ++ l := h8
            rw [List.cons_append, List.cons.injEq] at this
            exact absurd (List.append_eq_nil_iff.1 this.2.symm).2 h5)
      · exact h6 (by rw [h8]; simp)

section
variable {T : Tiles} {text : Bytes} {b : Bytes → Outcome (Option SegBits)} (h : ∀ ty, NamesType T text ty → b ty = T.bits ty)
include h

theorem featureBits_needed {tile feature : Bytes} {addr : Nat} (ha : AsksFor T text tile feature addr) (bits : List BitCall) :
    FeatureBits { T with bits := b } tile feature addr bits ↔ FeatureBits T tile feature addr bits := by
  constructor
  · rintro ⟨t, ty, f, sb, h1, h2, h3, h4⟩
    exact ⟨t, ty, f, sb, h1, h2, by rw [← h ty ⟨tile, feature, addr, t, f, ha, h1, h2⟩]; exact h3, h4⟩
  · rintro ⟨t, ty, f, sb, h1, h2, h3, h4⟩
    exact ⟨t, ty, f, sb, h1, h2, by show b ty = _; rw [h ty ⟨tile, feature, addr, t, f, ha, h1, h2⟩]; exact h3, h4⟩

theorem featureOk_needed {F : FasmFeature} (hF : Design T text F) : FeatureOk { T with bits := b } F ↔ FeatureOk T F := by
  unfold FeatureOk
  refine and_congr Iff.rfl (and_congr Iff.rfl ?_)
  constructor
  · intro h1 tile feature addr h2
    obtain ⟨bits, h3, h4⟩ := h1 tile feature addr h2
    exact ⟨bits, (featureBits_needed h ⟨F, hF, h2⟩ bits).1 h3, h4⟩
  · intro h1 tile feature addr h2
    obtain ⟨bits, h3, h4⟩ := h1 tile feature addr h2
    exact ⟨bits, (featureBits_needed h ⟨F, hF, h2⟩ bits).2 h3, h4⟩

theorem agree_needed : Agree T { T with bits := b } text where
  pudc := fun _ _ => Iff.rfl
  named := fun _ _ _ ha => ⟨rfl, featureBits_needed h ha⟩
  bankOf := fun _ _ _ _ _ _ _ => rfl
  bank := fun _ _ _ => rfl
  banked := fun _ _ _ => rfl

theorem assembles_needed : Assembles { T with bits := b } text ↔ Assembles T text := by
  refine and_congr Iff.rfl (and_congr Iff.rfl (and_congr ?_ Iff.rfl))
  exact ⟨fun h1 F hF => (featureOk_needed h hF).1 (h1 F hF), fun h1 F hF => (featureOk_needed h hF).2 (h1 F hF)⟩

theorem refused_needed : TextRefused { T with bits := b } text ↔ TextRefused T text := by
  refine and_congr Iff.rfl ⟨fun h0 => ?_, fun h0 => ?_⟩
  · cases h0 with
    | line pre bad post h h1 h2 => exact .line pre bad post h h1 h2
    | tick pre body post h h0 h1 h2 h3 => exact .tick pre body post h h0 h1 h2 h3
    | name h0 h1 h2 pre line post F h3 h4 h5 h6 =>
      exact .name h0 h1 (fun G hG => (featureOk_needed h (Or.inl (Or.inl hG))).1 (h2 G hG)) pre line post F h3
        (fun G hG => (featureOk_needed h (Or.inl (Or.inr (written_place h3 hG)))).1 (h4 G hG)) h5 h6
  · cases h0 with
    | line pre bad post h h1 h2 => exact .line pre bad post h h1 h2
    | tick pre body post h h0 h1 h2 h3 => exact .tick pre body post h h0 h1 h2 h3
    | name h0 h1 h2 pre line post F h3 h4 h5 h6 =>
      exact .name h0 h1 (fun G hG => (featureOk_needed h (Or.inl (Or.inl hG))).2 (h2 G hG)) pre line post F h3
        (fun G hG => (featureOk_needed h (Or.inl (Or.inr (written_place h3 hG)))).2 (h4 G hG)) h5 h6

end

/-- A part that is found is in the table. -/
theorem table_of_info {env : Env} {root : Path} {name : Bytes} {info : PartInfo} (h : parsePartInfo env root name = .ok info) :
    PartTable env root name (some info) := by
  unfold parsePartInfo at h
  cases h1 : env.read (root ++ [kMapping, kPartsYaml]) with
  | none => rw [h1] at h; cases h
  | some P =>
    rw [h1] at h
    cases h2 : env.read (root ++ [kMapping, kDevicesYaml]) with
    | none => rw [h2] at h; cases h
    | some D =>
      rw [h2] at h
      dsimp only at h
      have hne : parsePartsInfos P.1 D.1 ≠ .err := by intro he; rw [he] at h; cases h
      rcases mapping_lines P.1 with ⟨ps, h3, h4⟩ | ⟨ls, h3, l, h4, h5⟩
      · rcases mapping_lines D.1 with ⟨ds, h6, h7⟩ | ⟨ls, h6, l, h7, h8⟩
        · have some_of : ∀ {α : Type} {o : Option α}, ¬ o = none → o.isSome := by intro α o h; cases o; exact absurd rfl h; rfl
          have hf : ∀ e ∈ entriesOf (ds.map (·.2)), e.1 ≠ [] → (propValue e.2 nameFabric).isSome := fun e he hn =>
            some_of fun h9 => hne (C40_rejected P.1 D.1 ps ds h3 h4 h6 h7 (Or.inl ⟨e, he, hn, h9⟩))
          have hi : ∀ e ∈ entriesOf (ps.map (·.2)), e.1 ≠ [] → (infoOf (ds.map (·.2)) e.2).isSome := fun e he hn =>
            some_of fun h9 => hne (C40_rejected P.1 D.1 ps ds h3 h4 h6 h7 (Or.inr ⟨e, he, hn, h9⟩))
          obtain ⟨m, hm, hl⟩ := C40_table P.1 D.1 ps ds h3 h4 h6 h7 hf hi
          refine ⟨ps, ds, ⟨P.1, P.2, h1, h3⟩, ⟨D.1, D.2, h2, h6⟩, h4, h7, hf, hi, ?_⟩
          rw [hm, Outcome.bind_ok, hl] at h
          cases h9 : (entryOf (ps.map (·.2)) name).bind (infoOf (ds.map (·.2))) with
          | none => rw [h9] at h; cases h
          | some i => rw [h9] at h; cases h; rfl
        · exact absurd (C40_bad_device_line P.1 D.1 ls h6 l h7 h8) hne
      · exact absurd (C40_bad_part_line P.1 D.1 ls h3 l h4 h5) hne

section
variable {env env' : Env} {root : Path} {part : Bytes} {types : Bytes → Prop} (hm : NeededAlike env env' root part types)
include hm

theorem needed_info : parsePartInfo env' root part = parsePartInfo env root part := by
  have h1 : env'.read (root ++ [kMapping, kPartsYaml]) = env.read (root ++ [kMapping, kPartsYaml]) := hm.parts
  have h2 : env'.read (root ++ [kMapping, kDevicesYaml]) = env.read (root ++ [kMapping, kDevicesYaml]) := hm.devices
  unfold parsePartInfo
  rw [h1, h2]

theorem needed_type {entries : List (Path × Bool)} (hl : env.listing root = some entries) {T : Bytes} (hT : types T) {dir : Path}
    (hd : FirstTypeDir entries T dir) (d : DbPaths)
    (h1 : FileIfPresent env (dir ++ [segbitsFile (lowerCase T)]) d.segbits) (h2 : FileIfPresent env (dir ++ [blockRamFile (lowerCase T)]) d.blockRam)
    (h3 : FileIfPresent env (dir ++ [ppipsFile (lowerCase T)]) d.ppips) : parseTileType env' d = parseTileType env d := by
  obtain ⟨f1, f2, f3⟩ := hm.files entries hl T hT dir hd
  have key : ∀ {p : Path} {o : Option Path}, SameFile env env' p → FileIfPresent env p o → ∀ q, o = some q → env'.read q = env.read q := by
    intro p o hs hf q hq
    rw [fileIfPresent_iff] at hf
    rw [hf] at hq
    unfold ifExists at hq
    by_cases he : env.fileExists p = true
    · rw [if_pos he] at hq
      cases hq
      exact hs.2 he
    · rw [if_neg he] at hq; cases hq
  obtain ⟨sb, br, pp⟩ := d
  unfold parseTileType parseFile
  rw [hm.junk_eq]
  refine bind_same ?_ fun _ _ => bind_same ?_ fun _ _ => bind_same ?_ fun _ _ => rfl
  · cases pp with
    | none => rfl
    | some p => dsimp only; rw [key f3 h3 p rfl]
  · cases sb with
    | none => rfl
    | some p => dsimp only; rw [key f1 h1 p rfl]
  · cases br with
    | none => rfl
    | some p => dsimp only; rw [key f2 h2 p rfl]

theorem needed_bits {paths paths' : List (Bytes × DbPaths)} (hi : indexTileTypes env root = .ok paths) (hi' : indexTileTypes env' root = .ok paths')
    {T : Bytes} (hT : types T) : tilesDatabase env' paths' T = tilesDatabase env paths T := by
  cases hl : env.listing root with
  | none => unfold indexTileTypes at hi; rw [hl] at hi; cases hi
  | some entries =>
    cases hl' : env'.listing root with
    | none => rw [(hm.listed).2 hl'] at hl; cases hl
    | some entries' =>
      have i := C44_index env root entries paths hl hi T
      have i' := C44_index env' root entries' paths' hl' hi' T
      have hd := hm.dirs entries entries' hl hl' T hT
      have same : ∀ {dir : Path}, FirstTypeDir entries T dir → ∀ {p : Path}, SameFile env env' p → ∀ o, FileIfPresent env' p o ↔ FileIfPresent env p o := by
        intro dir _ p hs o
        rw [fileIfPresent_iff, fileIfPresent_iff]
        unfold ifExists
        rw [hs.1]
      have eq : ∀ d, paths'.lookup T = some d ↔ paths.lookup T = some d := by
        intro d
        rw [i, i']
        constructor
        · rintro ⟨dir, h1, h2, h3, h4⟩
          have h1 := (hd dir).2 h1
          obtain ⟨f1, f2, f3⟩ := hm.files entries hl T hT dir h1
          exact ⟨dir, h1, (same h1 f1 _).1 h2, (same h1 f2 _).1 h3, (same h1 f3 _).1 h4⟩
        · rintro ⟨dir, h1, h2, h3, h4⟩
          obtain ⟨f1, f2, f3⟩ := hm.files entries hl T hT dir h1
          exact ⟨dir, (hd dir).1 h1, (same h1 f1 _).2 h2, (same h1 f2 _).2 h3, (same h1 f3 _).2 h4⟩
      unfold tilesDatabase
      cases h : paths.lookup T with
      | none =>
        cases h' : paths'.lookup T with
        | none => rfl
        | some d => rw [(eq d).1 h'] at h; cases h
      | some d =>
        rw [(eq d).2 h]
        obtain ⟨dir, h1, h2, h3, h4⟩ := (i d).1 h
        dsimp only
        rw [needed_type hm hl hT h1 d h2 h3 h4]

theorem needed_paths : Alike (fun paths paths' => ∀ T, types T → tilesDatabase env' paths' T = tilesDatabase env paths T)
    (indexTileTypes env root) (indexTileTypes env' root) := by
  rcases C44_error env root with ⟨h2, h3⟩ | ⟨m, h2⟩
  · rcases C44_error env' root with ⟨h4, h5⟩ | ⟨m', h4⟩
    · rw [h3, h5]; exact Or.inl ⟨rfl, fun _ h => by cases h⟩
    · unfold indexTileTypes at h4; rw [hm.listed.1 h2] at h4; cases h4
  · rcases C44_error env' root with ⟨h4, h5⟩ | ⟨m', h4⟩
    · unfold indexTileTypes at h2; rw [hm.listed.2 h4] at h2; cases h2
    · exact Or.inr ⟨m, m', h2, h4, fun T hT => needed_bits hm h2 h4 hT⟩

theorem needed_grid {info : PartInfo} (h1 : parsePartInfo env root part = .ok info) :
    parseJsonFile env' parseTileGrid (root ++ [info.fabric, kTilegrid]) = parseJsonFile env parseTileGrid (root ++ [info.fabric, kTilegrid]) := by
  have : env'.read (root ++ [info.fabric, kTilegrid]) = env.read (root ++ [info.fabric, kTilegrid]) := hm.grid info (table_of_info h1)
  unfold parseJsonFile
  rw [this, hm.json_eq]

theorem needed_part : parseJsonFile env' parsePart (root ++ [part, kPartJson]) = parseJsonFile env parsePart (root ++ [part, kPartJson]) := by
  have : env'.read (root ++ [part, kPartJson]) = env.read (root ++ [part, kPartJson]) := hm.part
  unfold parseJsonFile
  rw [this, hm.json_eq]

theorem needed_pins : parseFile env' parsePackagePins (root ++ [part, kPackagePins]) = parseFile env parsePackagePins (root ++ [part, kPackagePins]) := by
  have : env'.read (root ++ [part, kPackagePins]) = env.read (root ++ [part, kPackagePins]) := hm.pins
  unfold parseFile
  rw [this]

/-- The databases: rejected both, or the same but for the tile types that are not needed. -/
theorem needed_database (load : LoadOrder) :
    Alike (fun db db' : PartDatabase => (∃ b, db'.tiles = { db.tiles with bits := b }) ∧ ∀ T, types T → db'.tiles.bits T = db.tiles.bits T)
      (parseDatabase env load root part) (parseDatabase env' load root part) := by
  unfold parseDatabase
  refine alike_bind (R := fun i i' => i = i' ∧ parsePartInfo env root part = .ok i) ?_ fun info _ h => ?_
  · rw [needed_info hm]
    cases h : parsePartInfo env root part with
    | ok i => exact alike_ok ⟨rfl, rfl⟩
    | err => exact Or.inl ⟨rfl, fun _ h => by cases h⟩
    | abort => exact Or.inl ⟨rfl, fun _ h => by cases h⟩
    | ub => exact Or.inl ⟨rfl, fun _ h => by cases h⟩
  obtain ⟨rfl, hi⟩ := h
  refine alike_bind (R := (· = ·)) ?_ fun grid _ h => ?_
  · rw [needed_grid hm hi]; exact alike_refl (fun _ => rfl) _
  subst h
  refine alike_bind (needed_paths hm) fun paths paths' hb => ?_
  refine alike_bind (R := (· = ·)) ?_ fun p _ h => ?_
  · rw [needed_part hm]; exact alike_refl (fun _ => rfl) _
  subst h
  refine alike_bind (R := (· = ·)) ?_ fun pins _ h => ?_
  · rw [needed_pins hm]; exact alike_refl (fun _ => rfl) _
  subst h
  exact alike_ok ⟨⟨_, rfl⟩, hb⟩

end

/-- The directories agree on what the design needs, whichever directory is set. -/
def NeededByRun (env env' : Env) (load : LoadOrder) (inv : Invocation) : Prop :=
  ∀ path, Setting inv.dbFlag inv.dbEnv path →
    NeededAlike env env' [path] inv.part fun T => ∃ db text, Starts env load inv db text ∧ NamesType db.tiles text T

section
variable {env env' : Env} {load : LoadOrder} {inv : Invocation} (hn : NeededByRun env env' load inv)
include hn

/-- Both runs start, or neither; where they do, the databases differ only in tile types the design does not name. -/
theorem needed_starts {db db' : PartDatabase} {text : Bytes} (hs : Starts env load inv db text) (hs' : Starts env' load inv db' text) :
    ∃ b, db'.tiles = { db.tiles with bits := b } ∧ ∀ ty, NamesType db.tiles text ty → b ty = db.tiles.bits ty := by
  obtain ⟨_, _, _, path, h4, _, _, h7⟩ := id hs
  obtain ⟨_, _, _, path', h4', _, _, h7'⟩ := id hs'
  have he : path' = path := by
    have := (C61_setting _ _ _).2 h4
    rw [(C61_setting _ _ _).2 h4'] at this
    exact Outcome.ok.inj this
  subst he
  rcases needed_database (hn _ h4) load with ⟨e, h⟩ | ⟨m, m', h1, h2, ⟨b, h3⟩, h5⟩
  · exact absurd h7 (h _)
  · rw [h7] at h1; rw [h7'] at h2
    cases h1; cases h2
    refine ⟨b, h3, fun ty hty => ?_⟩
    have := h5 ty ⟨db, text, hs, hty⟩
    rw [h3] at this
    exact this

theorem needed_configured (path : Bytes) : Configured env inv path ↔ Configured env' inv path := by
  constructor
  · rintro ⟨a, b, c, d, e⟩
    exact ⟨a, b, c, by rw [(hn path b).root_eq]; exact d, e⟩
  · rintro ⟨a, b, c, d, e⟩
    exact ⟨a, b, c, by rw [← (hn path b).root_eq]; exact d, e⟩

theorem needed_start {db : PartDatabase} {text : Bytes} (hs : Starts env load inv db text) : ∃ db', Starts env' load inv db' text := by
  obtain ⟨h1, h2, h3, path, h4, h5, h6, h7⟩ := id hs
  obtain ⟨db', h8⟩ := (alike_err (needed_database (hn path h4) load)).2.1 ⟨db, h7⟩
  exact ⟨db', h1, h2, h3, path, h4, h5, by rw [(hn path h4).root_eq]; exact h6, h8⟩

theorem needed_start' {db' : PartDatabase} {text : Bytes} (hs : Starts env' load inv db' text) : ∃ db, Starts env load inv db text := by
  obtain ⟨h1, h2, h3, path, h4, h5, h6, h7⟩ := id hs
  obtain ⟨db', h8⟩ := (alike_err (needed_database (hn path h4) load)).2.2 ⟨db', h7⟩
  exact ⟨db', h1, h2, h3, path, h4, h5, by rw [← (hn path h4).root_eq]; exact h6, h8⟩

/-- The program succeeds with one directory exactly if it does with the other, and writes the same. -/
theorem C125_program (hload : LoadOk load) (ord ord' : HashOrder) (hord : Permutes ord) (hord' : Permutes ord') (out o : OStream) (fuel : Nat) :
    main env load ord inv out fuel = some (.ok (0, o)) ↔ main env' load ord' inv out fuel = some (.ok (0, o)) := by
  have key : ∀ db db' text, Starts env load inv db text → Starts env' load inv db' text →
      (main env load ord inv out fuel = some (.ok (0, o)) ↔ main env' load ord' inv out fuel = some (.ok (0, o))) := by
    intro db db' text hs hs'
    obtain ⟨b, h1, h2⟩ := needed_starts hn hs hs'
    exact C107_program env env' load load hload hload ord ord' hord hord' inv inv db db' text hs hs' rfl rfl (by rw [h1]) (by rw [h1]; exact agree_needed h2) out o fuel
  constructor
  · intro h
    rcases C58_stages_partial env load ord inv out o fuel 0 h with ⟨h2, _⟩ | ⟨_, db, text, _, _, h2, _⟩
    · cases h2
    · obtain ⟨db', h3⟩ := needed_start hn h2
      exact (key db db' text h2 h3).1 h
  · intro h
    rcases C58_stages_partial env' load ord' inv out o fuel 0 h with ⟨h2, _⟩ | ⟨_, db, text, _, _, h2, _⟩
    · cases h2
    · obtain ⟨db', h3⟩ := needed_start' hn h2
      exact (key db' db text h3 h2).2 h

/-- Whatever becomes of the run: refused, printed, endless, broken off. -/
theorem C125_ends (hload : LoadOk load) (ord ord' : HashOrder) (hord : Permutes ord) (hord' : Permutes ord')
    (hshort : ∀ text, Input inv text → ∀ line, IsLine text line → line.length < 2 ^ 28) (out : OStream) :
    SameWay out (main env load ord inv out) (main env' load ord' inv out) := by
  refine same_way hload hload hord hord' inv out hshort (needed_configured hn) (fun path hc => (alike_err (needed_database (hn path hc.2.1) load)).1)
    (fun path hc => (alike_err (needed_database (hn path hc.2.1) load)).2) ?_ (fun o fuel => C125_program hn hload ord ord' hord hord' out o fuel)
  intro db db' text hs hs'
  obtain ⟨b, h1, h2⟩ := needed_starts hn hs hs'
  rw [h1]
  exact ⟨(assembles_needed h2).symm, (refused_needed h2).symm⟩

/-- The same in any other hash order, where nothing is left to it. -/
theorem C125_any_order (load' : LoadOrder) (hload : LoadOk load) (hload' : LoadOk load') (ord ord' : HashOrder) (hord : Permutes ord) (hord' : Permutes ord')
    (hset : ∀ db text, Starts env load inv db text → Settled db.tiles)
    (hshort : ∀ text, Input inv text → ∀ line, IsLine text line → line.length < 2 ^ 28) (out : OStream) :
    SameWay out (main env load ord inv out) (main env' load' ord' inv out) := by
  refine sameWay_trans (C125_ends hn hload ord ord hord hord hshort out) (C66_ends env' load load' hload hload' ord ord' hord hord' inv ?_ hshort out)
  intro db' text hs'
  obtain ⟨db, hs⟩ := needed_start' hn hs'
  obtain ⟨b, h1, _⟩ := needed_starts hn hs hs'
  have h := hset db text hs
  rw [h1]
  exact ⟨h.aliases, h.onePudc, h.banks, h.buses⟩

end

/-! ## Example: the small directory among other files -/

/-- The small directory with the files of a type `Y` that cannot be read, and files of the type `X` in a second directory. -/
def litteredEnv : Env :=
  { fileEnv with
    fileExists := fun p => fileEnv.fileExists p || p == [bytes!"d", bytes!"g", segbitsFile bytes!"y"] || p == [bytes!"d", bytes!"h", segbitsFile bytes!"x"]
    read := fun p =>
      if p = [bytes!"d", bytes!"g", segbitsFile bytes!"y"] then some (bytes!"Y.F zz\n", none)
      else if p = [bytes!"d", bytes!"h", segbitsFile bytes!"x"] then some (bytes!"X.F 05_01\n", none)
      else fileEnv.read p
    listing := fun _ => some [([bytes!"d", bytes!"g", tileTypeFile bytes!"Y"], true), ([bytes!"d", bytes!"f", tileTypeFile bytes!"X"], true),
      ([bytes!"d", bytes!"h", tileTypeFile bytes!"X"], true), ([bytes!"d", bytes!"README"], true)] }

/-- The type `Y` cannot be loaded. -/
theorem littered_bad : ∃ paths, indexTileTypes litteredEnv [bytes!"d"] = .ok paths ∧ tilesDatabase litteredEnv paths bytes!"Y" = .ok none := by
  refine ⟨_, rfl, by decide +kernel⟩

/-- `T.F` asks for a bit of the type `X` only. -/
theorem names_only {ty : Bytes} (h : NamesType fileTiles bytes!"T.F\n" ty) : ty = bytes!"X" := by
  obtain ⟨tile, feature, addr, t, f, ⟨F, h1, h2⟩, g1, g2⟩ := h
  have hn : NoStepdown fileTiles bytes!"T.F\n" := noStepdown_of (by decide) _ rfl (by decide)
  have hw : Written bytes!"T.F\n" F := by
    rcases (design_of_noStepdown hn F).1 h1 with ⟨t, p, s, h3, _⟩ | h
    · rw [← firstPin_iff] at h3
      have : firstPin fileTiles.grid = none := by decide
      rw [this] at h3
      cases h3
    · exact h
  obtain ⟨r, hr, hn⟩ : ∃ r, (getlines bytes!"T.F\n").mapM plainLine = .ok r ∧ ∀ G ∈ r.flatten, G.name = bytes!"T.F" ∧ G.start = 0 ∧ G.width = 1 :=
    ⟨_, rfl, by decide⟩
  obtain ⟨hF, _, _⟩ := hn F (((parsed_inv bytes!"T.F\n" r hr).2 F).2 hw)
  obtain ⟨e, hd, _⟩ := h2
  rw [hF] at e
  obtain ⟨ht, hf⟩ := cut_unique (c := 0x2e) (a := bytes!"T") (b := bytes!"F") e (by decide) hd
  subst ht hf
  have : fileTiles.grid.lookup bytes!"T" = some fileT := rfl
  rw [this] at g1
  cases g1
  rcases g2 with ⟨_, h, _⟩ | ⟨pre, bus, block, a, post, h1, h2, _⟩
  · exact h
  · have h3 : ∀ e ∈ fileT.bits, e.2.alias? = none := by decide
    have := h3 (bus, block) (by rw [h1]; simp)
    rw [h2] at this
    cases this

theorem first_small {dir : Path} (h : FirstTypeDir [([bytes!"d", bytes!"f", tileTypeFile bytes!"X"], true)] bytes!"X" dir) :
    dir = [bytes!"d", bytes!"f"] := by
  obtain ⟨pre, post, h, _⟩ := h
  cases pre with
  | nil =>
    have h := congrArg List.dropLast (congrArg Prod.fst (List.cons.inj h).1)
    rw [List.dropLast_concat] at h
    exact h.symm
  | cons e pre => have := (List.cons.inj h).2; simp at this

theorem littered_first (dir : Path) : FirstTypeDir [([bytes!"d", bytes!"f", tileTypeFile bytes!"X"], true)] bytes!"X" dir ↔
    FirstTypeDir [([bytes!"d", bytes!"g", tileTypeFile bytes!"Y"], true), ([bytes!"d", bytes!"f", tileTypeFile bytes!"X"], true),
      ([bytes!"d", bytes!"h", tileTypeFile bytes!"X"], true), ([bytes!"d", bytes!"README"], true)] bytes!"X" dir := by
  have last : ∀ (a : Path) (x y : Bytes) (d : Path), a ++ [x] = d ++ [y] → x = y := by
    intro a x y d h
    exact (List.cons.inj (List.append_inj' h rfl).2).1
  have ne : ∀ d : Path, ([bytes!"d", bytes!"g", tileTypeFile bytes!"Y"], true) ≠ (d ++ [tileTypeFile bytes!"X"], true) := by
    intro d h
    have := last [bytes!"d", bytes!"g"] _ _ d (Prod.mk.inj h).1
    exact absurd this (by decide)
  constructor
  · intro h
    have := first_small h
    subst this
    refine ⟨[([bytes!"d", bytes!"g", tileTypeFile bytes!"Y"], true)], _, rfl, fun e he d => ?_⟩
    rw [List.mem_singleton.1 he]
    exact ne d
  · rintro ⟨pre, post, h, h'⟩
    have key : dir = [bytes!"d", bytes!"f"] := by
      cases pre with
      | nil => exact absurd (List.cons.inj h).1 (ne dir)
      | cons e pre =>
        have h := (List.cons.inj h).2
        cases pre with
        | nil =>
          have h := congrArg List.dropLast (congrArg Prod.fst (List.cons.inj h).1)
          rw [List.dropLast_concat] at h
          exact h.symm
        | cons e2 pre =>
          have e3 := (List.cons.inj h).1
          exact absurd e3.symm (h' e2 (by simp) [bytes!"d", bytes!"f"])
    subst key
    exact ⟨[], [], rfl, fun e he => by cases he⟩

theorem littered_needed : NeededByRun fileEnv litteredEnv sameLoad fileInv := by
  intro path hp
  have : path = bytes!"d" := by
    rcases hp with ⟨h, _⟩ | ⟨_, h⟩
    cases h
    rfl
  subst this
  have types : ∀ T, (∃ db text, Starts fileEnv sameLoad fileInv db text ∧ NamesType db.tiles text T) → T = bytes!"X" := by
    rintro T ⟨db, text, hs, h⟩
    obtain ⟨rfl, rfl⟩ := starts_unique hs file_starts
    exact names_only h
  exact
    { json_eq := rfl
      junk_eq := rfl
      root_eq := by decide +kernel
      parts := by decide +kernel
      devices := by decide +kernel
      grid := by
        intro info h
        have h1 := (table_lookup h).1 info rfl
        have h2 : parsePartInfo fileEnv [bytes!"d"] bytes!"p" = .ok ⟨bytes!"d", bytes!"f", bytes!"k", bytes!"1"⟩ := by decide +kernel
        have h3 : parsePartInfo fileEnv [bytes!"d"] fileInv.part = .ok ⟨bytes!"d", bytes!"f", bytes!"k", bytes!"1"⟩ := h2
        rw [h3] at h1
        cases h1
        decide +kernel
      part := by decide +kernel
      pins := by decide +kernel
      listed := ⟨fun h => (by cases h), fun h => (by cases h)⟩
      dirs := by
        intro entries entries' h h' T hT dir
        cases h; cases h'
        rw [types T hT]
        exact littered_first dir
      files := by
        intro entries h T hT dir hd
        cases h
        have hT := types T hT
        subst hT
        have := first_small hd
        subst this
        have small : lowerCase bytes!"X" = bytes!"x" := by decide
        rw [small]
        refine ⟨⟨by decide +kernel, fun _ => by decide +kernel⟩, ⟨by decide +kernel, fun _ => by decide +kernel⟩, ⟨by decide +kernel, fun _ => by decide +kernel⟩⟩ }

/-- The program prints the same with them. -/
example : ∃ fuel o, main litteredEnv sameLoad sameOrder fileInv ⟨[], 0, true, false⟩ fuel = some (.ok (0, o)) := by
  obtain ⟨p, _, fuel, h⟩ := file_example
  obtain ⟨o, c, h1, _⟩ := h fuel (Nat.le_refl _)
  exact ⟨fuel, o, (C125_program littered_needed sameLoad_ok sameOrder sameOrder sameOrder_permutes sameOrder_permutes _ o fuel).1 h1⟩

end Verif.Props
