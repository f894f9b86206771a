import Verif.Spec.Directory
import Verif.Props.C69
/-! # C70: loading a database directory -/
namespace Verif.Props
open Verif.Db Verif.Spec Verif.Asm Verif.Text Verif.Xc7

theorem linesGenerator_behind {σ : Type} (behind : Option UInt8) (content : Bytes) (ls : List Bytes) (h : LinesOf content ls)
    (hb : behind = none → content = unlines ls) (sink : σ → Nat → Bytes → Outcome σ) (st : σ) :
    linesGenerator behind content sink st = linesGenerator (some 0) content sink st := by
  cases behind with
  | some b => rw [C35_lines_partial b content ls h, C35_lines_partial 0 content ls h]
  | none => rw [hb rfl, C35_terminated none ls h.1, C35_terminated (some 0) ls h.1]

theorem segbits_behind (junk : Bytes → Nat) (behind : Option UInt8) (content : Bytes) (ls : List Bytes) (h : LinesOf content ls)
    (hb : behind = none → content = unlines ls) :
    parseSegmentsBits junk behind content = parseSegmentsBits junk (some 0) content := by
  unfold parseSegmentsBits
  rw [linesGenerator_behind behind content ls h hb]

theorem pips_behind (behind : Option UInt8) (content : Bytes) (ls : List Bytes) (h : LinesOf content ls)
    (hb : behind = none → content = unlines ls) : parsePseudoPIPs behind content = parsePseudoPIPs (some 0) content := by
  unfold parsePseudoPIPs
  rw [linesGenerator_behind behind content ls h hb]

theorem pins_behind (behind : Option UInt8) (content : Bytes) (ls : List Bytes) (h : LinesOf content ls)
    (hb : behind = none → content = unlines ls) : parsePackagePins behind content = parsePackagePins (some 0) content := by
  unfold parsePackagePins
  rw [linesGenerator_behind behind content ls h hb]

theorem table_lookup {env : Env} {root : Path} {name : Bytes} {info : Option PartInfo} (h : PartTable env root name info) :
    (∀ i, info = some i → parsePartInfo env root name = .ok i) ∧ (info = none → parsePartInfo env root name = .err) := by
  obtain ⟨parts, devices, ⟨pc, pb, h1, h2⟩, ⟨dc, db, h3, h4⟩, h5, h6, h7, h8, rfl⟩ := h
  obtain ⟨m, hm, hl⟩ := C40_table pc dc parts devices h2 h5 h4 h6 h7 h8
  have h1' : env.read (root ++ [kMapping, kPartsYaml]) = some (pc, pb) := h1
  have h3' : env.read (root ++ [kMapping, kDevicesYaml]) = some (dc, db) := h3
  unfold parsePartInfo
  rw [h1']
  dsimp only
  rw [h3']
  dsimp only
  rw [hm, Outcome.bind_ok, hl]
  refine ⟨fun i hi => ?_, fun hi => ?_⟩ <;> rw [hi]

theorem json_loads {α : Type} {env : Env} {p : Path} {means : Json → α → Prop} {a : α} {parse : Json → Outcome α}
    (h : JsonFile env p means a) (hp : ∀ j, means j a → parse j = .ok a) : parseJsonFile env parse p = .ok a := by
  obtain ⟨c, j, h1, h2, h3⟩ := h
  unfold parseJsonFile
  rw [h1]
  dsimp only
  rw [h2]
  exact hp j h3

theorem pins_load {env : Env} {root : Path} {name : Bytes} {pins : PackagePins} (h : PinFile env root name pins) :
    parseFile env parsePackagePins (root ++ [name, kPackagePins]) = .ok pins := by
  obtain ⟨header, rows, ⟨c, b, h1, h2, h3⟩, h4, h5, h6, rfl⟩ := h
  have h1' : env.read (root ++ [name, kPackagePins]) = some (c, b) := h1
  unfold parseFile
  rw [h1']
  dsimp only
  rw [pins_behind b c _ h2 h3]
  exact C39_file 0 c header rows h2 h4 h5 h6

/-- A directory with well-formed files is loaded: the grid, the part and the bank registry are those of the files. -/
theorem C70_loads (env : Env) (load : LoadOrder) (hload : LoadOk load) (root : Path) (name : Bytes) (grid : TileGrid)
    (part : Db.Part) (pins : PackagePins) (hdir : PartDir env root name grid part pins)
    (entries : List (Path × Bool)) (hl : env.listing root = some entries) :
    ∃ db, parseDatabase env load root name = .ok db ∧ Reordered TileReordered grid db.tiles.grid ∧
      PartReordered part db.tiles.part ∧ db.cache = [] ∧
      (∀ tile bank, bank ∈ db.tiles.banks.tileBanks tile ↔ InBank part pins bank tile) ∧
      (∀ bank, db.tiles.banks.tiles bank = none ↔ ∀ tile, ¬ InBank part pins bank tile) ∧
      ∀ bank tiles, db.tiles.banks.tiles bank = some tiles → tiles.Nodup ∧ ∀ tile, tile ∈ tiles ↔ InBank part pins bank tile := by
  obtain ⟨⟨info, ht, hg⟩, hp, hpins⟩ := hdir
  obtain ⟨paths, hpaths⟩ : ∃ paths, indexTileTypes env root = .ok paths := by
    rcases C44_error env root with ⟨h, _⟩ | h
    · rw [hl] at h; cases h
    · exact h
  have hin : ∀ bank tile, InBank (load.part part) pins bank tile ↔ InBank part pins bank tile := by
    intro bank tile
    unfold InBank
    have hperm := (hload.part part).2.1
    refine or_congr Iff.rfl ?_
    constructor
    · rintro ⟨loc, hm, rfl⟩; exact ⟨loc, hperm.mem_iff.2 hm, rfl⟩
    · rintro ⟨loc, hm, rfl⟩; exact ⟨loc, hperm.mem_iff.1 hm, rfl⟩
  refine ⟨_, parseDatabase_iff.2 ⟨info, grid, paths, part, pins, (table_lookup ht).1 _ rfl,
    json_loads hg fun j hj => C42_complete j grid hj, hpaths, json_loads hp fun j hj => (C41_iff j part).2 hj,
    pins_load hpins, rfl⟩, hload.grid grid, hload.part part, rfl, ?_, ?_, ?_⟩
  · intro tile bank
    rw [← hin]
    exact C43_tile_banks _ _ _ tile bank
  · intro bank
    refine (C43_unknown_bank _ _ _ bank).trans ?_
    constructor
    · intro h tile; rw [← hin]; exact h tile
    · intro h tile; rw [hin]; exact h tile
  · intro bank tiles h
    obtain ⟨h1, h2⟩ := C43_bank_tiles _ _ _ hload.sets bank tiles h
    exact ⟨h1, fun tile => (h2 tile).trans (hin bank tile)⟩

theorem seg_loads {env : Env} {p : Path} {o : Option Path} {entries : Option (List (TileFeature × List SegmentBit))}
    (h : SegFile env p entries) (ho : FileIfPresent env p o) :
    (o = none ∧ entries = none) ∨ ∃ es m, o = some p ∧ entries = some es ∧
      parseFile env (parseSegmentsBits env.junk) p = .ok m ∧ ∀ k, m.lookup k = es.lookup k := by
  rcases h with ⟨h1, rfl⟩ | ⟨h1, ls, ⟨c, b, h2, h3, h4⟩, h5, rfl⟩
  · rcases ho with ⟨h, _⟩ | ⟨_, h⟩
    · rw [h1] at h; cases h
    · exact Or.inl ⟨h, rfl⟩
  · rcases ho with ⟨_, h⟩ | ⟨h, _⟩
    · obtain ⟨m, hm, _, hk⟩ := C36_file env.junk 0 c ls h3 h5
      refine Or.inr ⟨_, m, h, rfl, ?_, hk⟩
      unfold parseFile
      rw [h2]
      dsimp only
      rw [segbits_behind _ b c _ h3 h4]
      exact hm
    · rw [h1] at h; cases h

theorem pip_loads {env : Env} {p : Path} {o : Option Path} {entries : List (Bytes × PseudoPIPType)}
    (h : PipFile env p entries) (ho : FileIfPresent env p o) :
    (o = none ∧ entries = []) ∨ ∃ m, o = some p ∧
      parseFile env parsePseudoPIPs p = .ok m ∧ ∀ k, m.lookup k = entries.lookup k := by
  rcases h with ⟨h1, rfl⟩ | ⟨h1, ls, ⟨c, b, h2, h3, h4⟩, h5, rfl⟩
  · rcases ho with ⟨h, _⟩ | ⟨_, h⟩
    · rw [h1] at h; cases h
    · exact Or.inl ⟨h, rfl⟩
  · rcases ho with ⟨_, h⟩ | ⟨h, _⟩
    · obtain ⟨m, hm, _, hk⟩ := C38_file 0 c ls h3 h5
      refine Or.inr ⟨m, h, ?_, hk⟩
      unfold parseFile
      rw [h2]
      dsimp only
      rw [pips_behind b c _ h3 h4]
      exact hm
    · rw [h1] at h; cases h

/-- The bits of a tile type are those of its files. -/
theorem C70_tile_type (env : Env) (load : LoadOrder) (root : Path) (name : Bytes) (db : PartDatabase)
    (h : parseDatabase env load root name = .ok db) (T : Bytes) (clb ram : Option (List (TileFeature × List SegmentBit)))
    (pips : List (Bytes × PseudoPIPType)) (hf : TypeFiles env root T clb ram pips) :
    ∃ sb, db.tiles.bits T = .ok (some sb) ∧ SaysSame sb clb ram pips := by
  obtain ⟨info, grid, paths, part, pins, _, _, hpaths, _, _, rfl⟩ := parseDatabase_iff.1 h
  obtain ⟨entries, dir, hl, hd, h1, h2, h3⟩ := hf
  have hdec : ∀ p, ∃ o, FileIfPresent env p o := by
    intro p
    cases hp : env.fileExists p with
    | true => exact ⟨_, Or.inl ⟨hp, rfl⟩⟩
    | false => exact ⟨_, Or.inr ⟨hp, rfl⟩⟩
  obtain ⟨o1, ho1⟩ := hdec (dir ++ [segbitsFile (lowerCase T)])
  obtain ⟨o2, ho2⟩ := hdec (dir ++ [blockRamFile (lowerCase T)])
  obtain ⟨o3, ho3⟩ := hdec (dir ++ [ppipsFile (lowerCase T)])
  have hm : paths.lookup T = some ⟨o1, o2, o3⟩ := (C44_index env root entries paths hl hpaths T ⟨o1, o2, o3⟩).2 ⟨dir, hd, ho1, ho2, ho3⟩
  show ∃ sb, tilesDatabase env paths T = .ok (some sb) ∧ _
  unfold tilesDatabase
  rw [hm]
  dsimp only
  unfold parseTileType
  dsimp only
  rcases seg_loads h1 ho1 with ⟨rfl, rfl⟩ | ⟨es, m, rfl, rfl, hm1, hk1⟩ <;>
    rcases seg_loads h2 ho2 with ⟨rfl, rfl⟩ | ⟨es2, m2, rfl, rfl, hm2, hk2⟩ <;>
    rcases pip_loads h3 ho3 with ⟨rfl, rfl⟩ | ⟨m3, rfl, hm3, hk3⟩
  · exact ⟨_, rfl, fun _ => rfl, fun _ => rfl, fun _ => rfl, fun _ => rfl⟩
  · simp only [hm3, Outcome.bind_ok]
    exact ⟨_, rfl, fun _ => rfl, fun _ => rfl, fun _ => rfl, hk3⟩
  · simp only [hm2, Outcome.bind_ok]
    exact ⟨_, rfl, fun _ => rfl, fun k => hk2 k, fun _ => rfl, fun _ => rfl⟩
  · simp only [hm2, hm3, Outcome.bind_ok]
    exact ⟨_, rfl, fun _ => rfl, fun k => hk2 k, fun _ => rfl, hk3⟩
  · simp only [hm1, Outcome.bind_ok]
    exact ⟨_, rfl, fun k => hk1 k, fun _ => rfl, fun _ => rfl, fun _ => rfl⟩
  · simp only [hm1, hm3, Outcome.bind_ok]
    exact ⟨_, rfl, fun k => hk1 k, fun _ => rfl, fun _ => rfl, hk3⟩
  · simp only [hm1, hm2, Outcome.bind_ok]
    exact ⟨_, rfl, fun k => hk1 k, fun k => hk2 k, fun _ => rfl, fun _ => rfl⟩
  · simp only [hm1, hm2, hm3, Outcome.bind_ok]
    exact ⟨_, rfl, fun k => hk1 k, fun k => hk2 k, fun _ => rfl, hk3⟩

/-- A tile type without `tile_type_T.json` has no bits. -/
theorem C70_no_tile_type (env : Env) (load : LoadOrder) (root : Path) (name : Bytes) (db : PartDatabase)
    (h : parseDatabase env load root name = .ok db) (T : Bytes) (entries : List (Path × Bool))
    (hl : env.listing root = some entries) (hno : ∀ dir, (dir ++ [tileTypeFile T], true) ∉ entries) :
    db.tiles.bits T = .ok none := by
  obtain ⟨info, grid, paths, part, pins, _, _, hpaths, _, _, rfl⟩ := parseDatabase_iff.1 h
  show tilesDatabase env paths T = .ok none
  unfold tilesDatabase
  cases hm : paths.lookup T with
  | none => rfl
  | some d =>
    obtain ⟨dir, ⟨pre, post, he, _⟩, _⟩ := (C44_index env root entries paths hl hpaths T d).1 hm
    exact absurd (by rw [he]; simp) (hno dir)

/-- A part that is not in the table: error. -/
theorem C70_unknown_part (env : Env) (load : LoadOrder) (root : Path) (name : Bytes) (h : PartTable env root name none) :
    parseDatabase env load root name = .err := by
  unfold parseDatabase
  rw [(table_lookup h).2 rfl]
  rfl

/-- No part table: error. -/
theorem C70_no_table (env : Env) (load : LoadOrder) (root : Path) (name : Bytes)
    (h : env.read (root ++ [bytes!"mapping",
        bytes!"parts.yaml"]) = none ∨
      env.read (root ++ [bytes!"mapping",
        bytes!"devices.yaml"]) = none) :
    parseDatabase env load root name = .err := by
  have : parsePartInfo env root name = .err := by
    unfold parsePartInfo
    rcases h with h | h
    · have h' : env.read (root ++ [kMapping, kPartsYaml]) = none := h
      rw [h']
    · have h' : env.read (root ++ [kMapping, kDevicesYaml]) = none := h
      cases env.read (root ++ [kMapping, kPartsYaml]) with
      | none => rfl
      | some c => dsimp only; rw [h']
  unfold parseDatabase
  rw [this]
  rfl

/-- No tile grid, or one that is not JSON: error. -/
theorem C70_no_grid (env : Env) (load : LoadOrder) (root : Path) (name : Bytes) (info : PartInfo)
    (ht : PartTable env root name (some info))
    (h : ∀ content, env.read (root ++ [info.fabric,
      bytes!"tilegrid.json"]) = some content →
      env.json content.1 = none) :
    parseDatabase env load root name = .err := by
  unfold parseDatabase
  rw [(table_lookup ht).1 _ rfl, Outcome.bind_ok]
  have : parseJsonFile env parseTileGrid (root ++ [info.fabric, kTilegrid]) = .err := by
    unfold parseJsonFile
    have h' : ∀ content, env.read (root ++ [info.fabric, kTilegrid]) = some content → env.json content.1 = none := h
    cases hr : env.read (root ++ [info.fabric, kTilegrid]) with
    | none => rfl
    | some c => dsimp only; rw [h' c hr]
  rw [this]
  rfl

/-- With a good grid: no listing, no part file, or no pin file: error. -/
theorem C70_no_part (env : Env) (load : LoadOrder) (root : Path) (name : Bytes) (info : PartInfo) (grid : TileGrid)
    (ht : PartTable env root name (some info))
    (hg : JsonFile env (root ++ [info.fabric, bytes!"tilegrid.json"])
      (GridJson HexText) grid)
    (h : env.listing root = none ∨
      (∀ content, env.read (root ++ [name, bytes!"part.json"]) = some content →
        env.json content.1 = none) ∨
      (∃ part, JsonFile env (root ++ [name, bytes!"part.json"]) PartJson part ∧
        env.read (root ++ [name, bytes!"package_pins.csv"]) = none)) :
    parseDatabase env load root name = .err := by
  have hg' : parseJsonFile env parseTileGrid (root ++ [info.fabric, kTilegrid]) = .ok grid :=
    json_loads hg fun j hj => C42_complete j grid hj
  unfold parseDatabase
  rw [(table_lookup ht).1 _ rfl, Outcome.bind_ok, hg', Outcome.bind_ok]
  rcases C44_error env root with ⟨_, he⟩ | ⟨paths, he⟩
  · rw [he]; rfl
  rw [he, Outcome.bind_ok]
  rcases h with h | h | ⟨part, hp, h⟩
  · unfold indexTileTypes at he
    rw [h] at he
    cases he
  · have h' : ∀ content, env.read (root ++ [name, kPartJson]) = some content → env.json content.1 = none := h
    have : parseJsonFile env parsePart (root ++ [name, kPartJson]) = .err := by
      unfold parseJsonFile
      cases hr : env.read (root ++ [name, kPartJson]) with
      | none => rfl
      | some c => dsimp only; rw [h' c hr]
    rw [this]
    rfl
  · have hp' : parseJsonFile env parsePart (root ++ [name, kPartJson]) = .ok part :=
      json_loads hp fun j hj => (C41_iff j part).2 hj
    have h' : env.read (root ++ [name, kPackagePins]) = none := h
    rw [hp', Outcome.bind_ok]
    unfold parseFile
    rw [h']
    rfl

/-- When the database cannot be loaded, the program exits with status 1 and prints nothing. -/
theorem C70_program (env : Env) (load : LoadOrder) (ord : HashOrder) (inv : Invocation) (out : Xc7.OStream) (fuel : Nat)
    (h : ∀ path, Setting inv.dbFlag inv.dbEnv path → parseDatabase env load [path] inv.part = .err) :
    main env load ord inv out fuel = some (.ok (1, out)) := by
  unfold main
  split
  · rfl
  · cases hs : getOptFlagOrFromEnv inv.dbFlag inv.dbEnv with
    | ok path =>
      dsimp only
      split
      · rfl
      · split
        · rfl
        · rw [h path ((C61_setting _ _ _).1 hs)]
    | err => rfl
    | abort => rfl
    | ub => rfl

/-! ## Example

Directory `d` with part `p`, fabric `f`, a tile grid, the small device, one package pin and a tile type `X` with segment
bits and pseudo PIPs. -/

def dirParts : List (Bytes × YamlKind) :=
  [(bytes!"p:", .key bytes!"p"),
   (bytes!" device: d", .prop nameDevice bytes!"d"),
   (bytes!" package: k", .prop namePackage bytes!"k"),
   (bytes!" speedgrade: '1'",
     .prop nameSpeedgrade bytes!"1")]

def dirDevices : List (Bytes × YamlKind) :=
  [(bytes!"\"d\":", .key bytes!"d"),
   (bytes!" fabric: 'f'", .prop nameFabric bytes!"f")]

def dirHeader : Bytes :=
  bytes!"pin,bank,site,tile,pin_function"
def dirRow : Bytes := bytes!"A2, 216 ,S,T,F"
def dirSeg : Bytes := bytes!"A.B[3] 1_2\t!0_7"
def dirPip : Bytes := bytes!"A.B hint"

def dirEnv : Env :=
  { fileExists := fun p => p == [bytes!"d"] || p == [bytes!"d", bytes!"f", segbitsFile bytes!"x"] || p == [bytes!"d", bytes!"f", ppipsFile bytes!"x"]
    read := fun p =>
      if p = [bytes!"d", kMapping, kPartsYaml] then some (unlines (dirParts.map (·.1)), none)
      else if p = [bytes!"d", kMapping, kDevicesYaml] then some (unlines (dirDevices.map (·.1)), some 0)
      else if p = [bytes!"d", bytes!"f", kTilegrid] then some (bytes!"G", none)
      else if p = [bytes!"d", bytes!"p", kPartJson] then some (bytes!"P", none)
      else if p = [bytes!"d", bytes!"p", kPackagePins] then some (unlines [dirHeader, dirRow], none)
      else if p = [bytes!"d", bytes!"f", segbitsFile bytes!"x"] then some (unlines [dirSeg], none)
      else if p = [bytes!"d", bytes!"f", ppipsFile bytes!"x"] then some (dirPip, some 0)
      else none
    listing := fun _ => some [([bytes!"d", bytes!"f", tileTypeFile bytes!"X"], true)]
    json := fun c => if c = bytes!"G" then some (gridObj [(bytes!"T", fileT)]) else if c = bytes!"P" then some (partObj smallDesc) else none
    junk := fun _ => 0 }

theorem dirProp (l a r q k v : Bytes) (hl : ∀ c, l.head? = some c → White [c]) (hs : strip l = a ++ 0x3a :: r) (ha : 0x3a ∉ a)
    (hh : (a ++ bytes!":").head? ≠ some 0x23) (hk : strip a = k) (hq : strip r = q) (hv : Quoted q v) : YamlLine l (.prop k v) :=
  YamlLine.prop l a r q k v hl (hs ▸ strip_spec l) ha hh (hk ▸ strip_spec a) (hq ▸ strip_spec r) hv

theorem unquoted (x : UInt8) : Quoted [x] [x] :=
  Or.inr (Or.inr ⟨rfl, fun t => ⟨by intro h; cases t <;> simp at h, by intro h; cases t <;> simp at h⟩⟩)

theorem dirParts_lines : ∀ l ∈ dirParts, YamlLine l.1 l.2 := by
  intro l hl
  simp only [dirParts, List.mem_cons, List.not_mem_nil, or_false] at hl
  rcases hl with rfl | rfl | rfl | rfl
  · exact YamlLine.key bytes!"p" [] bytes!"p" white_nil
      (by intro c hc; cases hc; exact ⟨(isSpace_false_iff _).1 rfl, by decide⟩) (unquoted _)
  · exact dirProp _ nameDevice bytes!" d" bytes!"d" _ _ (by intro c hc; cases hc; exact (isSpace_iff _).1 rfl)
      (by decide) (by decide) (by decide) (by decide) (by decide) (unquoted _)
  · exact dirProp _ namePackage bytes!" k" bytes!"k" _ _ (by intro c hc; cases hc; exact (isSpace_iff _).1 rfl)
      (by decide) (by decide) (by decide) (by decide) (by decide) (unquoted _)
  · exact dirProp _ nameSpeedgrade bytes!" '1'" bytes!"'1'" _ _
      (by intro c hc; cases hc; exact (isSpace_iff _).1 rfl)
      (by decide) (by decide) (by decide) (by decide) (by decide) (Or.inr (Or.inl rfl))

theorem dirDevices_lines : ∀ l ∈ dirDevices, YamlLine l.1 l.2 := by
  intro l hl
  simp only [dirDevices, List.mem_cons, List.not_mem_nil, or_false] at hl
  rcases hl with rfl | rfl
  · exact exampleDevices.1
  · exact exampleDevices.2

theorem dir_table (name : Bytes) (info : Option PartInfo)
    (h : info = (entryOf (dirParts.map (·.2)) name).bind (infoOf (dirDevices.map (·.2)))) :
    PartTable dirEnv [bytes!"d"] name info :=
  ⟨dirParts, dirDevices, ⟨_, none, by decide +kernel, ⟨by decide, Or.inl rfl⟩⟩,
    ⟨_, some 0, by decide +kernel, ⟨by decide, Or.inl rfl⟩⟩, dirParts_lines, dirDevices_lines,
    by decide, by decide, h⟩

theorem dir_part : PartDir dirEnv [bytes!"d"] bytes!"p" [(bytes!"T", fileT)] smallDesc [⟨bytes!"A2", 216, bytes!"S", bytes!"T", bytes!"F"⟩] where
  grid := by
    refine ⟨⟨bytes!"d", bytes!"f", bytes!"k", bytes!"1"⟩, dir_table _ _ (by decide), (bytes!"G", none), _, rfl, rfl, grid_render _ ⟨by decide, ?_⟩⟩
    intro e he
    rw [List.mem_singleton.1 he]
    refine ⟨by decide, by decide, ⟨by decide, ?_⟩, by decide, by decide, by decide⟩
    intro b hb
    simp only [fileT, List.mem_cons, List.not_mem_nil, or_false] at hb
    subst hb
    refine ⟨by decide, by decide, by decide, by decide, ?_⟩
    intro a ha; cases ha
  part := by
    refine ⟨(bytes!"P", none), _, rfl, rfl, part_render _ ⟨by decide, ?_⟩⟩
    rintro half (rfl | rfl) <;> decide
  pins := by
    refine ⟨dirHeader, [(dirRow, some ⟨bytes!"A2", 216, bytes!"S", bytes!"T", bytes!"F"⟩)],
      ⟨_, none, by decide +kernel, ⟨by decide, Or.inl rfl⟩, fun _ => rfl⟩, ?_, ?_, by decide, rfl⟩
    · have h := cells_spec dirHeader
      have e : segs dirHeader = headerCells := by decide +kernel
      rw [e] at h; exact h
    · intro r hr
      rw [List.mem_singleton.1 hr]
      exact examplePinRow

theorem dir_type : TypeFiles dirEnv [bytes!"d"] bytes!"X"
    (some [((bytes!"A.B", 3), [⟨1, 2, true⟩, ⟨0, 7, false⟩])]) none [(bytes!"A.B", .hint)] := by
  refine ⟨_, [bytes!"d", bytes!"f"], rfl, ⟨[], [], rfl, by simp⟩, ?_, ?_, ?_⟩
  · refine Or.inr ⟨by decide +kernel, [(dirSeg, some ((bytes!"A.B", 3), [⟨1, 2, true⟩, ⟨0, 7, false⟩]))],
      ⟨_, none, by decide +kernel, ⟨by decide, Or.inl rfl⟩, fun _ => rfl⟩, ?_, rfl⟩
    intro l hl
    rw [List.mem_singleton.1 hl]
    exact exampleSegLine
  · exact Or.inl ⟨by decide +kernel, rfl⟩
  · refine Or.inr ⟨by decide +kernel, [(dirPip, some (bytes!"A.B", .hint))],
      ⟨_, some 0, by decide +kernel, ⟨by decide, Or.inr ⟨[], dirPip, rfl, by decide, rfl⟩⟩, fun h => by cases h⟩, ?_, rfl⟩
    intro l hl
    rw [List.mem_singleton.1 hl]
    exact examplePipLine

/-- The example directory loads, whatever the hash orders, and its tile type has the bits of its files. -/
example (load : LoadOrder) (hload : LoadOk load) : ∃ db sb, parseDatabase dirEnv load [bytes!"d"] bytes!"p" = .ok db ∧
    db.tiles.bits bytes!"X" = .ok (some sb) ∧
    SaysSame sb (some [((bytes!"A.B", 3), [⟨1, 2, true⟩, ⟨0, 7, false⟩])]) none [(bytes!"A.B", .hint)] := by
  obtain ⟨db, h, _⟩ := C70_loads dirEnv load hload _ _ _ _ _ dir_part _ rfl
  obtain ⟨sb, h1, h2⟩ := C70_tile_type dirEnv load _ _ db h _ _ _ _ dir_type
  exact ⟨db, sb, h, h1, h2⟩

/-- Another part name is not in the table. -/
example : PartTable dirEnv [bytes!"d"] bytes!"q" none := dir_table _ _ (by decide)

end Verif.Props
