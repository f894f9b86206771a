import Verif.Proofs.DbFiles
/-! # C43–C49: the part database -/
namespace Verif.Props
open Verif.Db Verif.Spec Verif.Text

/-! ## A small database for the examples

Tile `T` of type `X`; tile `A` of type `Y`, an alias of `X` whose site `S` is `U` there. -/

/-- Segment bits of type `X`: `X.F`, `X.G.U`; pseudo PIP `X.P`, and `T.Q` under the tile name. -/
def demoSeg : SegBits :=
  { pips := [(bytes!"X.P", .always), (bytes!"T.Q", .default)]
    segmentBits := [(.clbIoClk,
      [((bytes!"X.F", 0), [⟨3, 33, true⟩, ⟨4, 2, false⟩]),
       ((bytes!"X.F", 7), [⟨5, 63, true⟩]),
       ((bytes!"X.G.U", 0), [⟨1, 40, true⟩])])] }

def demoT : Db.Tile :=
  { type := bytes!"X", x := 0, y := 0, clockRegion := none
    bits := [(.clbIoClk, { alias? := none, baseAddress := 0x400100, frames := 36, offset := 2, words := 2 })]
    pinFunctions := [], sites := [], prohibitedSites := [] }

def demoA : Db.Tile :=
  { type := bytes!"Y", x := 0, y := 1, clockRegion := none
    bits := [(.clbIoClk,
      { alias? := some ⟨[(bytes!"S", bytes!"U")], 1, bytes!"X"⟩, baseAddress := 0x400200, frames := 36, offset := 5, words := 1 })]
    pinFunctions := [], sites := [], prohibitedSites := [] }

def demoTiles : Tiles :=
  { grid := [(bytes!"T", demoT), (bytes!"A", demoA)]
    bits := fun ty => .ok (if ty = bytes!"X" then some demoSeg else none)
    banks := ⟨[], []⟩
    part := ⟨[], [], 0, []⟩ }

/-- A setter that writes down its calls. -/
def record : BitSetter (List BitCall) := fun s bus frame word index value => .ok (s ++ [⟨bus, frame, word, index, value⟩])

theorem demoTiles_ok : TilesOk demoTiles := by
  intro name t h
  have hm := mem_of_lookup h
  simp only [demoTiles, List.mem_cons, List.not_mem_nil, or_false, Prod.mk.injEq] at hm
  rcases hm with ⟨_, rfl⟩ | ⟨_, rfl⟩ <;> decide

/-! ## C43 -/

section C43
variable (order : List Bytes → List Bytes) (part : Db.Part) (pins : PackagePins)

/-- A bank is unknown exactly when it has no tile. -/
theorem C43_unknown_bank (bank : Nat) :
    (Registry.create order part pins).tiles bank = none ↔ ∀ tile, ¬ InBank part pins bank tile := by
  rw [create_eq]
  unfold Registry.tiles
  dsimp only
  rw [lookup_map_snd, Option.map_eq_none_iff]
  obtain ⟨_, h2, _⟩ := registry_fold (bankPairs part pins) ([], [])
  rw [h2 bank]
  simp only [List.lookup, true_and]
  constructor
  · intro h tile ht
    exact h _ ((mem_bankPairs part pins bank tile).2 ht) rfl
  · rintro h ⟨b, t⟩ he rfl
    exact h t ((mem_bankPairs part pins _ t).1 he)

/-- Looking up a bank gives its tiles, each once. -/
theorem C43_bank_tiles (hord : ∀ l, (order l).Perm l) (bank : Nat) (tiles : List Bytes)
    (h : (Registry.create order part pins).tiles bank = some tiles) :
    tiles.Nodup ∧ ∀ tile, tile ∈ tiles ↔ InBank part pins bank tile := by
  rw [create_eq] at h
  unfold Registry.tiles at h
  dsimp only at h
  rw [lookup_map_snd, Option.map_eq_some_iff] at h
  obtain ⟨ts, h1, h2⟩ := h
  obtain ⟨_, _, h3, h4⟩ := registry_fold (bankPairs part pins) ([], [])
  have hn := h4 (by intro b; simp) bank
  have hm := h3 bank
  rw [h1, Option.getD_some] at hn
  subst h2
  refine ⟨(hord ts).nodup_iff.2 hn, ?_⟩
  intro tile
  rw [(hord ts).mem_iff, ← mem_bankPairs part pins bank tile]
  have := hm tile
  rw [h1] at this
  simpa using this

/-- Looking up a tile gives its banks: first as a clock tile, then one per pin. -/
theorem C43_tile_banks_list (tile : Bytes) :
    (Registry.create order part pins).tileBanks tile =
      (part.iobanks.filter fun e => bytes!"HCLK_IOI3_" ++ e.2 == tile).map (·.1) ++
      (pins.filter fun p => p.tile == tile).map (·.bank) := by
  rw [create_eq]
  unfold Registry.tileBanks
  dsimp only
  obtain ⟨h1, _⟩ := registry_fold (bankPairs part pins) ([], [])
  rw [h1 tile]
  unfold bankPairs
  simp only [List.lookup, Option.getD_none, List.nil_append, List.filter_append, List.map_append, List.filter_map, List.map_map]
  rfl

theorem C43_tile_banks (tile : Bytes) (bank : Nat) :
    bank ∈ (Registry.create order part pins).tileBanks tile ↔ InBank part pins bank tile := by
  rw [C43_tile_banks_list]
  unfold InBank
  rw [List.mem_append, List.mem_map, List.mem_map, or_comm]
  refine or_congr ?_ ?_
  · constructor
    · rintro ⟨p, hp, rfl⟩
      obtain ⟨h1, h2⟩ := List.mem_filter.1 hp
      exact ⟨p, h1, rfl, eq_of_beq h2⟩
    · rintro ⟨p, h1, rfl, rfl⟩
      exact ⟨p, List.mem_filter.2 ⟨h1, by simp⟩, rfl⟩
  · constructor
    · rintro ⟨⟨b, loc⟩, hp, rfl⟩
      obtain ⟨h1, h2⟩ := List.mem_filter.1 hp
      exact ⟨loc, h1, (eq_of_beq h2).symm⟩
    · rintro ⟨loc, h1, rfl⟩
      exact ⟨(bank, loc), List.mem_filter.2 ⟨h1, by simp⟩, rfl⟩

/-- The two lookups agree. -/
theorem C43_two_way (hord : ∀ l, (order l).Perm l) (tile : Bytes) (bank : Nat) :
    bank ∈ (Registry.create order part pins).tileBanks tile ↔
      ∃ tiles, (Registry.create order part pins).tiles bank = some tiles ∧ tile ∈ tiles := by
  rw [C43_tile_banks]
  constructor
  · intro h
    cases ht : (Registry.create order part pins).tiles bank with
    | none => exact absurd h ((C43_unknown_bank order part pins bank).1 ht tile)
    | some ts => exact ⟨ts, rfl, ((C43_bank_tiles order part pins hord bank ts ht).2 tile).2 h⟩
  · rintro ⟨ts, h1, h2⟩
    exact ((C43_bank_tiles order part pins hord bank ts h1).2 tile).1 h2

end C43

/-- Two pins of bank 14 on tile `T`, the clock tile `HCLK_IOI3_X1` of bank 14. -/
example :
    let r := Registry.create (fun l => l) ⟨[], [], 0, [(14, bytes!"X1")]⟩
      [⟨[], 14, [], bytes!"T", []⟩, ⟨[], 14, [], bytes!"T", []⟩, ⟨[], 15, [], bytes!"U", []⟩]
    r.tiles 14 = some [hclkPrefix ++ bytes!"X1", bytes!"T"] ∧ r.tiles 13 = none ∧ r.tileBanks bytes!"T" = [14, 14] ∧
      r.tileBanks (hclkPrefix ++ bytes!"X1") = [14] ∧ r.tileBanks bytes!"V" = [] := by decide +kernel

/-! ## C44 -/

theorem firstTypeDir_unique {entries : List (Path × Bool)} {T : Bytes} {dir dir' : Path}
    (h : FirstTypeDir entries T dir) (h' : FirstTypeDir entries T dir') : dir = dir' := by
  obtain ⟨pre, post, e, hn⟩ := h
  obtain ⟨pre', post', e', hn'⟩ := h'
  rw [e] at e'
  rcases List.append_eq_append_iff.1 e' with ⟨x, h1, h2⟩ | ⟨x, h1, h2⟩
  · cases x with
    | nil =>
      rw [List.nil_append, List.cons.injEq, Prod.mk.injEq] at h2
      exact List.append_cancel_right h2.1.1
    | cons y x =>
      rw [List.cons_append, List.cons.injEq] at h2
      exact absurd h2.1.symm (hn' y (by rw [h1]; simp) dir)
  · cases x with
    | nil =>
      rw [List.nil_append, List.cons.injEq, Prod.mk.injEq] at h2
      exact (List.append_cancel_right h2.1.1).symm
    | cons y x =>
      rw [List.cons_append, List.cons.injEq] at h2
      exact absurd h2.1.symm (hn y (by rw [h1]; simp) dir')

/-- A tile type is indexed exactly when the tree has a regular file `tile_type_T.json`; its files are those of
the first such file's directory that exist. -/
theorem C44_index (env : Env) (root : Path) (entries : List (Path × Bool)) (m : List (Bytes × DbPaths))
    (hl : env.listing root = some entries) (hm : indexTileTypes env root = .ok m) (T : Bytes) (d : DbPaths) :
    m.lookup T = some d ↔ ∃ dir, FirstTypeDir entries T dir ∧
      FileIfPresent env (dir ++ [segbitsFile (lowerCase T)]) d.segbits ∧
      FileIfPresent env (dir ++ [blockRamFile (lowerCase T)]) d.blockRam ∧
      FileIfPresent env (dir ++ [ppipsFile (lowerCase T)]) d.ppips := by
  unfold indexTileTypes at hm
  rw [hl] at hm
  dsimp only at hm
  rw [index_fold] at hm
  have := Outcome.ok.inj hm
  subst this
  rw [lookup_insertAll]
  simp only [List.lookup, Option.none_or, fileIfPresent_iff]
  rcases lookup_typeEntries env entries T with ⟨dir, h1, h2⟩ | ⟨h1, h2⟩
  · rw [h2, databasePaths_eq]
    constructor
    · intro h
      have := Option.some.inj h
      subst this
      exact ⟨dir, h1, rfl, rfl, rfl⟩
    · rintro ⟨dir', h3, h4, h5, h6⟩
      have := firstTypeDir_unique h1 h3
      subst this
      rw [← h4, ← h5, ← h6]
  · rw [h2]
    constructor
    · intro h; cases h
    · rintro ⟨dir, ⟨pre, post, e, _⟩, _⟩
      exact absurd (by rw [e]; simp) (h1 dir)

/-- Only a directory that cannot be listed is an error. -/
theorem C44_error (env : Env) (root : Path) :
    (env.listing root = none ∧ indexTileTypes env root = .err) ∨ ∃ m, indexTileTypes env root = .ok m := by
  unfold indexTileTypes
  cases env.listing root with
  | none => exact Or.inl ⟨rfl, rfl⟩
  | some es => exact Or.inr ⟨_, rfl⟩

/-- If no type has two files, the order of the listing does not matter. -/
theorem C44_listing_order (env env' : Env) (root : Path) (entries entries' : List (Path × Bool))
    (m m' : List (Bytes × DbPaths)) (hfe : ∀ p, env.fileExists p = env'.fileExists p)
    (hl : env.listing root = some entries) (hl' : env'.listing root = some entries') (hp : entries.Perm entries')
    (huniq : ∀ T d d', (d ++ [tileTypeFile T], true) ∈ entries → (d' ++ [tileTypeFile T], true) ∈ entries → d = d')
    (hm : indexTileTypes env root = .ok m) (hm' : indexTileTypes env' root = .ok m') (T : Bytes) :
    m.lookup T = m'.lookup T := by
  have key : ∀ dir, FirstTypeDir entries T dir ↔ FirstTypeDir entries' T dir := by
    have first : ∀ (es : List (Path × Bool)) (dir : Path), (dir ++ [tileTypeFile T], true) ∈ es →
        ∃ d, (d ++ [tileTypeFile T], true) ∈ es ∧ FirstTypeDir es T d := by
      intro es
      induction es with
      | nil => intro dir h; cases h
      | cons e es ih =>
        intro dir h
        by_cases he : ∃ d, e = (d ++ [tileTypeFile T], true)
        · obtain ⟨d, rfl⟩ := he
          exact ⟨d, by simp, [], es, rfl, by simp⟩
        · rcases List.mem_cons.1 h with h | h
          · exact absurd ⟨dir, h.symm⟩ he
          · obtain ⟨d, hd, pre, post, h1, h2⟩ := ih dir h
            refine ⟨d, List.mem_cons_of_mem _ hd, e :: pre, post, by rw [h1]; rfl, ?_⟩
            intro x hx d'
            rcases List.mem_cons.1 hx with rfl | hx
            · exact fun h => he ⟨d', h⟩
            · exact h2 x hx d'
    intro dir
    constructor
    · rintro ⟨pre, post, e, _⟩
      have hmem : (dir ++ [tileTypeFile T], true) ∈ entries := by rw [e]; simp
      obtain ⟨d, hd, hf⟩ := first entries' dir (hp.mem_iff.1 hmem)
      rw [huniq T dir d hmem (hp.mem_iff.2 hd)]; exact hf
    · rintro ⟨pre, post, e, _⟩
      have hmem : (dir ++ [tileTypeFile T], true) ∈ entries := hp.mem_iff.2 (by rw [e]; simp)
      obtain ⟨d, hd, hf⟩ := first entries dir hmem
      rw [huniq T dir d hmem hd]; exact hf
  have h : ∀ d, m.lookup T = some d ↔ m'.lookup T = some d := by
    intro d
    rw [C44_index env root entries m hl hm, C44_index env' root entries' m' hl' hm']
    simp only [key, FileIfPresent, hfe]
  cases h1 : m.lookup T with
  | some d => exact ((h d).1 h1).symm
  | none =>
    cases h2 : m'.lookup T with
    | none => rfl
    | some d => rw [(h d).2 h2] at h1; cases h1

/-- `r` is the parsed content of the file `o`, if there is one. -/
def LoadedFrom {α : Type} (env : Env) (parse : Option UInt8 → Bytes → Outcome α) (o : Option Path) (r : Option α) : Prop :=
  (o = none ∧ r = none) ∨ ∃ p c a, o = some p ∧ env.read p = some c ∧ parse c.2 c.1 = .ok a ∧ r = some a

/-- What is loaded for an indexed type is the content of its three files, each on its bus. -/
theorem C44_loaded (env : Env) (m : List (Bytes × DbPaths)) (T : Bytes) (d : DbPaths) (sb : SegBits)
    (hd : m.lookup T = some d) (h : tilesDatabase env m T = .ok (some sb)) :
    LoadedFrom env (parseSegmentsBits env.junk) d.segbits (sb.segmentBits.lookup .clbIoClk) ∧
    LoadedFrom env (parseSegmentsBits env.junk) d.blockRam (sb.segmentBits.lookup .blockRam) ∧
    sb.segmentBits.lookup .cfgClb = none ∧
    ((d.ppips = none ∧ sb.pips = []) ∨ LoadedFrom env parsePseudoPIPs d.ppips (some sb.pips)) := by
  have hread : ∀ {α : Type} (parse : Option UInt8 → Bytes → Outcome α) (p : Path) (a : α), parseFile env parse p = .ok a →
      ∃ c, env.read p = some c ∧ parse c.2 c.1 = .ok a := by
    intro α parse p a h
    unfold parseFile at h
    cases hc : env.read p with
    | none => rw [hc] at h; cases h
    | some c => rw [hc] at h; exact ⟨c, rfl, h⟩
  unfold tilesDatabase at h
  rw [hd] at h
  dsimp only at h
  cases hp : parseTileType env d with
  | err => rw [hp] at h; cases h
  | abort => rw [hp] at h; cases h
  | ub => rw [hp] at h; cases h
  | ok s =>
    rw [hp] at h
    cases h
    unfold parseTileType at hp
    obtain ⟨pips, h1, hp⟩ := Outcome.bind_eq_ok.1 hp
    obtain ⟨clb, h2, hp⟩ := Outcome.bind_eq_ok.1 hp
    obtain ⟨ram, h3, hp⟩ := Outcome.bind_eq_ok.1 hp
    cases hp
    dsimp only
    have hclb : (d.segbits = none ∧ clb = []) ∨ ∃ p c a, d.segbits = some p ∧ env.read p = some c ∧
        parseSegmentsBits env.junk c.2 c.1 = .ok a ∧ clb = [(.clbIoClk, a)] := by
      cases hs : d.segbits with
      | none => rw [hs] at h2; cases h2; exact Or.inl ⟨rfl, rfl⟩
      | some p =>
        rw [hs] at h2
        obtain ⟨a, h4, h5⟩ := Outcome.bind_eq_ok.1 h2
        cases h5
        obtain ⟨c, h6, h7⟩ := hread _ _ _ h4
        exact Or.inr ⟨p, c, a, rfl, h6, h7, rfl⟩
    have hram : (d.blockRam = none ∧ ram = []) ∨ ∃ p c a, d.blockRam = some p ∧ env.read p = some c ∧
        parseSegmentsBits env.junk c.2 c.1 = .ok a ∧ ram = [(.blockRam, a)] := by
      cases hs : d.blockRam with
      | none => rw [hs] at h3; cases h3; exact Or.inl ⟨rfl, rfl⟩
      | some p =>
        rw [hs] at h3
        obtain ⟨a, h4, h5⟩ := Outcome.bind_eq_ok.1 h3
        cases h5
        obtain ⟨c, h6, h7⟩ := hread _ _ _ h4
        exact Or.inr ⟨p, c, a, rfl, h6, h7, rfl⟩
    refine ⟨?_, ?_, ?_, ?_⟩
    · rcases hclb with ⟨e1, rfl⟩ | ⟨p, c, a, e1, e2, e3, rfl⟩ <;> rcases hram with ⟨e4, rfl⟩ | ⟨p', c', a', e4, e5, e6, rfl⟩
      · exact Or.inl ⟨e1, rfl⟩
      · exact Or.inl ⟨e1, rfl⟩
      · exact Or.inr ⟨p, c, a, e1, e2, e3, rfl⟩
      · exact Or.inr ⟨p, c, a, e1, e2, e3, rfl⟩
    · rcases hclb with ⟨e1, rfl⟩ | ⟨p, c, a, e1, e2, e3, rfl⟩ <;> rcases hram with ⟨e4, rfl⟩ | ⟨p', c', a', e4, e5, e6, rfl⟩
      · exact Or.inl ⟨e4, rfl⟩
      · exact Or.inr ⟨p', c', a', e4, e5, e6, rfl⟩
      · exact Or.inl ⟨e4, rfl⟩
      · exact Or.inr ⟨p', c', a', e4, e5, e6, rfl⟩
    · rcases hclb with ⟨e1, rfl⟩ | ⟨p, c, a, e1, e2, e3, rfl⟩ <;> rcases hram with ⟨e4, rfl⟩ | ⟨p', c', a', e4, e5, e6, rfl⟩ <;> rfl
    · cases hs : d.ppips with
      | none => rw [hs] at h1; cases h1; exact Or.inl ⟨rfl, rfl⟩
      | some p =>
        rw [hs] at h1
        obtain ⟨c, h6, h7⟩ := hread _ _ _ h1
        exact Or.inr (Or.inr ⟨p, c, pips, rfl, h6, h7, rfl⟩)

/-- A type whose files are malformed or unreadable looks like a type that does not exist. -/
theorem C44_broken_file_is_silent (env : Env) (m : List (Bytes × DbPaths)) (T : Bytes) (d : DbPaths)
    (hd : m.lookup T = some d) (h : parseTileType env d = .err) : tilesDatabase env m T = .ok none := by
  unfold tilesDatabase
  rw [hd]
  dsimp only
  rw [h]

/-- Files of the examples: `r/d/tile_type_A.json`, `r/d/segbits_a.db`. -/
def demoEnv : Env :=
  { fileExists := fun p => p == [bytes!"r", bytes!"d", segbitsFile bytes!"a"]
    read := fun p => if p == [bytes!"r", bytes!"d", segbitsFile bytes!"a"] then some ([0x0a], none) else none
    listing := fun _ => some [([bytes!"r", bytes!"d"], false), ([bytes!"r", bytes!"d", tileTypeFile bytes!"A"], true),
      ([bytes!"r", bytes!"d", segbitsFile bytes!"a"], true), ([bytes!"r", tileTypeFile bytes!"A"], true)]
    json := fun _ => none
    junk := fun _ => 0 }

example : indexTileTypes demoEnv [bytes!"r"] =
    .ok [(bytes!"A", ⟨some [bytes!"r", bytes!"d", segbitsFile bytes!"a"], none, none⟩)] := by decide +kernel
example : tilesDatabase demoEnv [(bytes!"A", ⟨some [bytes!"r", bytes!"d", segbitsFile bytes!"a"], none, none⟩)] bytes!"A" =
    .ok (some ⟨[], [(.clbIoClk, [])]⟩) := by decide +kernel

/-! ## C45 -/

section Query
variable (order : Bits → Bits) (hord : ∀ l, (order l).Perm l) (tiles : Tiles) (hok : TilesOk tiles)
  (db : PartDatabase) (hdb : Reachable tiles db) (tile feature : Bytes) (address : Nat)
include hord hok hdb

/-- If the database lists `bits` for a feature, the setter is called with exactly these bits, in some order. -/
theorem C45_feature_bits (bits : List BitCall) (h : FeatureBits tiles tile feature address bits) :
    ∃ calls db', calls.Perm bits ∧ Reachable tiles db' ∧ ∀ {σ : Type} (setter : BitSetter σ) (s : σ),
      db.configBits order tile feature address setter s = (applyCalls setter s calls >>= fun s' => .ok (db', s')) := by
  obtain ⟨h1, h2⟩ := reachable_cache hdb
  obtain ⟨db', h3, h4, h5⟩ := configBits_pure order db h2 tile feature address
  rw [h1] at h5
  obtain ⟨calls, h6, h7⟩ := pureBits_found order hord tiles hok tile feature address bits h
  refine ⟨calls, db', h6, ?_, ?_⟩
  · have := h5 (σ := Unit) (fun s _ _ _ _ _ => .ok s) ()
    rw [h7] at this
    have hc : applyCalls (σ := Unit) (fun s _ _ _ _ _ => .ok s) () calls = .ok () := by
      unfold applyCalls
      clear h6 h7 this
      induction calls with
      | nil => rfl
      | cons c cs ih => rw [List.foldlM_cons]; exact ih
    rw [hc] at this
    exact Reachable.query order tile feature address (fun s _ _ _ _ _ => .ok s) () () hdb this
  · intro σ setter s
    rw [h5, h7]

/-- If the database lists nothing, the query does not return. -/
theorem C45_unknown_feature
    (h : ∀ bits, ¬ FeatureBits tiles tile feature address bits) {σ : Type} (setter : BitSetter σ) (s : σ)
    (r : PartDatabase × σ) : db.configBits order tile feature address setter s ≠ .ok r := by
  obtain ⟨h1, h2⟩ := reachable_cache hdb
  obtain ⟨db', _, _, h5⟩ := configBits_pure order db h2 tile feature address
  rw [h5, h1]
  intro hr
  obtain ⟨s', h6, _⟩ := Outcome.bind_eq_ok.1 hr
  exact pureBits_unknown order hord tiles hok tile feature address h setter s s' h6

/-- If the database lists nothing and the files of the tile type can be read (or are found malformed), the program is
terminated, before any bit is set: whatever the setter does, and whatever was asked before. -/
theorem C45_unknown_stops
    (h : ∀ bits, ¬ FeatureBits tiles tile feature address bits)
    (hread : ∀ t ty f, tiles.grid.lookup tile = some t → KnownAs t feature ty f → ∃ r, tiles.bits ty = .ok r)
    {σ : Type} (setter : BitSetter σ) (s : σ) : db.configBits order tile feature address setter s = .abort := by
  obtain ⟨h1, h2⟩ := reachable_cache hdb
  obtain ⟨db', _, _, h5⟩ := configBits_pure order db h2 tile feature address
  rw [h5, h1, pureBits_unknown_exact order hord tiles hok tile feature address h hread setter s]
  rfl

end Query

/-- The listed bits of a tile, bus by bus: frame `base + column`, and position `offset * 32 + bit` in the frame,
where the first word of an aliased block is `offset - start_offset`, as long as nothing wraps at 32 bits. -/
theorem C45_arithmetic (t : Db.Tile) (sb : SegBits) (key : TileFeature)
    (hwrap : ∀ bus block segs s, (bus, block) ∈ t.bits → listed sb key bus = some segs → s ∈ segs →
      block.baseAddress + s.wordColumn < 2 ^ 32 ∧ 0 ≤ firstWord block ∧ firstWord block * 32 + s.wordBit < 2 ^ 32) (c : BitCall) :
    c ∈ tileBits t sb key ↔ ∃ bus block segs s, (bus, block) ∈ t.bits ∧ listed sb key bus = some segs ∧ s ∈ segs ∧
      c = { bus, frame := block.baseAddress + s.wordColumn
            word := ((firstWord block).toNat * 32 + s.wordBit) / 32
            index := ((firstWord block).toNat * 32 + s.wordBit) % 32
            value := s.isSet } := by
  have hpos : ∀ bus block segs s, (bus, block) ∈ t.bits → listed sb key bus = some segs → s ∈ segs →
      bitFrame block s = block.baseAddress + s.wordColumn ∧ bitPos block s = (firstWord block).toNat * 32 + s.wordBit := by
    intro bus block segs s h1 h2 h3
    obtain ⟨h4, h5, h6⟩ := hwrap bus block segs s h1 h2 h3
    unfold bitFrame bitPos
    omega
  unfold tileBits
  rw [List.mem_flatMap]
  constructor
  · rintro ⟨⟨bus, block⟩, h1, h2⟩
    obtain ⟨s, h3, h4⟩ := List.mem_map.1 h2
    cases hl : listed sb key bus with
    | none => rw [hl] at h3; cases h3
    | some segs =>
      rw [hl] at h3
      obtain ⟨e1, e2⟩ := hpos bus block segs s h1 hl h3
      refine ⟨bus, block, segs, s, h1, hl, h3, ?_⟩
      rw [← h4, e1, e2]
  · rintro ⟨bus, block, segs, s, h1, h2, h3, rfl⟩
    obtain ⟨e1, e2⟩ := hpos bus block segs s h1 h2 h3
    refine ⟨(bus, block), h1, List.mem_map.2 ⟨s, ?_, ?_⟩⟩
    · rw [h2]; exact h3
    · simp only [e1, e2]

/-- Every loaded database has distinct buses per tile, as the theorems here ask. -/
theorem C45_loaded (env : Env) (order : LoadOrder) (hload : LoadOk order) (root : Path) (name : Bytes) (db : PartDatabase)
    (h : parseDatabase env order root name = .ok db) : TilesOk db.tiles ∧ Reachable db.tiles db := by
  obtain ⟨h1, h2⟩ := parseDatabase_ok hload h
  refine ⟨h1, ?_⟩
  obtain ⟨tiles, cache⟩ := db
  cases h2
  exact Reachable.fresh

theorem not_pip {sb : SegBits} {tile ty f : Bytes} (h1 : sb.pips.lookup (tile ++ 0x2e :: f) = none)
    (h2 : sb.pips.lookup (ty ++ 0x2e :: f) = none) : ¬ IsPip sb tile ty f := by
  rintro (⟨v, h⟩ | ⟨v, h⟩)
  · rw [h1] at h; cases h
  · rw [h2] at h; cases h

theorem demo_F : FeatureBits demoTiles bytes!"T" bytes!"F" 0
    [⟨.clbIoClk, 0x400103, 3, 1, true⟩, ⟨.clbIoClk, 0x400104, 2, 2, false⟩] :=
  ⟨demoT, bytes!"X", bytes!"F", demoSeg, by decide, Or.inl (by decide), by decide, Or.inr ⟨not_pip (by decide) (by decide), by decide, by decide⟩⟩

/-- On the aliased tile the same feature starts one word earlier. -/
theorem demo_A : FeatureBits demoTiles bytes!"A" bytes!"F" 0
    [⟨.clbIoClk, 0x400203, 5, 1, true⟩, ⟨.clbIoClk, 0x400204, 4, 2, false⟩] := by
  refine ⟨demoA, bytes!"X", bytes!"F", demoSeg, by decide, Or.inr ⟨[], _, _, _, [], rfl, rfl, (by simp), rfl, Or.inr ⟨?_, rfl⟩⟩,
    by decide, Or.inr ⟨not_pip (by decide) (by decide), by decide, by decide⟩⟩
  intro head site to h hn
  have := congrArg (fun l => (0x2e : UInt8) ∈ l) h
  simp at this

example : ∃ db', PartDatabase.configBits (fun l => l) ⟨demoTiles, []⟩ bytes!"T" bytes!"F" 0 record [] =
    .ok (db', [⟨.clbIoClk, 0x400103, 3, 1, true⟩, ⟨.clbIoClk, 0x400104, 2, 2, false⟩]) := by
  exact ⟨_, rfl⟩
example : PartDatabase.configBits (fun l => l) ⟨demoTiles, []⟩ bytes!"T" bytes!"H" 0 record [] = .abort := by
  exact rfl

/-! ## C46 -/

/-- Whatever was asked before, a query gives what it gives on a fresh database. -/
theorem C46_cache_transparent (order : Bits → Bits) (tiles : Tiles) (db : PartDatabase) (hdb : Reachable tiles db)
    (tile feature : Bytes) (address : Nat) {σ : Type} (setter : BitSetter σ) (s : σ) :
    (db.configBits order tile feature address setter s >>= fun r => .ok r.2) =
      (PartDatabase.configBits order ⟨tiles, []⟩ tile feature address setter s >>= fun r => .ok r.2) := by
  obtain ⟨h1, h2⟩ := reachable_cache hdb
  obtain ⟨h1', h2'⟩ := reachable_cache (Reachable.fresh (tiles := tiles))
  obtain ⟨db1, _, _, h3⟩ := configBits_pure order db h2 tile feature address
  obtain ⟨db2, _, _, h4⟩ := configBits_pure order ⟨tiles, []⟩ h2' tile feature address
  rw [h3, h4, h1]
  dsimp only
  cases pureBits order tiles tile feature address setter s <;> rfl

/-- Histories exist: after asking for `T.F` the cache holds type `X`. -/
example : Reachable demoTiles ⟨demoTiles, [(bytes!"X", demoSeg)]⟩ :=
  Reachable.query (fun l => l) bytes!"T" bytes!"F" 0 record [] _ Reachable.fresh rfl

/-! ## C47 -/

/-- For tiles whose aliases agree, neither the order of the hash maps of the database nor that of the local map
changes which bits are set: both queries make the same calls up to order.
Missing: tiles with aliases of different types, where the last block iterated decides (`C47_defect`). -/
theorem C47_hash_order_partial (order order' : Bits → Bits) (hord : ∀ l, (order l).Perm l) (hord' : ∀ l, (order' l).Perm l)
    (T T' : Tiles) (hT : TilesOk T) (hT' : TilesOk T') (hsame : SameTiles T T') (db db' : PartDatabase)
    (hdb : Reachable T db) (hdb' : Reachable T' db') (tile feature : Bytes) (address : Nat) (bits : List BitCall)
    (hag : ∀ t, T.grid.lookup tile = some t → AliasesAgree t) (h : FeatureBits T tile feature address bits) :
    ∃ calls calls' d d', calls.Perm calls' ∧ calls.Perm bits ∧ ∀ {σ : Type} (setter : BitSetter σ) (s : σ),
      db.configBits order tile feature address setter s = (applyCalls setter s calls >>= fun s' => .ok (d, s')) ∧
      db'.configBits order' tile feature address setter s = (applyCalls setter s calls' >>= fun s' => .ok (d', s')) := by
  obtain ⟨bits', h1, h2⟩ := featureBits_same hT hT' hsame hag h
  obtain ⟨calls, d, h3, _, h4⟩ := C45_feature_bits order hord T hT db hdb tile feature address bits h
  obtain ⟨calls', d', h5, _, h6⟩ := C45_feature_bits order' hord' T' hT' db' hdb' tile feature address bits' h1
  exact ⟨calls, calls', d, d', h3.trans (h2.symm.trans h5.symm), h3, fun setter s => ⟨h4 setter s, h6 setter s⟩⟩

/-- The order matters only through the type and name of the last aliased block: where both orders look the feature up
under the same name, the calls are the same.  (For every tile; `C48_one_name` says that there is one name.) -/
theorem C47_exact (order order' : Bits → Bits) (hord : ∀ l, (order l).Perm l) (hord' : ∀ l, (order' l).Perm l)
    (T T' : Tiles) (hT : TilesOk T) (hT' : TilesOk T') (hsame : SameTiles T T') (db db' : PartDatabase)
    (hdb : Reachable T db) (hdb' : Reachable T' db') (tile feature : Bytes) (address : Nat) (bits : List BitCall)
    (hread : ∀ t t' ty f, T.grid.lookup tile = some t → T'.grid.lookup tile = some t' → KnownAs t feature ty f → KnownAs t' feature ty f)
    (h : FeatureBits T tile feature address bits) :
    ∃ calls calls' d d', calls.Perm calls' ∧ calls.Perm bits ∧ ∀ {σ : Type} (setter : BitSetter σ) (s : σ),
      db.configBits order tile feature address setter s = (applyCalls setter s calls >>= fun s' => .ok (d, s')) ∧
      db'.configBits order' tile feature address setter s = (applyCalls setter s calls' >>= fun s' => .ok (d', s')) := by
  obtain ⟨bits', h1, h2⟩ := featureBits_reading hT hT' hsame hread h
  obtain ⟨calls, d, h3, _, h4⟩ := C45_feature_bits order hord T hT db hdb tile feature address bits h
  obtain ⟨calls', d', h5, _, h6⟩ := C45_feature_bits order' hord' T' hT' db' hdb' tile feature address bits' h1
  exact ⟨calls, calls', d, d', h3.trans (h2.symm.trans h5.symm), h3, fun setter s => ⟨h4 setter s, h6 setter s⟩⟩

/-- A setter whose calls commute ends in the same state. -/
theorem C47_same_state_partial {σ : Type} (setter : BitSetter σ)
    (hcomm : ∀ s (c c' : BitCall), applyCalls setter s [c, c'] = applyCalls setter s [c', c]) (s : σ)
    (calls calls' : List BitCall) (hp : calls.Perm calls') : applyCalls setter s calls = applyCalls setter s calls' := by
  induction hp generalizing s with
  | nil => rfl
  | cons c _ ih =>
    unfold applyCalls at *
    rw [List.foldlM_cons, List.foldlM_cons]
    congr 1
    funext x
    exact ih x
  | swap c c' l =>
    have h := hcomm s c' c
    unfold applyCalls at *
    have e : ∀ (a b : BitCall) , (a :: b :: l).foldlM (fun s c => setter s c.bus c.frame c.word c.index c.value) s =
        (([a, b].foldlM (fun s c => setter s c.bus c.frame c.word c.index c.value) s) >>= fun s =>
          l.foldlM (fun s c => setter s c.bus c.frame c.word c.index c.value) s) := by
      intro a b
      rw [← List.foldlM_append]; rfl
    rw [e, e, h]
  | trans _ _ ih1 ih2 => rw [ih1, ih2]

/-- Two blocks aliased to different types, in either order. -/
def twoAliases (swap : Bool) : Tiles :=
  let a : ConfigBusType × BitsBlock := (.clbIoClk, { alias? := some ⟨[], 0, bytes!"X"⟩, baseAddress := 0x400100, frames := 36, offset := 2, words := 2 })
  let b : ConfigBusType × BitsBlock := (.blockRam, { alias? := some ⟨[], 0, bytes!"Z"⟩, baseAddress := 0xc00100, frames := 128, offset := 0, words := 2 })
  { demoTiles with grid := [(bytes!"T", { demoT with bits := if swap then [b, a] else [a, b] })] }

/-- Defect: with aliases of different types the result depends on the order of the map. -/
theorem C47_defect : SameTiles (twoAliases false) (twoAliases true) ∧
    (∃ db, PartDatabase.configBits (fun l => l) ⟨twoAliases true, []⟩ bytes!"T" bytes!"F" 0 record [] =
      .ok (db, [⟨.clbIoClk, 0x400103, 3, 1, true⟩, ⟨.clbIoClk, 0x400104, 2, 2, false⟩])) ∧
    PartDatabase.configBits (fun l => l) ⟨twoAliases false, []⟩ bytes!"T" bytes!"F" 0 record [] = .abort := by
  refine ⟨⟨?_, ?_⟩, ⟨_, rfl⟩, rfl⟩
  · intro k
    simp only [twoAliases, List.lookup]
    cases k == bytes!"T" with
    | false => trivial
    | true =>
      refine ⟨rfl, ?_⟩
      have hr : ∀ b : BitsBlock, (∃ a, b.alias? = some a) → SameBlock b b := by
        rintro b ⟨a, ha⟩
        refine ⟨rfl, rfl, rfl, rfl, ?_⟩
        rw [ha]
        refine ⟨rfl, rfl, ?_⟩
        intro k
        cases a.sites.lookup k <;> trivial
      intro bus
      cases bus <;> first | exact hr _ ⟨_, rfl⟩ | exact True.intro
  · intro ty
    simp only [twoAliases, demoTiles]
    by_cases h : ty = bytes!"X"
    · rw [if_pos h]
      refine ⟨?_, ?_⟩
      · intro k; cases demoSeg.pips.lookup k <;> trivial
      · intro k
        cases hk : demoSeg.segmentBits.lookup k with
        | none => trivial
        | some m => intro j; cases m.lookup j <;> trivial
    · rw [if_neg h]; trivial

/-! ## C48 -/

/-- What is wanted: the first component of the feature is the site. -/
def SiteTranslated (sites : List (Bytes × Bytes)) (feature f : Bytes) : Prop :=
  ∃ site rest to, feature = site ++ 0x2e :: rest ∧ 0x2e ∉ site ∧ sites.lookup site = some to ∧ f = to ++ 0x2e :: rest

/-- What the code translates: everything behind the first dot, as a whole.
Missing: the site is the first component, which is left alone (`C48_defect`). -/
theorem C48_translated_partial (t : Db.Tile) (pre post : Bits) (bus : ConfigBusType) (block : BitsBlock) (a : BitsBlockAlias)
    (hb : t.bits = pre ++ (bus, block) :: post) (hpost : ∀ e ∈ post, e.2.alias? = none)
    (ha : block.alias? = some a) (head site to : Bytes) (hh : 0x2e ∉ head) (hs : a.sites.lookup site = some to) :
    KnownAs t (head ++ 0x2e :: site) a.type (head ++ 0x2e :: to) :=
  Or.inr ⟨pre, bus, block, a, post, hb, ha, hpost, rfl, Or.inl ⟨head, site, to, rfl, hh, hs, rfl⟩⟩

/-- Otherwise the name is unchanged. -/
theorem C48_untranslated_partial (t : Db.Tile) (pre post : Bits) (bus : ConfigBusType) (block : BitsBlock) (a : BitsBlockAlias)
    (hb : t.bits = pre ++ (bus, block) :: post) (hpost : ∀ e ∈ post, e.2.alias? = none)
    (ha : block.alias? = some a) (feature : Bytes)
    (hs : ∀ head site, feature = head ++ 0x2e :: site → 0x2e ∉ head → a.sites.lookup site = none) :
    KnownAs t feature a.type feature := by
  refine Or.inr ⟨pre, bus, block, a, post, hb, ha, hpost, rfl, Or.inr ⟨?_, rfl⟩⟩
  intro head site to e hn
  rw [hs head site e hn]; simp

/-- Every feature of every tile is looked up under exactly one type and name. -/
theorem C48_one_name (t : Db.Tile) (feature : Bytes) :
    ∃ ty f, KnownAs t feature ty f ∧ ∀ ty' f', KnownAs t feature ty' f' → ty' = ty ∧ f' = f := by
  refine ⟨_, _, knownAs_exists t feature, fun ty' f' h => ?_⟩
  obtain ⟨h1, h2⟩ := knownAs_fold h
  exact ⟨h1.symm, h2.symm⟩

/-- Defect: a feature `SITE.REST` of an aliased tile whose table renames `SITE` is looked up under its old name. -/
theorem C48_defect (t : Db.Tile) (pre post : Bits) (bus : ConfigBusType) (block : BitsBlock) (a : BitsBlockAlias)
    (hb : t.bits = pre ++ (bus, block) :: post) (hpost : ∀ e ∈ post, e.2.alias? = none)
    (ha : block.alias? = some a) (site rest to : Bytes) (hd : 0x2e ∉ site)
    (_hs : a.sites.lookup site = some to) (hne : to ≠ site) (hr : a.sites.lookup rest = none) (f : Bytes)
    (hk : KnownAs t (site ++ 0x2e :: rest) a.type f) : ¬ SiteTranslated a.sites (site ++ 0x2e :: rest) f := by
  have hk' : KnownAs t (site ++ 0x2e :: rest) a.type (site ++ 0x2e :: rest) := by
    apply C48_untranslated_partial t pre post bus block a hb hpost ha
    intro head s e hn
    obtain ⟨_, rfl⟩ := cut_unique e hd hn
    exact hr
  have hf : f = site ++ 0x2e :: rest := by
    rw [← (knownAs_fold hk).2, (knownAs_fold hk').2]
  rintro ⟨s', r', to', e, hn', hl', e'⟩
  obtain ⟨rfl, rfl⟩ := cut_unique e hd hn'
  rw [_hs] at hl'
  have := Option.some.inj hl'
  subst this
  rw [hf] at e'
  exact hne (List.append_cancel_right e').symm

/-- `G.S` of tile `A` is found as `X.G.U`, but `S.G` is not looked up as `X.U.G`. -/
example : ∃ db', PartDatabase.configBits (fun l => l) ⟨demoTiles, []⟩ bytes!"A" bytes!"G.S" 0 record [] =
    .ok (db', [⟨.clbIoClk, 0x400201, 5, 8, true⟩]) := ⟨_, rfl⟩

theorem demoA_agree : AliasesAgree demoA := by
  intro e he e' he' a a' ha ha'
  simp only [demoA, List.mem_singleton] at he he'
  subst he; subst he'
  rw [ha] at ha'
  cases ha'
  exact ⟨rfl, fun _ => rfl⟩

/-- `S.G` of tile `A` should become `U.G` and does not. -/
example (f : Bytes) (hk : KnownAs demoA bytes!"S.G" bytes!"X" f) :
    ¬ SiteTranslated [(bytes!"S", bytes!"U")] bytes!"S.G" f :=
  C48_defect demoA [] [] .clbIoClk
    { alias? := some ⟨[(bytes!"S", bytes!"U")], 1, bytes!"X"⟩, baseAddress := 0x400200, frames := 36, offset := 5, words := 1 }
    ⟨[(bytes!"S", bytes!"U")], 1, bytes!"X"⟩ rfl (by simp) rfl bytes!"S" bytes!"G" bytes!"U" (by decide) rfl (by decide) rfl f hk

/-! ## C49 -/

/-- A pseudo PIP (listed under the tile name or under the type) sets nothing and succeeds, whatever its index. -/
theorem C49_pseudo_pip (order : Bits → Bits) (hord : ∀ l, (order l).Perm l) (tiles : Tiles) (hok : TilesOk tiles)
    (db : PartDatabase) (hdb : Reachable tiles db) (tile feature : Bytes) (address : Nat) (t : Db.Tile) (ty f : Bytes)
    (sb : SegBits) (ht : tiles.grid.lookup tile = some t) (hk : KnownAs t feature ty f) (hsb : tiles.bits ty = .ok (some sb))
    (hpip : IsPip sb tile ty f) : ∃ db', ∀ {σ : Type} (setter : BitSetter σ) (s : σ),
      db.configBits order tile feature address setter s = .ok (db', s) := by
  obtain ⟨calls, db', h1, _, h2⟩ := C45_feature_bits order hord tiles hok db hdb tile feature address []
    ⟨t, ty, f, sb, ht, hk, hsb, Or.inl ⟨hpip, rfl⟩⟩
  have := h1.eq_nil
  subst this
  exact ⟨db', fun setter s => h2 setter s⟩

example : IsPip demoSeg bytes!"T" bytes!"X" bytes!"P" ∧ IsPip demoSeg bytes!"T" bytes!"X" bytes!"Q" := ⟨Or.inr ⟨.always, by decide⟩, Or.inl ⟨.default, by decide⟩⟩
example : KnownAs demoT bytes!"P" bytes!"X" bytes!"P" := Or.inl (by decide)

end Verif.Props
