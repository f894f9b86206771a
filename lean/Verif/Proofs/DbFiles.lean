import Verif.Proofs.ConfigBits
import Verif.Proofs.DbGrid
/-! # Database files: proofs -/
namespace Verif.Db
open Verif.Text Verif.Spec

/-- Histories keep the cache consistent. -/
theorem reachable_cache {tiles : Tiles} {db : PartDatabase} (h : Reachable tiles db) : db.tiles = tiles ∧ CacheOk db := by
  induction h with
  | fresh => exact ⟨rfl, by intro k s h; cases h⟩
  | query order tile feature address setter s s' _ hq ih =>
    obtain ⟨db2, h1, h2, h3⟩ := configBits_pure order _ ih.2 tile feature address
    have := h3 setter s
    rw [hq] at this
    revert this
    cases hp : pureBits order _ tile feature address setter s with
    | ok x =>
      intro this
      cases this
      exact ⟨h1.trans ih.1, h2⟩
    | err => intro this; cases this
    | abort => intro this; cases this
    | ub => intro this; cases this

theorem nodup_firsts {κ ν : Type} [BEq κ] [LawfulBEq κ] (es : List (κ × ν)) : ((firsts es).map (·.1)).Nodup := by
  rw [← insertAll_nil_firsts]
  exact nodup_insertAll (by simp) es

theorem mem_firsts {κ ν : Type} [BEq κ] {es : List (κ × ν)} {x : κ × ν} (h : x ∈ firsts es) : x ∈ es := by
  induction es with
  | nil => cases h
  | cons e es ih =>
    rw [firsts] at h
    rcases List.mem_cons.1 h with rfl | h
    · simp
    · exact List.mem_cons_of_mem _ (ih (List.mem_filter.1 h).1)

theorem grid_ok {j : Json} {g : TileGrid} (h : parseTileGrid j = .ok g) (name : Bytes) (t : Tile)
    (hl : g.lookup name = some t) : (t.bits.map (·.1)).Nodup := by
  obtain ⟨es, _, h2, h3⟩ := (parseTileGrid_iff _ _).1 h
  have hm := mem_of_lookup hl
  rw [h3] at hm
  obtain ⟨e, he, e'⟩ := List.mem_map.1 (mem_firsts hm)
  cases e'
  obtain ⟨_, _, _, _, ⟨v, _, fs, _, hb, _⟩, _⟩ := h2 e he
  rw [hb]
  exact nodup_firsts _

/-- The stages of loading. -/
theorem parseDatabase_iff {env : Env} {order : LoadOrder} {root : Path} {name : Bytes} {db : PartDatabase} :
    parseDatabase env order root name = .ok db ↔ ∃ info grid paths part pins,
      parsePartInfo env root name = .ok info ∧
      parseJsonFile env parseTileGrid (root ++ [info.fabric, kTilegrid]) = .ok grid ∧
      indexTileTypes env root = .ok paths ∧
      parseJsonFile env parsePart (root ++ [name, kPartJson]) = .ok part ∧
      parseFile env parsePackagePins (root ++ [name, kPackagePins]) = .ok pins ∧
      db = ⟨⟨order.grid grid, tilesDatabase env paths, Registry.create order.sets (order.part part) pins, order.part part⟩, []⟩ := by
  unfold parseDatabase
  constructor
  · intro h
    obtain ⟨info, h1, h⟩ := Outcome.bind_eq_ok.1 h
    obtain ⟨grid, h2, h⟩ := Outcome.bind_eq_ok.1 h
    obtain ⟨paths, h3, h⟩ := Outcome.bind_eq_ok.1 h
    obtain ⟨part, h4, h⟩ := Outcome.bind_eq_ok.1 h
    obtain ⟨pins, h5, h⟩ := Outcome.bind_eq_ok.1 h
    exact ⟨info, grid, paths, part, pins, h1, h2, h3, h4, h5, (Outcome.ok.inj h).symm⟩
  · rintro ⟨info, grid, paths, part, pins, h1, h2, h3, h4, h5, rfl⟩
    rw [h1, Outcome.bind_ok, h2, Outcome.bind_ok, h3, Outcome.bind_ok, h4, Outcome.bind_ok, h5, Outcome.bind_ok]

theorem parseJsonFile_ok {α : Type} {env : Env} {f : Json → Outcome α} {p : Path} {a : α} (h : parseJsonFile env f p = .ok a) :
    ∃ j, f j = .ok a := by
  unfold parseJsonFile at h
  cases hr : env.read p with
  | none => rw [hr] at h; cases h
  | some c =>
    rw [hr] at h
    dsimp only at h
    cases hj : env.json c.1 with
    | none => rw [hj] at h; cases h
    | some j => rw [hj] at h; exact ⟨j, h⟩

theorem _root_.Verif.Spec.Reordered.keys {κ ν : Type} {R : ν → ν → Prop} {m m' : List (κ × ν)} (h : Reordered R m m') :
    (m.map (·.1)).Perm (m'.map (·.1)) := by
  obtain ⟨zs, h1, rfl, _⟩ := h
  have := h1.map (·.1)
  rwa [List.map_map, show (m.map fun x => x.1).Perm (zs.map ((fun x => x.1) ∘ fun z => (z.1, z.2.1))) ↔
    (m.map fun x => x.1).Perm ((zs.map fun z => (z.1, z.2.2)).map fun x => x.1) from by rw [List.map_map]; rfl] at this

theorem _root_.Verif.Spec.Reordered.mem_right {κ ν : Type} {R : ν → ν → Prop} {m m' : List (κ × ν)} (h : Reordered R m m')
    {k : κ} {v' : ν} (hm : (k, v') ∈ m') : ∃ v, (k, v) ∈ m ∧ R v v' := by
  obtain ⟨zs, h1, rfl, h2⟩ := h
  obtain ⟨z, hz, e⟩ := List.mem_map.1 hm
  cases e
  exact ⟨z.2.1, h1.mem_iff.2 (List.mem_map.2 ⟨z, hz, rfl⟩), h2 z hz⟩

theorem _root_.Verif.Spec.Reordered.mem_left {κ ν : Type} {R : ν → ν → Prop} {m m' : List (κ × ν)} (h : Reordered R m m')
    {k : κ} {v : ν} (hm : (k, v) ∈ m) : ∃ v', (k, v') ∈ m' ∧ R v v' := by
  obtain ⟨zs, h1, rfl, h2⟩ := h
  obtain ⟨z, hz, e⟩ := List.mem_map.1 (h1.mem_iff.1 hm)
  cases e
  exact ⟨z.2.2, List.mem_map.2 ⟨z, hz, rfl⟩, h2 z hz⟩

theorem reordered_refl {κ ν : Type} {R : ν → ν → Prop} (hR : ∀ v, R v v) (m : List (κ × ν)) : Reordered R m m := by
  refine ⟨m.map fun e => (e.1, e.2, e.2), ?_, ?_, ?_⟩
  · rw [List.map_map]
    have : ((fun z : κ × ν × ν => (z.1, z.2.1)) ∘ fun e : κ × ν => (e.1, e.2, e.2)) = id := rfl
    rw [this, List.map_id]
  · rw [List.map_map]
    have : ((fun z : κ × ν × ν => (z.1, z.2.2)) ∘ fun e : κ × ν => (e.1, e.2, e.2)) = id := rfl
    rw [this, List.map_id]
  · intro z hz
    obtain ⟨e, _, rfl⟩ := List.mem_map.1 hz
    exact hR _

theorem blockReordered_refl (b : BitsBlock) : BlockReordered b b := by
  refine ⟨rfl, rfl, rfl, rfl, ?_⟩
  cases b.alias? with
  | none => exact trivial
  | some a => exact ⟨rfl, rfl, List.Perm.refl _⟩

theorem tileReordered_refl (t : Db.Tile) : TileReordered t t :=
  ⟨rfl, rfl, rfl, rfl, rfl, reordered_refl blockReordered_refl _, List.Perm.refl _, List.Perm.refl _⟩

theorem rowsReordered_refl (rs : ClockRegionHalf) : RowsReordered rs rs := by
  refine ⟨rs.map fun r => (r, r), ?_, ?_, ?_⟩
  · rw [List.map_map]; exact (List.map_id _).symm
  · rw [List.map_map]; exact (List.map_id _).symm
  · intro z hz
    obtain ⟨e, _, rfl⟩ := List.mem_map.1 hz
    exact List.Perm.refl _

theorem partReordered_refl (p : Db.Part) : PartReordered p p :=
  ⟨rfl, List.Perm.refl _, rowsReordered_refl _, rowsReordered_refl _⟩

/-- Databases that were loaded have distinct buses in every tile. -/
theorem parseDatabase_ok {env : Env} {order : LoadOrder} (hload : LoadOk order) {root : Path} {name : Bytes} {db : PartDatabase}
    (h : parseDatabase env order root name = .ok db) : TilesOk db.tiles ∧ db.cache = [] := by
  obtain ⟨info, grid, paths, part, pins, _, h2, _, _, _, rfl⟩ := parseDatabase_iff.1 h
  refine ⟨?_, rfl⟩
  obtain ⟨j, hj⟩ := parseJsonFile_ok h2
  intro n t ht
  obtain ⟨t0, ht0, hr⟩ := (hload.grid grid).mem_right (mem_of_lookup ht)
  obtain ⟨es, _, h5, h3⟩ := (parseTileGrid_iff _ _).1 hj
  have hn : ((grid.map (·.1)).Nodup) := by rw [h3]; exact nodup_firsts _
  have := grid_ok hj n t0 (lookup_of_mem hn ht0)
  exact hr.2.2.2.2.2.1.keys.nodup_iff.1 this

theorem toLower_eq (b : UInt8) : toLower b = lowerByte b := by
  have h : ∀ n : Fin 256, toLower (UInt8.ofNat n) = lowerByte (UInt8.ofNat n) := by decide +kernel
  have := h ⟨b.toNat, b.toNat_lt⟩
  simpa using this

theorem map_toLower (T : Bytes) : T.map toLower = lowerCase T := by
  unfold lowerCase
  exact List.map_congr_left fun b _ => toLower_eq b

theorem fileIfPresent_iff (env : Env) (p : Path) (o : Option Path) : FileIfPresent env p o ↔ o = ifExists env p := by
  unfold FileIfPresent ifExists
  cases env.fileExists p <;> simp

theorem typeName_iff (f : Bytes) : (startsWith tileTypePrefix f && jsonSuffix.isSuffixOf f) = true ↔ ∃ T, f = tileTypeFile T := by
  unfold startsWith tileTypeFile
  rw [Bool.and_eq_true, List.isPrefixOf_iff_prefix, List.isSuffixOf_iff_suffix]
  constructor
  · rintro ⟨⟨r, h1⟩, ⟨l, h2⟩⟩
    rw [← h2] at h1
    rcases List.append_eq_append_iff.1 h1 with ⟨T, h3, h4⟩ | ⟨x, h3, h4⟩
    · refine ⟨T, ?_⟩
      rw [← h2, h3]; rfl
    · cases x with
      | nil =>
        refine ⟨[], ?_⟩
        rw [List.append_nil] at h3
        rw [← h2, ← h3]; rfl
      | cons c x =>
        have hc : c = 0x2e := by
          have := congrArg List.head? h4
          simp only [jsonSuffix, List.cons_append, List.head?_cons, Option.some.injEq] at this
          exact this.symm
        have : c ∈ tileTypePrefix := by rw [h3]; simp
        rw [hc] at this
        exact absurd this (by decide)
  · rintro ⟨T, rfl⟩
    refine ⟨⟨T ++ jsonSuffix, by rw [List.append_assoc]; rfl⟩, ⟨tileTypePrefix ++ T, rfl⟩⟩

/-- The entry made for `tile_type_T.json` in `dir`. -/
theorem databasePaths_eq (env : Env) (dir : Path) (T : Bytes) :
    databasePaths env (dir ++ [tileTypeFile T]) = (T,
      { segbits := ifExists env (dir ++ [segbitsFile (lowerCase T)])
        blockRam := ifExists env (dir ++ [blockRamFile (lowerCase T)])
        ppips := ifExists env (dir ++ [ppipsFile (lowerCase T)]) }) := by
  have hT : ((tileTypeFile T).drop tileTypePrefix.length).take
      ((tileTypeFile T).length - tileTypePrefix.length - jsonSuffix.length) = T := by
    have e : tileTypeFile T = tileTypePrefix ++ (T ++ jsonSuffix) := by
      unfold tileTypeFile; rw [List.append_assoc]; rfl
    rw [e, List.drop_left]
    have : (tileTypePrefix ++ (T ++ jsonSuffix)).length - tileTypePrefix.length - jsonSuffix.length = T.length := by
      simp
    rw [this, List.take_left]
  unfold databasePaths
  simp only [List.getLast?_append, List.getLast?_singleton, Option.some_or, Option.getD_some, List.dropLast_concat]
  rw [hT, map_toLower]
  rfl

/-- The entry a listed file makes, if any. -/
def typeEntry (env : Env) (e : Path × Bool) : Option (Bytes × DbPaths) :=
  if e.2 && startsWith tileTypePrefix (e.1.getLast?.getD []) && jsonSuffix.isSuffixOf (e.1.getLast?.getD []) then
    some (databasePaths env e.1) else none

theorem typeEntry_iff (env : Env) (e : Path × Bool) (T : Bytes) (d : DbPaths) :
    typeEntry env e = some (T, d) ↔ ∃ dir, e = (dir ++ [tileTypeFile T], true) ∧ databasePaths env (dir ++ [tileTypeFile T]) = (T, d) := by
  unfold typeEntry
  obtain ⟨p, reg⟩ := e
  dsimp only
  constructor
  · intro h
    split at h
    · rename_i hc
      rw [Bool.and_assoc, Bool.and_eq_true] at hc
      obtain ⟨T', hT'⟩ := (typeName_iff _).1 hc.2
      cases hg : p.getLast? with
      | none => rw [hg] at hT'; cases hT'
      | some f =>
        rw [hg, Option.getD_some] at hT'
        obtain ⟨dir, hdir⟩ := List.getLast?_eq_some_iff.1 hg
        rw [hT'] at hdir
        have hd := databasePaths_eq env dir T'
        rw [hdir, hd] at h
        have hT : T' = T := by cases h; rfl
        subst hT
        refine ⟨dir, by rw [hdir, hc.1], ?_⟩
        rw [hd]; exact Option.some.inj h
    · cases h
  · rintro ⟨dir, e, h⟩
    cases e
    rw [if_pos, h]
    rw [Bool.and_assoc, Bool.and_eq_true]
    refine ⟨rfl, (typeName_iff _).2 ⟨T, ?_⟩⟩
    rw [List.getLast?_append, List.getLast?_singleton]; rfl

theorem index_fold (env : Env) (entries : List (Path × Bool)) (m : List (Bytes × DbPaths)) :
    entries.foldl (fun m e =>
      let filename := e.1.getLast?.getD []
      if e.2 && startsWith tileTypePrefix filename && jsonSuffix.isSuffixOf filename then
        let p := databasePaths env e.1
        insertNew m p.1 p.2
      else m) m = insertAll m (entries.filterMap (typeEntry env)) := by
  induction entries generalizing m with
  | nil => rfl
  | cons e es ih =>
    rw [List.foldl_cons, ih, List.filterMap_cons]
    cases hc : (e.2 && startsWith tileTypePrefix (e.1.getLast?.getD []) && jsonSuffix.isSuffixOf (e.1.getLast?.getD [])) with
    | true =>
      have : typeEntry env e = some (databasePaths env e.1) := by unfold typeEntry; rw [hc]; rfl
      rw [this]
      simp only [hc, if_true]
      rfl
    | false =>
      have : typeEntry env e = none := by unfold typeEntry; rw [hc]; rfl
      rw [this]
      simp only [hc, Bool.false_eq_true, if_false]

theorem lookup_typeEntries (env : Env) (entries : List (Path × Bool)) (T : Bytes) :
    (∃ dir, FirstTypeDir entries T dir ∧ (entries.filterMap (typeEntry env)).lookup T = some (databasePaths env (dir ++ [tileTypeFile T])).2) ∨
    ((∀ dir, (dir ++ [tileTypeFile T], true) ∉ entries) ∧ (entries.filterMap (typeEntry env)).lookup T = none) := by
  induction entries with
  | nil => exact Or.inr ⟨by simp, rfl⟩
  | cons e es ih =>
    by_cases hd : ∃ dir, e = (dir ++ [tileTypeFile T], true)
    · obtain ⟨dir, rfl⟩ := hd
      refine Or.inl ⟨dir, ⟨[], es, rfl, by simp⟩, ?_⟩
      have : typeEntry env (dir ++ [tileTypeFile T], true) = some (T, (databasePaths env (dir ++ [tileTypeFile T])).2) := by
        rw [typeEntry_iff]
        refine ⟨dir, rfl, ?_⟩
        rw [databasePaths_eq]
      rw [List.filterMap_cons, this]
      simp only [List.lookup, beq_self_eq_true]
    · have hne : ∀ dir, e ≠ (dir ++ [tileTypeFile T], true) := fun dir h => hd ⟨dir, h⟩
      have hl : ((e :: es).filterMap (typeEntry env)).lookup T = (es.filterMap (typeEntry env)).lookup T := by
        rw [List.filterMap_cons]
        cases ht : typeEntry env e with
        | none => rfl
        | some x =>
          obtain ⟨T', d⟩ := x
          dsimp only
          obtain ⟨dir, he, _⟩ := (typeEntry_iff env e T' d).1 ht
          have : (T == T') = false := by
            rw [beq_eq_false_iff_ne]
            rintro rfl
            exact hne dir he
          rw [List.lookup_cons, this]
      rw [hl]
      rcases ih with ⟨dir, ⟨pre, post, h1, h2⟩, h3⟩ | ⟨h1, h2⟩
      · refine Or.inl ⟨dir, ⟨e :: pre, post, by rw [h1]; rfl, ?_⟩, h3⟩
        intro x hx d
        rcases List.mem_cons.1 hx with rfl | hx
        · exact hne d
        · exact h2 x hx d
      · refine Or.inr ⟨?_, h2⟩
        intro dir hm
        rcases List.mem_cons.1 hm with h | h
        · exact hne dir h.symm
        · exact h1 dir h

end Verif.Db
