import Verif.Proofs.Reorder
import Verif.Props.C58_C61
/-! # C66: reproducible output -/
namespace Verif.Props
open Verif.Db Verif.Spec Verif.Asm Verif.Xc7 Verif.Text

/-- What parsing guarantees: distinct keys. -/
structure Loaded (g : TileGrid) (p : Db.Part) : Prop where
  tiles : (g.map (·.1)).Nodup
  bits : ∀ e ∈ g, (e.2.bits.map (·.1)).Nodup
  sites : ∀ e ∈ g, ∀ b ∈ e.2.bits, ∀ a, b.2.alias? = some a → (a.sites.map (·.1)).Nodup
  buses : ∀ row, row ∈ p.topRows ∨ row ∈ p.bottomRows → (row.map (·.1)).Nodup

theorem loaded {jg jp : Json} {g : TileGrid} {p : Db.Part} (hg : parseTileGrid jg = .ok g) (hp : parsePart jp = .ok p) : Loaded g p := by
  obtain ⟨es, _, h2, h3⟩ := (parseTileGrid_iff _ _).1 hg
  obtain ⟨_, _, v, _, ⟨vb, _, ⟨v1, _, es1, _, h5, h6⟩⟩, ⟨vt, _, ⟨v2, _, es2, _, h7, h8⟩⟩⟩ := (parsePart_iff _ _).1 hp
  have hrow : ∀ {j : Json} {row : ClockRegionRow}, RowJson j row → (row.map (·.1)).Nodup := by
    rintro j row ⟨v, _, es, _, h, _⟩
    rw [h]; exact nodup_firsts _
  refine ⟨by rw [h3]; exact nodup_firsts _, ?_, ?_, ?_⟩
  · intro e he
    rw [h3] at he
    obtain ⟨e', he', rfl⟩ := List.mem_map.1 (mem_firsts he)
    obtain ⟨_, _, _, _, ⟨v, _, fs, _, hb, _⟩, _⟩ := h2 e' he'
    show (e'.2.bits.map (·.1)).Nodup
    rw [hb]; exact nodup_firsts _
  · intro e he b hb a ha
    rw [h3] at he
    obtain ⟨e', he', rfl⟩ := List.mem_map.1 (mem_firsts he)
    obtain ⟨_, _, _, _, ⟨v, _, fs, _, hb', hf⟩, _⟩ := h2 e' he'
    have hb : b ∈ e'.2.bits := hb
    rw [hb'] at hb
    obtain ⟨f, hf', rfl⟩ := List.mem_map.1 (mem_firsts hb)
    obtain ⟨_, h9, _⟩ := hf f hf'
    rcases h9 with ⟨_, h9⟩ | ⟨v, a', _, h9, ⟨v', _, es', _, h10⟩, _⟩
    · rw [h9] at ha; cases ha
    · rw [h9] at ha
      cases ha
      rw [h10]; exact nodup_firsts _
  · intro row hr
    rcases hr with hr | hr
    · rw [h7] at hr
      obtain ⟨e, he, rfl⟩ := List.mem_map.1 hr
      obtain ⟨i, hi⟩ := List.mem_iff_getElem?.1 he
      exact hrow (h8 i e hi).2
    · rw [h5] at hr
      obtain ⟨e, he, rfl⟩ := List.mem_map.1 hr
      obtain ⟨i, hi⟩ := List.mem_iff_getElem?.1 he
      exact hrow (h6 i e hi).2

theorem block_same {b b' : BitsBlock} (h : BlockReordered b b') (hn : ∀ a, b.alias? = some a → (a.sites.map (·.1)).Nodup) : SameBlock b b' := by
  obtain ⟨h1, h2, h3, h4, h5⟩ := h
  refine ⟨h1, h2, h3, h4, ?_⟩
  cases ha : b.alias? with
  | none =>
    rw [ha] at h5
    revert h5
    cases b'.alias? <;> exact id
  | some a =>
    rw [ha] at h5
    revert h5
    cases b'.alias? with
    | none => exact id
    | some a' => rintro ⟨h6, h7, h8⟩; exact ⟨h6, h7, perm_sameMap h8 (hn a ha)⟩

theorem sameMap_mono {κ ν : Type} [BEq κ] [LawfulBEq κ] {R R' : ν → ν → Prop} {m m' : List (κ × ν)} (h : SameMap R m m')
    (hR : ∀ k a b, (k, a) ∈ m → R a b → R' a b) : SameMap R' m m' := by
  intro k
  cases h1 : m.lookup k with
  | none => rw [h.none_left h1]; trivial
  | some v =>
    obtain ⟨v', h2, h3⟩ := h.some_left h1
    rw [h2]
    exact hR k _ _ (mem_of_lookup h1) h3

/-- The banks of a tile, whatever the order. -/
theorem tileBanks_same {p p' : Db.Part} (h : p.iobanks.Perm p'.iobanks) (hn : (p.iobanks.map (·.2)).Nodup) (o o' : List Bytes → List Bytes)
    (pins : PackagePins) (tile : Bytes) :
    (Registry.create o p pins).tileBanks tile = (Registry.create o' p' pins).tileBanks tile := by
  rw [C43_tile_banks_list, C43_tile_banks_list]
  congr 2
  have h1 : (p.iobanks.filter fun e => bytes!"HCLK_IOI3_" ++ e.2 == tile).Perm
      (p'.iobanks.filter fun e => bytes!"HCLK_IOI3_" ++ e.2 == tile) := h.filter _
  -- at most one bank has that location
  have h2 : ∀ e ∈ p.iobanks.filter (fun e => bytes!"HCLK_IOI3_" ++ e.2 == tile),
      ∀ e' ∈ p.iobanks.filter (fun e => bytes!"HCLK_IOI3_" ++ e.2 == tile), e.2 = e'.2 := by
    intro e he e' he'
    have a := eq_of_beq (List.mem_filter.1 he).2
    have b := eq_of_beq (List.mem_filter.1 he').2
    exact List.append_cancel_left (a.trans b.symm)
  have h3 : ((p.iobanks.filter fun e => bytes!"HCLK_IOI3_" ++ e.2 == tile).map (·.2)).Nodup :=
    hn.sublist (List.filter_sublist.map _)
  revert h1 h2 h3
  generalize p.iobanks.filter (fun e => bytes!"HCLK_IOI3_" ++ e.2 == tile) = l
  generalize p'.iobanks.filter (fun e => bytes!"HCLK_IOI3_" ++ e.2 == tile) = l'
  intro h1 h2 h3
  match l, h2, h3 with
  | [], _, _ => rw [List.nil_perm.1 h1]
  | [a], _, _ => rw [List.singleton_perm.1 h1]
  | a :: b :: l, h2, h3 =>
    have := h2 a (by simp) b (by simp)
    simp only [List.map_cons, List.nodup_cons, List.mem_cons] at h3
    exact absurd (Or.inl this) h3.1

theorem inBank_same {p p' : Db.Part} (h : p.iobanks.Perm p'.iobanks) (pins : PackagePins) (bank : Nat) (tile : Bytes) :
    InBank p pins bank tile ↔ InBank p' pins bank tile := by
  unfold InBank
  simp only [h.mem_iff]

theorem sameAll_load {load : LoadOrder} (hload : LoadOk load) {g : TileGrid} {p : Db.Part} (hl : Loaded g p) (bits : Bytes → Outcome (Option SegBits))
    (pins : PackagePins) (hone : ∀ t p t' p', PudcPin g t p → PudcPin g t' p' → t = t' ∧ p = p') (hbanks : (p.iobanks.map (·.2)).Nodup) :
    SameAll ⟨g, bits, Registry.create (fun l => l) p pins, p⟩
      ⟨load.grid g, bits, Registry.create load.sets (load.part p) pins, load.part p⟩ := by
  have hg := hload.grid g
  have hp := hload.part p
  have hsm := hg.sameMap hl.tiles
  refine ⟨?_, fun _ => sameBits_refl _, ?_, ?_, ?_, ?_, ?_⟩
  · refine sameMap_mono hsm ?_
    intro name t t' hm ht
    refine ⟨ht.1, sameMap_mono (ht.2.2.2.2.2.1.sameMap (hl.bits _ hm)) ?_⟩
    intro bus b b' hb hbb
    exact block_same hbb (hl.sites _ hm _ hb)
  · intro tile t t' h1 h2 pin
    obtain ⟨t2, h3, h4⟩ := hsm.some_left h1
    have h2 : (load.grid g).lookup tile = some t' := h2
    rw [h3] at h2
    cases h2
    exact (h4.2.2.2.2.2.2.2.map _).mem_iff
  · intro tile pin
    show FirstPudcB g tile pin ↔ FirstPudcB (load.grid g) tile pin
    rw [firstPudc_iff hone, firstPudc_iff (fun a b c d h h' => hone a b c d ((pudcPin_reordered hg _ _).2 h) ((pudcPin_reordered hg _ _).2 h')),
      pudcPin_reordered hg]
  · exact fun tile => tileBanks_same hp.2.1 hbanks _ _ pins tile
  · intro bank tile
    show (∃ ts, (Registry.create (fun l => l) p pins).tiles bank = some ts ∧ tile ∈ ts) ↔
      ∃ ts, (Registry.create load.sets (load.part p) pins).tiles bank = some ts ∧ tile ∈ ts
    rw [← C43_two_way _ _ _ (fun _ => List.Perm.refl _), ← C43_two_way _ _ _ hload.sets, C43_tile_banks, C43_tile_banks,
      inBank_same hp.2.1]
  · intro bank
    show (∃ ts, (Registry.create (fun l => l) p pins).tiles bank = some ts) ↔
      ∃ ts, (Registry.create load.sets (load.part p) pins).tiles bank = some ts
    have h1 := C43_unknown_bank (fun l => l) p pins bank
    have h2 := C43_unknown_bank load.sets (load.part p) pins bank
    simp only [inBank_same hp.2.1] at h1
    have h3 := h1.trans h2.symm
    cases hx : (Registry.create (fun l => l) p pins).tiles bank with
    | none =>
      rw [hx] at h3
      rw [h3.1 rfl]
    | some ts =>
      cases hy : (Registry.create load.sets (load.part p) pins).tiles bank with
      | none => rw [hx, hy] at h3; exact absurd (h3.2 rfl) (by simp)
      | some ts' => exact ⟨fun _ => ⟨ts', rfl⟩, fun _ => ⟨ts, rfl⟩⟩

theorem noBusClash_reordered {p p' : Db.Part} (h : PartReordered p p') (hc : NoBusClash p') : NoBusClash p := by
  have key : ∀ {rs rs' : ClockRegionHalf}, RowsReordered rs rs' → ∀ row ∈ rs, ∃ row' ∈ rs', row.Perm row' := by
    rintro rs rs' ⟨zs, rfl, rfl, hz⟩ row hr
    obtain ⟨z, hz', rfl⟩ := List.mem_map.1 hr
    exact ⟨z.2, List.mem_map.2 ⟨z, hz', rfl⟩, hz z hz'⟩
  intro row hr c c' h1 h2
  obtain ⟨row', hr', hp⟩ : ∃ row', (row' ∈ p'.topRows ∨ row' ∈ p'.bottomRows) ∧ row.Perm row' := by
    rcases hr with hr | hr
    · obtain ⟨r', h3, h4⟩ := key h.2.2.1 row hr; exact ⟨r', Or.inl h3, h4⟩
    · obtain ⟨r', h3, h4⟩ := key h.2.2.2 row hr; exact ⟨r', Or.inr h3, h4⟩
  exact hc row' hr' c c' (hp.mem_iff.1 h1) (hp.mem_iff.1 h2)

/-- One direction, for databases that look the same. -/
theorem transfer {env env' : Env} {load load' : LoadOrder} (hload : LoadOk load) (hload' : LoadOk load') {ord ord' : HashOrder} (hord : Permutes ord)
    (hord' : Permutes ord') {inv : Invocation} {db db' : PartDatabase} {text : Bytes} (hs : Starts env load inv db text)
    (hs' : Starts env' load' inv db' text) (S : SameAll db.tiles db'.tiles) (hag : AliasesOk db.tiles)
    (hpart : Part.fromPart db.tiles.part = Part.fromPart db'.tiles.part) {out o : OStream} {fuel : Nat} {d : PartDatabase} {frames : Frames}
    (ha : assembleFrames ord text db [] = .ok (d, frames))
    (he : encode d.tiles.part kFasm kSource inv.date inv.time frames out fuel = some (.ok o)) :
    main env' load' ord' inv out fuel = some (.ok (0, o)) := by
  obtain ⟨_, _, _, path, _, _, _, hparse⟩ := id hs
  obtain ⟨_, _, _, path', _, _, _, hparse'⟩ := id hs'
  obtain ⟨hok, hr⟩ := C45_loaded env load hload _ _ db hparse
  obtain ⟨hok', hr'⟩ := C45_loaded env' load' hload' _ _ db' hparse'
  have hasm := assemble_inv hok ord hord text db hr _ ha
  obtain ⟨d0, fr0, h1, h1r, h2⟩ := assemble_ok hok ord hord text db hr hasm
  rw [ha] at h1
  cases h1
  obtain ⟨d', fr', h3, h4, h5⟩ := assemble_ok hok' ord' hord' text db' hr' (assembles_same S hok hok' hag text hasm)
  have h6 := framesOf_same S hok hok' hag _ _ h2
  rw [design_same S] at h6
  cases framesOf_unique h5 h6
  refine main_started env' load' ord' inv out fuel db' text hs' d' frames h3 o ?_
  rw [(reachable_cache h4).1]
  rw [(reachable_cache h1r).1] at he
  unfold encode at he ⊢
  rw [← hpart]
  exact he

theorem starts_unique {env : Env} {load : LoadOrder} {inv : Invocation} {db db' : PartDatabase} {text text' : Bytes}
    (h : Starts env load inv db text) (h' : Starts env load inv db' text') : db = db' ∧ text = text' := by
  obtain ⟨_, _, h1, path, h2, _, _, h3⟩ := h
  obtain ⟨_, _, h1', path', h2', _, _, h3'⟩ := h'
  have e := (C61_setting _ _ _).2 h2
  rw [(C61_setting _ _ _).2 h2'] at e
  cases e
  rw [h3] at h3'
  have e := (inputText_iff _ _).2 h1
  rw [(inputText_iff _ _).2 h1'] at e
  cases e
  cases h3'
  exact ⟨rfl, rfl⟩

/-- The database loaded with file order. -/
theorem canonical {env : Env} {load : LoadOrder} (hload : LoadOk load) {inv : Invocation} {db : PartDatabase} {text : Bytes}
    (hs : Starts env load inv db text) : ∃ db0 : PartDatabase, Starts env sameLoad inv db0 text ∧
      (∀ load', LoadOk load' → ∃ db', Starts env load' inv db' text ∧
        (Settled db0.tiles → SameAll db0.tiles db'.tiles ∧ Part.fromPart db0.tiles.part = Part.fromPart db'.tiles.part)) ∧
      (Settled db.tiles → Settled db0.tiles) := by
  obtain ⟨a, b, c, path, e, f, g, hparse⟩ := hs
  obtain ⟨info, grid, paths, part, pins, h1, h2, h3, h4, h5, rfl⟩ := parseDatabase_iff.1 hparse
  obtain ⟨jg, hjg⟩ := parseJsonFile_ok h2
  obtain ⟨jp, hjp⟩ := parseJsonFile_ok h4
  have hl := loaded hjg hjp
  refine ⟨⟨⟨grid, tilesDatabase env paths, Registry.create (fun l => l) part pins, part⟩, []⟩,
    ⟨a, b, c, path, e, f, g, parseDatabase_iff.2 ⟨info, grid, paths, part, pins, h1, h2, h3, h4, h5, rfl⟩⟩, ?_, ?_⟩
  · intro load' hload'
    refine ⟨_, ⟨a, b, c, path, e, f, g, parseDatabase_iff.2 ⟨info, grid, paths, part, pins, h1, h2, h3, h4, h5, rfl⟩⟩, ?_⟩
    intro hset
    exact ⟨sameAll_load hload' hl _ pins hset.onePudc hset.banks, fromPart_reordered (hload'.part part) hl.buses hset.buses⟩
  · intro hset
    have hone : ∀ t p t' p', PudcPin grid t p → PudcPin grid t' p' → t = t' ∧ p = p' := fun t p t' p' h h' =>
      hset.onePudc t p t' p' ((pudcPin_reordered (hload.grid grid) _ _).1 h) ((pudcPin_reordered (hload.grid grid) _ _).1 h')
    have hb : (part.iobanks.map (·.2)).Nodup := ((hload.part part).2.1.map _).nodup_iff.2 hset.banks
    have S := sameAll_load hload hl (tilesDatabase env paths) pins hone hb
    have hok0 : TilesOk ⟨grid, tilesDatabase env paths, Registry.create (fun l => l) part pins, part⟩ := fun n t ht =>
      hl.bits _ (mem_of_lookup ht)
    exact ⟨aliasesAgree_same S.symm hok0 hset.aliases, hone, hb,
      noBusClash_reordered (hload.part part) hset.buses⟩

/-- Any order gives what file order gives. -/
theorem hub {env : Env} {load : LoadOrder} (hload : LoadOk load) {ord : HashOrder} (hord : Permutes ord) {inv : Invocation}
    {db db0 : PartDatabase} {text : Bytes} (hs : Starts env load inv db text) (hs0 : Starts env sameLoad inv db0 text)
    (hset : Settled db0.tiles) (S : SameAll db0.tiles db.tiles) (hpart : Part.fromPart db0.tiles.part = Part.fromPart db.tiles.part)
    (out o : OStream) (fuel : Nat) :
    main env load ord inv out fuel = some (.ok (0, o)) ↔ main env sameLoad sameOrder inv out fuel = some (.ok (0, o)) := by
  obtain ⟨_, _, _, path, _, _, _, hparse⟩ := id hs
  have hok := (C45_loaded env load hload _ _ db hparse).1
  constructor
  · intro h
    rcases C58_stages_partial env load ord inv out o fuel 0 h with ⟨h, _⟩ | ⟨_, db1, text1, d, frames, hs1, ha, he⟩
    · cases h
    · obtain ⟨rfl, rfl⟩ := starts_unique hs hs1
      exact transfer hload sameLoad_ok hord sameOrder_permutes hs hs0 S.symm (aliasesAgree_same S hok hset.aliases)
        hpart.symm ha he
  · intro h
    rcases C58_stages_partial env sameLoad sameOrder inv out o fuel 0 h with ⟨h, _⟩ | ⟨_, db1, text1, d, frames, hs1, ha, he⟩
    · cases h
    · obtain ⟨rfl, rfl⟩ := starts_unique hs0 hs1
      exact transfer sameLoad_ok hload sameOrder_permutes hord hs0 hs S hset.aliases hpart ha he

/-- Reproducible output: for a database in which nothing is left to the hash order, a run that ends with status 0 would
have ended with status 0 and the same output under any other iteration orders. -/
theorem C66_reproducible (env : Env) (load load' : LoadOrder) (hload : LoadOk load) (hload' : LoadOk load') (ord ord' : HashOrder)
    (hord : Permutes ord) (hord' : Permutes ord') (inv : Invocation)
    (hset : ∀ db text, Starts env load inv db text → Settled db.tiles) (out o : OStream) (fuel : Nat) :
    main env load ord inv out fuel = some (.ok (0, o)) ↔ main env load' ord' inv out fuel = some (.ok (0, o)) := by
  have go : ∀ db text, Starts env load inv db text →
      (main env load ord inv out fuel = some (.ok (0, o)) ↔ main env load' ord' inv out fuel = some (.ok (0, o))) := by
    intro db text hs
    obtain ⟨db0, hs0, h1, h2⟩ := canonical hload hs
    have hset0 := h2 (hset db text hs)
    obtain ⟨db1, h3, h4⟩ := h1 load hload
    obtain ⟨db2, h5, h6⟩ := h1 load' hload'
    rw [hub hload hord h3 hs0 hset0 (h4 hset0).1 (h4 hset0).2, hub hload' hord' h5 hs0 hset0 (h6 hset0).1 (h6 hset0).2]
  constructor
  · intro h
    rcases C58_stages_partial env load ord inv out o fuel 0 h with ⟨h, _⟩ | ⟨_, db, text, _, _, hs, _, _⟩
    · cases h
    · exact (go db text hs).1 h
  · intro h
    rcases C58_stages_partial env load' ord' inv out o fuel 0 h with ⟨h, _⟩ | ⟨_, db', text, _, _, hs', _, _⟩
    · cases h
    · obtain ⟨_, _, h1, _⟩ := canonical hload' hs'
      obtain ⟨db, hs, _⟩ := h1 load hload
      exact (go db text hs).2 h

/-- A reversal of every map and set. -/
def reversed : LoadOrder where
  sets := List.reverse
  grid := fun g => (g.map fun e => (e.1, { e.2 with bits := e.2.bits.reverse, pinFunctions := e.2.pinFunctions.reverse, sites := e.2.sites.reverse })).reverse
  part := fun p => { p with bottomRows := p.bottomRows.map List.reverse, topRows := p.topRows.map List.reverse, iobanks := p.iobanks.reverse }

theorem reversed_ok : LoadOk reversed := by
  refine ⟨fun l => List.reverse_perm l, fun g => ?_, fun p => ?_⟩
  · refine ⟨(g.map fun e => (e.1, e.2, { e.2 with bits := e.2.bits.reverse, pinFunctions := e.2.pinFunctions.reverse, sites := e.2.sites.reverse })).reverse, ?_, ?_, ?_⟩
    · rw [List.map_reverse, List.map_map]
      have : ((fun z : Bytes × Tile × Tile => (z.1, z.2.1)) ∘ fun e : Bytes × Tile =>
        (e.1, e.2, { e.2 with bits := e.2.bits.reverse, pinFunctions := e.2.pinFunctions.reverse, sites := e.2.sites.reverse })) = id := rfl
      rw [this, List.map_id]
      exact (List.reverse_perm g).symm
    · rw [List.map_reverse, List.map_map]; rfl
    · intro z hz
      obtain ⟨e, _, rfl⟩ := List.mem_map.1 (List.mem_reverse.1 hz)
      refine ⟨rfl, rfl, rfl, rfl, rfl, ?_, (List.reverse_perm _).symm, (List.reverse_perm _).symm⟩
      refine ⟨(e.2.bits.map fun b => (b.1, b.2, b.2)).reverse, ?_, ?_, ?_⟩
      · rw [List.map_reverse, List.map_map]
        have : ((fun z : ConfigBusType × BitsBlock × BitsBlock => (z.1, z.2.1)) ∘ fun b : ConfigBusType × BitsBlock => (b.1, b.2, b.2)) = id := rfl
        rw [this, List.map_id]
        exact (List.reverse_perm _).symm
      · rw [List.map_reverse, List.map_map]
        have : ((fun z : ConfigBusType × BitsBlock × BitsBlock => (z.1, z.2.2)) ∘ fun b : ConfigBusType × BitsBlock => (b.1, b.2, b.2)) = id := rfl
        rw [this, List.map_id]
      · intro z hz
        obtain ⟨b, _, rfl⟩ := List.mem_map.1 (List.mem_reverse.1 hz)
        exact blockReordered_refl _
  · refine ⟨rfl, (List.reverse_perm _).symm, ?_, ?_⟩
    · refine ⟨p.topRows.map fun r => (r, r.reverse), ?_, ?_, ?_⟩
      · rw [List.map_map]; exact (List.map_id _).symm
      · rw [List.map_map]; rfl
      · intro z hz
        obtain ⟨r, _, rfl⟩ := List.mem_map.1 hz
        exact (List.reverse_perm r).symm
    · refine ⟨p.bottomRows.map fun r => (r, r.reverse), ?_, ?_, ?_⟩
      · rw [List.map_map]; exact (List.map_id _).symm
      · rw [List.map_map]; rfl
      · intro z hz
        obtain ⟨r, _, rfl⟩ := List.mem_map.1 hz
        exact (List.reverse_perm r).symm

/-- The hypothesis holds for the example, in any order that is a reordering: the small device. -/
theorem file_settled : Settled fileTiles := by
  refine ⟨fileTiles_aliases, ?_, by decide, ?_⟩
  · rintro t p t' p' ⟨info, fn, h1, h2, _⟩
    simp only [fileTiles, List.mem_singleton, Prod.mk.injEq] at h1
    rw [h1.2] at h2
    cases h2
  · intro row hr c c' h1 h2
    have : ∀ row, row ∈ fileTiles.part.topRows ∨ row ∈ fileTiles.part.bottomRows → ∀ e ∈ row, e.1 ≠ ConfigBusType.cfgClb := by
      intro row hr
      rcases hr with hr | hr <;> revert hr row <;> decide
    exact absurd rfl (this row hr _ h2)

example : ∃ fuel o, main fileEnv reversed sameOrder fileInv ⟨[], 0, true, false⟩ fuel = some (.ok (0, o)) := by
  obtain ⟨_, _, fuel0, h⟩ := file_example
  obtain ⟨o, _, h1, _⟩ := h fuel0 (Nat.le_refl _)
  refine ⟨fuel0, o, (C66_reproducible fileEnv sameLoad reversed sameLoad_ok reversed_ok sameOrder sameOrder sameOrder_permutes
    sameOrder_permutes fileInv ?_ _ o fuel0).1 h1⟩
  intro db text hs
  obtain ⟨rfl, rfl⟩ := starts_unique file_starts hs
  exact file_settled

/-! ## What is left to the hash order

Besides aliases that disagree (`C47_defect`) and rows with two buses of one block type (`C06_hash_order_dependent`): two
pins that mention `PUDC_B`. -/

/-- A tile with a `PUDC_B` pin and one block at `base`. -/
def pudcTile (base : Nat) : Tile :=
  { type := bytes!"X", x := 0, y := 0, clockRegion := none
    bits := [(.clbIoClk, { alias? := none, baseAddress := base, frames := 1, offset := 0, words := 2 })]
    pinFunctions := [(bytes!"P0", bytes!"PUDC_B")], sites := [], prohibitedSites := [] }

/-- Tiles `A` and `B`; the three features of the pin all stand for bit 0 of the first frame of the tile. -/
def twoPins (g : TileGrid) : Tiles :=
  { grid := g
    bits := fun _ => .ok (some { pips := []
                                 segmentBits := [(.clbIoClk, [kInOnly, kIn, kPullup].map fun f =>
                                   ((dotted bytes!"X" (dotted bytes!"IOB_Y0" f), 0), [⟨0, 0, true⟩]))] })
    banks := ⟨[], []⟩, part := ⟨[], [], 0, []⟩ }

/-- Defect: two pins that mention `PUDC_B` — the frames of the empty design depend on the hash order of the grid. -/
theorem C66_defect_pudc : ∃ g g' : TileGrid, Reordered TileReordered g g' ∧
    (assembleFrames sameOrder [] ⟨twoPins g, []⟩ [] >>= fun r => .ok (r.2.map (·.1))) = .ok [0] ∧
    (assembleFrames sameOrder [] ⟨twoPins g', []⟩ [] >>= fun r => .ok (r.2.map (·.1))) = .ok [128] := by
  refine ⟨[(bytes!"A", pudcTile 0), (bytes!"B", pudcTile 128)], [(bytes!"B", pudcTile 128), (bytes!"A", pudcTile 0)], ?_, by decide +kernel, by decide +kernel⟩
  exact ⟨[(bytes!"B", pudcTile 128, pudcTile 128), (bytes!"A", pudcTile 0, pudcTile 0)], List.Perm.swap _ _ _, rfl, fun z hz => by
    simp only [List.mem_cons, List.not_mem_nil, or_false] at hz
    rcases hz with rfl | rfl <;> exact tileReordered_refl _⟩

/-- Two banks with one location: the bank of the clock tile depends on the hash order of the banks. -/
theorem C66_defect_banks : ∃ p p' : Db.Part, PartReordered p p' ∧
    ((Registry.create (fun l => l) p []).tileBanks (bytes!"HCLK_IOI3_" ++ bytes!"X")).head? = some 14 ∧
    ((Registry.create (fun l => l) p' []).tileBanks (bytes!"HCLK_IOI3_" ++ bytes!"X")).head? = some 15 :=
  ⟨⟨[], [], 0, [(14, bytes!"X"), (15, bytes!"X")]⟩, ⟨[], [], 0, [(15, bytes!"X"), (14, bytes!"X")]⟩,
    ⟨rfl, List.Perm.swap _ _ _, rowsReordered_refl _, rowsReordered_refl _⟩, by decide, by decide⟩

end Verif.Props
