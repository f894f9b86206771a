import Verif.Props.C128
import Verif.Props.C70
import Verif.Spec.EndToEnd
/-! # C129: from the files to the device -/
namespace Verif.Props
open Verif.Db Verif.Asm Verif.Spec Verif.Text Verif.Xc7

section
variable {grid : TileGrid} {tiles : Tiles} (hr : Reordered TileReordered grid tiles.grid) (hkeys : (grid.map (·.1)).Nodup)
include hr hkeys

theorem files_tile (tile : Bytes) : (∀ t, grid.lookup tile = some t → ∃ t', tiles.grid.lookup tile = some t' ∧ TileReordered t t') ∧
    ∀ t', tiles.grid.lookup tile = some t' → ∃ t, grid.lookup tile = some t ∧ TileReordered t t' := by
  have h := hr.sameMap hkeys tile
  constructor
  · intro t ht
    rw [ht] at h
    cases h2 : tiles.grid.lookup tile with
    | none => rw [h2] at h; exact h.elim
    | some t' => rw [h2] at h; exact ⟨t', rfl, h⟩
  · intro t' ht
    rw [ht] at h
    cases h2 : grid.lookup tile with
    | none => rw [h2] at h; exact h.elim
    | some t => rw [h2] at h; exact ⟨t, rfl, h⟩

end

theorem files_given {sb : SegBits} {c : TypeContents} (h : SaysSame sb c.clb c.ram c.pips) (key : TileFeature) (bus : ConfigBusType) (bits : List SegmentBit) :
    listed sb key bus = some bits ↔ c.Gives bus key bits := by
  obtain ⟨h1, h2, h3, _⟩ := h
  unfold TypeContents.Gives
  cases bus with
  | clbIoClk => rw [h1, Option.bind_eq_some_iff]; simp
  | blockRam => rw [h2, Option.bind_eq_some_iff]; simp
  | cfgClb => rw [h3]; simp

theorem files_pip {sb : SegBits} {c : TypeContents} (h : SaysSame sb c.clb c.ram c.pips) (tile ty feature : Bytes) :
    IsPip sb tile ty feature ↔ c.Pip tile ty feature := by
  unfold IsPip TypeContents.Pip
  simp only [h.2.2.2, exists_or]

theorem blocks_bit {t t' : Db.Tile} (h : TileReordered t t') (hown : ∀ e ∈ t.bits, e.2.alias? = none) :
    (∀ bus b, (bus, b) ∈ t.bits ↔ (bus, b) ∈ t'.bits) ∧ ∀ e ∈ t'.bits, e.2.alias? = none := by
  obtain ⟨_, _, _, _, _, h, _⟩ := h
  have same : ∀ {b b' : BitsBlock}, BlockReordered b b' → b.alias? = none → b' = b := by
    intro b b' h h0
    obtain ⟨e1, e2, e3, e4, e5⟩ := h
    rw [h0] at e5
    cases h1 : b'.alias? with
    | some a => rw [h1] at e5; exact e5.elim
    | none => cases b; cases b'; simp_all
  have key : ∀ bus b, (bus, b) ∈ t.bits ↔ (bus, b) ∈ t'.bits := by
    intro bus b
    constructor
    · intro hb
      obtain ⟨b', h1, h2⟩ := h.mem_left hb
      rw [same h2 (hown _ hb)] at h1
      exact h1
    · intro hb
      obtain ⟨b', h1, h2⟩ := h.mem_right hb
      rw [same h2 (hown _ h1)]
      exact h1
  exact ⟨key, fun e he => hown e ((key e.1 e.2).2 he)⟩

section
variable {grid : TileGrid} {tiles : Tiles} (hr : Reordered TileReordered grid tiles.grid) (hkeys : (grid.map (·.1)).Nodup) (hplain : PlainGrid grid)
  {files : Bytes → TypeContents} {tile : Bytes}
  (hfiles : ∀ t, grid.lookup tile = some t → ∃ sb, tiles.bits t.type = .ok (some sb) ∧ SaysSame sb (files t.type).clb (files t.type).ram (files t.type).pips)
include hr hkeys hplain hfiles

/-- What the database says about a bit of a feature is what the files list. -/
theorem files_bits (feature : Bytes) (addr : Nat) :
    ((∃ bits, FeatureBits tiles tile feature addr bits) ↔ ∃ t, grid.lookup tile = some t ∧
      ((files t.type).Pip tile t.type feature ∨ ∃ bus block bits, (bus, block) ∈ t.bits ∧ (files t.type).Gives bus (t.type ++ 0x2e :: feature, addr) bits)) ∧
    ∀ bits, FeatureBits tiles tile feature addr bits → ∀ c, c ∈ bits ↔ ∃ block s t sbits, grid.lookup tile = some t ∧ ¬ (files t.type).Pip tile t.type feature ∧
      (c.bus, block) ∈ t.bits ∧ (files t.type).Gives c.bus (t.type ++ 0x2e :: feature, addr) sbits ∧ s ∈ sbits ∧
      c = ⟨c.bus, bitFrame block s, bitPos block s / 32, bitPos block s % 32, s.isSet⟩ := by
  have known : ∀ t t', TileReordered t t' → grid.lookup tile = some t → ∀ ty f, KnownAs t' feature ty f ↔ ty = t.type ∧ f = feature := by
    intro t t' h ht ty f
    obtain ⟨_, h2⟩ := blocks_bit h (hplain.own tile t ht)
    constructor
    · rintro (⟨_, h3, h4⟩ | ⟨pre, bus, block, a, post, h3, h4, _⟩)
      · exact ⟨h3.trans h.1.symm, h4⟩
      · have := h2 (bus, block) (by rw [h3]; simp)
        rw [h4] at this
        cases this
    · rintro ⟨h3, h4⟩
      exact Or.inl ⟨h2, h3.trans h.1, h4⟩
  constructor
  · constructor
    · rintro ⟨bits, t', ty, f, sb, h1, h2, h3, h4⟩
      obtain ⟨t, ht, hT⟩ := (files_tile hr hkeys tile).2 t' h1
      obtain ⟨rfl, rfl⟩ := (known t t' hT ht ty f).1 h2
      obtain ⟨sb', h5, h6⟩ := hfiles t ht
      rw [h3] at h5
      cases h5
      refine ⟨t, ht, ?_⟩
      rcases h4 with ⟨h4, _⟩ | ⟨_, ⟨e, he, h4⟩, _⟩
      · exact Or.inl ((files_pip h6 tile t.type _).1 h4)
      · obtain ⟨bs, hb⟩ := Option.isSome_iff_exists.1 h4
        exact Or.inr ⟨e.1, e.2, bs, ((blocks_bit hT (hplain.own tile t ht)).1 _ _).2 he, (files_given h6 _ _ _).1 hb⟩
    · rintro ⟨t, ht, h⟩
      obtain ⟨t', h1, hT⟩ := (files_tile hr hkeys tile).1 t ht
      obtain ⟨sb, h5, h6⟩ := hfiles t ht
      by_cases hp : (files t.type).Pip tile t.type feature
      · exact ⟨[], t', t.type, feature, sb, h1, (known t t' hT ht _ _).2 ⟨rfl, rfl⟩, h5, Or.inl ⟨(files_pip h6 _ _ _).2 hp, rfl⟩⟩
      · rcases h with h | ⟨bus, block, bs, hb, hg⟩
        · exact absurd h hp
        · exact ⟨_, t', t.type, feature, sb, h1, (known t t' hT ht _ _).2 ⟨rfl, rfl⟩, h5, Or.inr ⟨fun h => hp ((files_pip h6 _ _ _).1 h),
            ⟨(bus, block), ((blocks_bit hT (hplain.own tile t ht)).1 _ _).1 hb, by rw [(files_given h6 _ _ _).2 hg]; rfl⟩, rfl⟩⟩
  · rintro bits ⟨t', ty, f, sb, h1, h2, h3, h4⟩ c
    obtain ⟨t, ht, hT⟩ := (files_tile hr hkeys tile).2 t' h1
    obtain ⟨rfl, rfl⟩ := (known t t' hT ht ty f).1 h2
    obtain ⟨sb', h5, h6⟩ := hfiles t ht
    rw [h3] at h5
    cases h5
    have hpip := files_pip h6 tile t.type f
    have hblk := (blocks_bit hT (hplain.own tile t ht)).1
    rcases h4 with ⟨h4, rfl⟩ | ⟨h4, _, rfl⟩
    · constructor
      · intro h; cases h
      · rintro ⟨block, s, t2, sbits, g1, g2, _⟩
        rw [ht] at g1
        cases g1
        exact absurd (hpip.1 h4) g2
    · unfold tileBits
      rw [List.mem_flatMap]
      constructor
      · rintro ⟨e, he, hc⟩
        obtain ⟨s, hs, rfl⟩ := List.mem_map.1 hc
        cases hl : listed sb (t.type ++ 0x2e :: f, addr) e.1 with
        | none => rw [hl] at hs; cases hs
        | some bs =>
          rw [hl] at hs
          exact ⟨e.2, s, t, bs, ht, fun h => h4 (hpip.2 h), (hblk _ _).2 he, (files_given h6 _ _ _).1 hl, hs, rfl⟩
      · rintro ⟨block, s, t2, sbits, g1, g2, g3, g4, g5, g6⟩
        rw [ht] at g1
        cases g1
        refine ⟨(c.bus, block), (hblk _ _).1 g3, ?_⟩
        rw [(files_given h6 _ _ _).2 g4, g6]
        exact List.mem_map.2 ⟨s, g5, rfl⟩

end

/-- Where a listed bit is. -/
theorem at_iff (block : BitsBlock) (s : SegmentBit) (h : block.alias? = none) (k w b : Nat) :
    At block s k w b ↔ bitFrame block s = k ∧ bitPos block s / 32 = w ∧ bitPos block s % 32 = b := by
  unfold At bitFrame bitPos firstWord
  rw [h]
  have e : (Option.none : Option BitsBlockAlias).elim 0 (fun a => (a.startOffset : Int)) = 0 := rfl
  rw [e]
  have h1 := Int.emod_nonneg ((block.offset - 0) * 32 + s.wordBit) (show (2 : Int) ^ 32 ≠ 0 by decide)
  constructor
  · rintro ⟨h2, h3, h4⟩
    refine ⟨h2.symm, ?_, ?_⟩ <;> (rw [Int.sub_zero] at *; omega)
  · rintro ⟨h2, h3, h4⟩
    refine ⟨h2.symm, ?_, ?_⟩ <;> (rw [Int.sub_zero] at *; omega)

section
variable {grid : TileGrid} {tiles : Tiles} (hr : Reordered TileReordered grid tiles.grid) (hkeys : (grid.map (·.1)).Nodup) (hplain : PlainGrid grid)
  (files : Bytes → TypeContents) (ls : List SourceLine) (hls : ∀ l ∈ ls, l.Ok ∧ l.Dotted ∧ l.NoStepdown)
  (hfiles : ∀ tile feature addr t, Wants ls tile feature addr → grid.lookup tile = some t →
    ∃ sb, tiles.bits t.type = .ok (some sb) ∧ SaysSame sb (files t.type).clb (files t.type).ram (files t.type).pips)
include hr hkeys hplain hls hfiles

theorem plain_design (F : FasmFeature) : SourceDesign tiles ls F ↔ Source ls F := by
  have noPudc : ∀ F, ¬ PudcFeature tiles.grid F := by
    rintro F ⟨tile, pin, _, ⟨g1, info, g2, p1, fn, p2, h1, h2, h3, _⟩, _⟩
    exact hplain.pins tile pin ((pudcPin_reordered hr tile pin).2 ⟨info, fn, by rw [h1]; simp, by rw [h2]; simp, h3⟩)
  have noTag : ∀ F tile site tag, SourceBasic tiles ls F → HasTag F tile site tag → ¬ Occurs bytes!"STEPDOWN" tag := by
    rintro F tile site tag (hF | ⟨l, hl, hF⟩) ht ho
    · exact noPudc F hF
    · cases l with
      | empty => cases hF
      | statement g f as e =>
        obtain ⟨i, _, rfl⟩ := List.mem_map.1 hF
        refine (hls _ hl).2.2 ?_
        obtain ⟨a, b, h1⟩ := ho
        obtain ⟨_, _, _, _, h2 | ⟨rest, h2⟩⟩ := ht
        · exact ⟨tile ++ 0x2e :: (site ++ 0x2e :: a), b, by dsimp only at h2; rw [h2, h1]; simp⟩
        · exact ⟨tile ++ 0x2e :: (site ++ 0x2e :: a), b ++ 0x2e :: rest, by dsimp only at h2; rw [h2, h1]; simp⟩
  constructor
  · rintro ((h | h) | ⟨_, ⟨bank, tag, _, _, _, _, _, ⟨G, tile, site, h1, h2, h3, _⟩, _⟩ | ⟨bank, tag, _, _, ⟨G, tile, site, h1, h2, h3, _⟩, _⟩⟩)
    · exact absurd h (noPudc F)
    · exact h
    · exact absurd h3 (noTag G tile site tag h1 h2)
    · exact absurd h3 (noTag G tile site tag h1 h2)
  · exact fun h => Or.inl (Or.inr h)

theorem plain_lists (tile : Bytes) (c : BitCall) : Lists tiles (SourceDesign tiles ls) tile c ↔
    ∃ feature addr bits, Wants ls tile feature addr ∧ FeatureBits tiles tile feature addr bits ∧ c ∈ bits := by
  have hw := (C128_written ls (fun l hl => (hls l hl).1) (fun l hl => (hls l hl).2.1)).2
  have h2 := (C69_written ls (fun l hl => (hls l hl).1)).2
  unfold Lists
  simp only [plain_design hr hkeys hplain files ls hls hfiles]
  unfold Wants
  constructor
  · rintro ⟨F, feature, addr, bits, h3, h4, h5⟩
    exact ⟨feature, addr, bits, (hw tile feature addr).1 ⟨F, (h2 F).2 h3, h4⟩, h5⟩
  · rintro ⟨feature, addr, bits, h3, h5⟩
    obtain ⟨F, h6, h7⟩ := (hw tile feature addr).2 h3
    exact ⟨F, feature, addr, bits, (h2 F).1 h6, h7, h5⟩

/-- A bit of a frame is to be 1 exactly if the design wants a bit of a feature for which the files list it. -/
theorem plain_bit (k w b : Nat) : (∃ tile c, Lists tiles (SourceDesign tiles ls) tile c ∧ c.value = true ∧ c.frame = k ∧ c.word = w ∧ c.index = b) ↔
    ∃ tile feature addr block s, Wants ls tile feature addr ∧ FilesList grid files tile feature addr block s ∧ s.isSet = true ∧ At block s k w b := by
  constructor
  · rintro ⟨tile, c, h, h1, h2, h3, h4⟩
    obtain ⟨feature, addr, bits, h5, h6, h7⟩ := (plain_lists hr hkeys hplain files ls hls hfiles tile c).1 h
    obtain ⟨block, s, t, sbits, g1, g2, g3, g4, g5, g6⟩ :=
      ((files_bits hr hkeys hplain (fun t => hfiles tile feature addr t h5) feature addr).2 bits h6 c).1 h7
    refine ⟨tile, feature, addr, block, s, h5, ⟨t, c.bus, sbits, g1, g2, g3, g4, g5⟩, ?_, ?_⟩
    · rw [g6] at h1; exact h1
    · rw [at_iff block s (hplain.own tile t g1 _ g3)]
      rw [g6] at h2 h3 h4
      exact ⟨h2, h3, h4⟩
  · rintro ⟨tile, feature, addr, block, s, h5, ⟨t, bus, sbits, g1, g2, g3, g4, g5⟩, h1, h2⟩
    obtain ⟨hex, hall⟩ := files_bits hr hkeys hplain (fun t => hfiles tile feature addr t h5) feature addr
    obtain ⟨bits, hb⟩ := hex.2 ⟨t, g1, Or.inr ⟨bus, block, sbits, g3, g4⟩⟩
    rw [at_iff block s (hplain.own tile t g1 _ g3)] at h2
    refine ⟨tile, ⟨bus, bitFrame block s, bitPos block s / 32, bitPos block s % 32, s.isSet⟩, ?_, h1, h2⟩
    exact (plain_lists hr hkeys hplain files ls hls hfiles tile _).2 ⟨feature, addr, bits, h5, hb, (hall bits hb _).2 ⟨block, s, t, sbits, g1, g2, g3, g4, g5, rfl⟩⟩

/-- The design can be assembled exactly if the files know every bit it wants. -/
theorem plain_assembles : SourceAssembles tiles ls ↔ ∀ tile feature addr, Wants ls tile feature addr → FilesKnow grid files tile feature addr := by
  have hw := C128_written ls (fun l hl => (hls l hl).1) (fun l hl => (hls l hl).2.1)
  have h2 := (C69_written ls (fun l hl => (hls l hl).1)).2
  have hd := plain_design hr hkeys hplain files ls hls hfiles
  have know : ∀ tile feature addr, Wants ls tile feature addr →
      (FilesKnow grid files tile feature addr ↔ ∃ bits, FeatureBits tiles tile feature addr bits ∧ ∀ c ∈ bits, c.value = true → c.word < 101) := by
    intro tile feature addr h5
    obtain ⟨hex, hall⟩ := files_bits hr hkeys hplain (fun t => hfiles tile feature addr t h5) feature addr
    constructor
    · rintro ⟨t, h1, h3, h4⟩
      obtain ⟨bits, hb⟩ := hex.2 ⟨t, h1, h3⟩
      refine ⟨bits, hb, fun c hc hv => ?_⟩
      obtain ⟨block, s, t', sbits, g1, g2, g3, g4, g5, g6⟩ := (hall bits hb c).1 hc
      rw [g6] at hv ⊢
      exact h4 block s _ _ _ ⟨t', c.bus, sbits, g1, g2, g3, g4, g5⟩ ((at_iff block s (hplain.own tile t' g1 _ g3) _ _ _).2 ⟨rfl, rfl, rfl⟩) hv
    · rintro ⟨bits, hb, hwd⟩
      obtain ⟨t, h1, h3⟩ := hex.1 ⟨bits, hb⟩
      refine ⟨t, h1, h3, ?_⟩
      rintro block s k w b ⟨t', bus, sbits, g1, g2, g3, g4, g5⟩ hat hset
      obtain ⟨_, e, _⟩ := (at_iff block s (hplain.own tile t' g1 _ g3) k w b).1 hat
      have := hwd ⟨bus, bitFrame block s, bitPos block s / 32, bitPos block s % 32, s.isSet⟩ ((hall bits hb _).2 ⟨block, s, t', sbits, g1, g2, g3, g4, g5, rfl⟩) hset
      rw [← e]
      exact this
  constructor
  · rintro ⟨_, h3, _⟩ tile feature addr h5
    obtain ⟨F, h6, h7⟩ := (hw.2 tile feature addr).2 h5
    exact (know tile feature addr h5).2 ((h3 F ((hd F).2 ((h2 F).1 h6))).2.2 tile feature addr h7)
  · intro h
    refine ⟨⟨?_, ?_⟩, ?_, ?_⟩
    · intro F tile site tag hF ht ho
      exact absurd ho (by
        rcases (hd F).1 (Or.inl hF) with ⟨l, hl, hl2⟩
        cases l with
        | empty => cases hl2
        | statement g f as e =>
          obtain ⟨i, _, rfl⟩ := List.mem_map.1 hl2
          intro ho
          refine (hls _ hl).2.2 ?_
          obtain ⟨a, b, h1⟩ := ho
          obtain ⟨_, _, _, _, h2 | ⟨rest, h2⟩⟩ := ht
          · exact ⟨tile ++ 0x2e :: (site ++ 0x2e :: a), b, by dsimp only at h2; rw [h2, h1]; simp⟩
          · exact ⟨tile ++ 0x2e :: (site ++ 0x2e :: a), b ++ 0x2e :: rest, by dsimp only at h2; rw [h2, h1]; simp⟩)
    · rintro bank tag ⟨F, tile, site, hF, ht, ho, _⟩
      exfalso
      rcases (hd F).1 (Or.inl hF) with ⟨l, hl, hl2⟩
      cases l with
      | empty => cases hl2
      | statement g f as e =>
        obtain ⟨i, _, rfl⟩ := List.mem_map.1 hl2
        refine (hls _ hl).2.2 ?_
        obtain ⟨a, b, h1⟩ := ho
        obtain ⟨_, _, _, _, h2 | ⟨rest, h2⟩⟩ := ht
        · exact ⟨tile ++ 0x2e :: (site ++ 0x2e :: a), b, by dsimp only at h2; rw [h2, h1]; simp⟩
        · exact ⟨tile ++ 0x2e :: (site ++ 0x2e :: a), b ++ 0x2e :: rest, by dsimp only at h2; rw [h2, h1]; simp⟩
    · intro F hF
      have hF' := (h2 F).2 ((hd F).1 hF)
      obtain ⟨c1, c2⟩ := hw.1.2 F hF'
      obtain ⟨_, w2, _⟩ := written_chunk hF'
      refine ⟨fun i hi => ⟨by omega, c2 i hi⟩, c1, fun tile feature addr ha => ?_⟩
      have h5 := (hw.2 tile feature addr).1 ⟨F, hF', ha⟩
      exact (know tile feature addr h5).1 (h tile feature addr h5)
    · rintro tile pin ⟨g1, info, g2, p1, fn, p2, h1, h2, h3, _⟩
      exact absurd ((pudcPin_reordered hr tile pin).2 ⟨info, fn, by rw [h1]; simp, by rw [h2]; simp, h3⟩) (hplain.pins tile pin)

/-- The frames the design touches. -/
theorem plain_touches (k : Nat) (h : TouchesFrame tiles (SourceDesign tiles ls) k) : ∃ tile feature addr block s, Wants ls tile feature addr ∧
    FilesList grid files tile feature addr block s ∧ Fills block s k := by
  obtain ⟨tile, c, h1, h2⟩ := h
  obtain ⟨feature, addr, bits, h5, h6, h7⟩ := (plain_lists hr hkeys hplain files ls hls hfiles tile c).1 h1
  obtain ⟨block, s, t, sbits, g1, g2, g3, g4, g5, g6⟩ :=
    ((files_bits hr hkeys hplain (fun t => hfiles tile feature addr t h5) feature addr).2 bits h6 c).1 h7
  rcases h2 with h2 | ⟨t', block', i, h8, h9, h10, h11⟩
  · refine ⟨tile, feature, addr, block, s, h5, ⟨t, c.bus, sbits, g1, g2, g3, g4, g5⟩, Or.inl ?_⟩
    rw [g6] at h2
    exact h2.symm
  · obtain ⟨t2, ht2, hT⟩ := (files_tile hr hkeys tile).2 t' h8
    rw [g1] at ht2
    cases ht2
    have h12 := ((blocks_bit hT (hplain.own tile t g1)).1 _ _).2 h9
    exact ⟨tile, feature, addr, block', s, h5, ⟨t, c.bus, sbits, g1, g2, h12, g4, g5⟩, Or.inr ⟨i, h10, h11⟩⟩

end

theorem fits_reordered {p p' : Db.Part} (h : PartReordered p p') (hf : DescFits p) : DescFits p' := by
  have key : ∀ {rs rs' : ClockRegionHalf}, RowsReordered rs rs' →
      (rs.length ≤ 32 ∧ ∀ row ∈ rs, (row.map (·.1)).Nodup ∧ ∀ bus ∈ row, bus.2.length ≤ 1024 ∧ ∀ n ∈ bus.2, n ≤ 128) →
      rs'.length ≤ 32 ∧ ∀ row ∈ rs', (row.map (·.1)).Nodup ∧ ∀ bus ∈ row, bus.2.length ≤ 1024 ∧ ∀ n ∈ bus.2, n ≤ 128 := by
    rintro rs rs' ⟨zs, rfl, rfl, hz⟩ ⟨h1, h2⟩
    refine ⟨by simpa using h1, fun row hr => ?_⟩
    obtain ⟨z, hz', rfl⟩ := List.mem_map.1 hr
    obtain ⟨h3, h4⟩ := h2 z.1 (List.mem_map.2 ⟨z, hz', rfl⟩)
    exact ⟨((hz z hz').map _).nodup_iff.1 h3, fun bus hb => h4 bus ((hz z hz').mem_iff.2 hb)⟩
  obtain ⟨_, _, h3, h4⟩ := h
  rintro half (rfl | rfl)
  · exact key h3 (hf _ (Or.inl rfl))
  · exact key h4 (hf _ (Or.inr rfl))

/-- Loading: the program starts with a database that says what the files say. -/
theorem files_load {env : Env} {load : LoadOrder} (hload : LoadOk load) {inv : Invocation} {path : Bytes} (hcfg : Configured env inv path)
    {grid : TileGrid} {part : Db.Part} {files : Bytes → TypeContents} {ls : List SourceLine} (hdb : DesignFiles env path inv.part grid part files ls)
    (htext : Input inv (sourceText ls)) :
    ∃ db, Starts env load inv db (sourceText ls) ∧ Reordered TileReordered grid db.tiles.grid ∧ (grid.map (·.1)).Nodup ∧ PartReordered part db.tiles.part ∧
      ∀ tile feature addr t, Wants ls tile feature addr → grid.lookup tile = some t →
        ∃ sb, db.tiles.bits t.type = .ok (some sb) ∧ SaysSame sb (files t.type).clb (files t.type).ram (files t.type).pips := by
  obtain ⟨⟨pins, hdir⟩, ⟨entries, hl⟩, htypes, hplain⟩ := hdb
  obtain ⟨db, h1, h2, h3, _⟩ := C70_loads env load hload [path] inv.part grid part pins hdir entries hl
  have hk : (grid.map (·.1)).Nodup := by
    obtain ⟨_, _, _, j, _, _, hj⟩ := hdir.grid
    obtain ⟨es, _, _, h⟩ := (parseTileGrid_iff _ _).1 (C42_complete j grid hj)
    rw [h]
    exact nodup_firsts _
  obtain ⟨c1, c2, c3, c4, c5⟩ := hcfg
  exact ⟨db, ⟨c1, c5, htext, path, c2, c3, c4, h1⟩, h2, hk, h3,
    fun tile feature addr t hw ht => C70_tile_type env load [path] inv.part db h1 t.type _ _ _ (htypes tile feature addr t hw ht)⟩

section
variable (env : Env) (load : LoadOrder) (hload : LoadOk load) (ord : HashOrder) (hord : Permutes ord) (inv : Invocation) (path : Bytes)
  (hcfg : Configured env inv path) (grid : TileGrid) (part : Db.Part) (files : Bytes → TypeContents) (ls : List SourceLine)
  (hdb : DesignFiles env path inv.part grid part files ls) (hls : ∀ l ∈ ls, l.Ok ∧ l.Dotted ∧ l.NoStepdown) (htext : Input inv (sourceText ls))
include hload hord hcfg hdb hls htext

/-- From the files to the device: the bits the device holds after the program wrote the bitstream and it was loaded are those the files of the database list for the design. -/
theorem C129_device (hknow : ∀ tile feature addr, Wants ls tile feature addr → FilesKnow grid files tile feature addr)
    (hd : DescFits part) (hc : NoBusClash part) (p : Xc7.Part) (hp : Part.fromPart part = .ok p)
    (hsmall : FitsPacket p) (hdate : ShortAscii inv.date) (htime : ShortAscii inv.time)
    (hin : ∀ tile feature addr block s k, Wants ls tile feature addr → FilesList grid files tile feature addr block s → Fills block s k →
      ∃ a, Reached p a ∧ a.toNat = k % 2 ^ 32) (seek : Bool) :
    ∃ walk : BMap (FrameWords 101), WalkFrom p 0#32 walk ∧
      (∀ k, k ∈ walk.map (·.1) ↔ ∃ a, Reached p a ∧ a.toNat = k) ∧
      ∃ fuel0, ∀ fuel ≥ fuel0, ∃ o file words data,
        main env load ord inv ⟨[], 0, seek, false⟩ fuel = some (.ok (0, o)) ∧
        readBitFile o.bytes = some file ∧
        file.config = fileBytes (List.replicate 8 0xFFFFFFFF#32 ++ [0x000000BB#32, 0x11220044#32] ++
          List.replicate 2 0xFFFFFFFF#32 ++ [0xAA995566#32] ++ words) ∧
        (Device.run p.idcode words).loaded = [(0, data)] ∧ (Device.run p.idcode words).started = true ∧
        (∀ id, id ≠ p.idcode → (Device.run id words).loaded = [] ∧ (Device.run id words).started = false) ∧
        data.length = (walk.length + 2 * rowEnds p walk + 2) * 101 ∧
        ∀ (i k : Nat), (walk.map (·.1))[i]? = some k → ∀ w b, w < 101 →
          ((∃ x, data[slot 101 p walk i + w]? = some x ∧ x.getLsbD b = true) ↔
            ∃ tile feature addr block s, Wants ls tile feature addr ∧ FilesList grid files tile feature addr block s ∧ s.isSet = true ∧ At block s k w b) := by
  obtain ⟨db, hs, hr, hk, hpr, hf⟩ := files_load hload hcfg hdb htext
  have hok : ∀ l ∈ ls, l.Ok := fun l hl => (hls l hl).1
  have hp' : Part.fromPart db.tiles.part = .ok p := by
    rw [← fromPart_reordered hpr (fun row hrow => hrow.elim (fun h => ((hd _ (Or.inl rfl)).2 row h).1) (fun h => ((hd _ (Or.inr rfl)).2 row h).1)) hc]
    exact hp
  obtain ⟨walk, h1, h2, fuel0, h3⟩ := C69_gaps env load hload ord hord inv db ls hok hs
    ((plain_assembles hr hk hdb.plain files ls hls hf).2 hknow) (fits_reordered hpr hd) p hp' hsmall hdate htime
    (fun k ht => by
      obtain ⟨tile, feature, addr, block, s, a1, a2, a3⟩ := plain_touches hr hk hdb.plain files ls hls hf k ht
      exact hin tile feature addr block s k a1 a2 a3) seek
  refine ⟨walk, h1, h2, fuel0, fun fuel hfu => ?_⟩
  obtain ⟨o, file, words, data, a1, a2, a3, a4, a5, a6, a7, a8⟩ := h3 fuel hfu
  refine ⟨o, file, words, data, a1, a2, a3, a4, a5, a6, a7, fun i k hik w b hw => ?_⟩
  exact (a8 i k hik w b hw).trans (plain_bit hr hk hdb.plain files ls hls hf k w b)

/-- A run that succeeds knows every bit of the design; a design with a bit the files do not know is never turned into a bitstream. -/
theorem C129_needs (out o : OStream) (fuel : Nat) (h : main env load ord inv out fuel = some (.ok (0, o))) :
    ∀ tile feature addr, Wants ls tile feature addr → FilesKnow grid files tile feature addr := by
  obtain ⟨db, hs, hr, hk, hpr, hf⟩ := files_load hload hcfg hdb htext
  have hok : ∀ l ∈ ls, l.Ok := fun l hl => (hls l hl).1
  rcases C58_stages_partial env load ord inv out o fuel 0 h with ⟨h, _⟩ | ⟨_, db', text, db2, frames, hs', ha, _⟩
  · cases h
  · obtain ⟨rfl, rfl⟩ := starts_unique hs hs'
    refine (plain_assembles hr hk hdb.plain files ls hls hf).1 ((sourceAssembles_iff db.tiles ls hok).1 ?_)
    obtain ⟨_, _, h1, path', h2, _, _, h3⟩ := hs
    obtain ⟨hT, hcache⟩ := C45_loaded _ _ hload _ _ _ h3
    have hdbc : db = ⟨db.tiles, []⟩ := by
      obtain ⟨_, _, _, _, _, _, _, _, _, _, rfl⟩ := parseDatabase_iff.1 h3
      rfl
    rw [hdbc] at ha
    exact (C50_succeeds hT ord hord _ _ Reachable.fresh).1 ⟨_, ha⟩

end

/-! ## Example

The directory of C70, with other segment bits for tile type `X`: bit 0 of `F` clears a bit and sets one, bit 2 sets one. -/

def plantFirst : Bytes := bytes!"X.F[0] 1_2\t!0_7"
def plantSecond : Bytes := bytes!"X.F[2] 3_9"
def plantPath : Path := [bytes!"d", bytes!"f", segbitsFile bytes!"x"]

def plantEnv : Env := { dirEnv with read := fun p => if p = plantPath then some (unlines [plantFirst, plantSecond], none) else dirEnv.read p }

def plantInv : Invocation := { fileInv with stdin := sourceText [nibble] }

def plantBits : List (TileFeature × List SegmentBit) := [((bytes!"X.F", 0), [⟨1, 2, true⟩, ⟨0, 7, false⟩]), ((bytes!"X.F", 2), [⟨3, 9, true⟩])]

def plantContents : TypeContents := ⟨some plantBits, none, [(bytes!"A.B", .hint)]⟩

def plantGrid : TileGrid := [(bytes!"T", fileT)]

theorem plant_read (p : Path) (h : p ≠ plantPath) : plantEnv.read p = dirEnv.read p := if_neg h

theorem plant_lines {p : Path} {ls : List Bytes} (h : p ≠ plantPath) (hl : HasLines dirEnv p ls) : HasLines plantEnv p ls := by
  obtain ⟨c, b, h1, h2⟩ := hl
  exact ⟨c, b, (plant_read p h).trans h1, h2⟩

theorem plant_text {p : Path} {ls : List Bytes} (h : p ≠ plantPath) (hl : TextFile dirEnv p ls) : TextFile plantEnv p ls := by
  obtain ⟨c, b, h1, h2⟩ := hl
  exact ⟨c, b, (plant_read p h).trans h1, h2⟩

theorem plant_json {α : Type} {p : Path} {means : Json → α → Prop} {a : α} (h : p ≠ plantPath) (hl : JsonFile dirEnv p means a) : JsonFile plantEnv p means a := by
  obtain ⟨c, b, h1, h2⟩ := hl
  exact ⟨c, b, (plant_read p h).trans h1, h2⟩

theorem plant_table (name : Bytes) (info : Option PartInfo)
    (h : info = (entryOf (dirParts.map (·.2)) name).bind (infoOf (dirDevices.map (·.2)))) : PartTable plantEnv [bytes!"d"] name info := by
  obtain ⟨ps, ds, h1, h2, h3⟩ := dir_table name info h
  exact ⟨ps, ds, plant_lines (by decide) h1, plant_lines (by decide) h2, h3⟩

theorem plant_dir : PartDir plantEnv [bytes!"d"] bytes!"p" plantGrid smallDesc [⟨bytes!"A2", 216, bytes!"S", bytes!"T", bytes!"F"⟩] where
  grid := by
    refine ⟨⟨bytes!"d", bytes!"f", bytes!"k", bytes!"1"⟩, plant_table _ _ (by decide), plant_json (by decide) ?_⟩
    refine ⟨(bytes!"G", none), _, rfl, rfl, grid_render _ ⟨by decide, ?_⟩⟩
    intro e he
    rw [List.mem_singleton.1 he]
    refine ⟨by decide, by decide, ⟨by decide, ?_⟩, by decide, by decide, by decide⟩
    intro b hb
    simp only [fileT, List.mem_cons, List.not_mem_nil, or_false] at hb
    subst hb
    refine ⟨by decide, by decide, by decide, by decide, ?_⟩
    intro a ha; cases ha
  part := plant_json (by decide) dir_part.part
  pins := by
    obtain ⟨h, rows, h1, h2⟩ := dir_part.pins
    exact ⟨h, rows, plant_text (by decide) h1, h2⟩

theorem plant_first : SegLine plantFirst (some ((bytes!"X.F", 0), [⟨1, 2, true⟩, ⟨0, 7, false⟩])) := by
  refine SegLine.entry _ bytes!"X.F[0]" _ [(bytes!"1_2", ⟨1, 2, true⟩), (bytes!"!0_7", ⟨0, 7, false⟩)] ?_ (by decide) ?_ ?_
  · have h := fields_spec plantFirst
    have e : fields plantFirst = [bytes!"X.F[0]", bytes!"1_2", bytes!"!0_7"] := by decide +kernel
    rw [e] at h; exact h
  · exact Or.inl ⟨bytes!"0", rfl, uint_single 0x30 (by decide)⟩
  · intro b hb
    rcases List.mem_cons.1 hb with rfl | hb
    · exact ⟨bytes!"1", bytes!"2", rfl, uint_single 0x31 (by decide), uint_single 0x32 (by decide)⟩
    · rw [List.mem_singleton.1 hb]
      exact ⟨bytes!"0", bytes!"7", rfl, uint_single 0x30 (by decide), uint_single 0x37 (by decide)⟩

theorem plant_second : SegLine plantSecond (some ((bytes!"X.F", 2), [⟨3, 9, true⟩])) := by
  refine SegLine.entry _ bytes!"X.F[2]" _ [(bytes!"3_9", ⟨3, 9, true⟩)] ?_ (by decide) ?_ ?_
  · have h := fields_spec plantSecond
    have e : fields plantSecond = [bytes!"X.F[2]", bytes!"3_9"] := by decide +kernel
    rw [e] at h; exact h
  · exact Or.inl ⟨bytes!"2", rfl, uint_single 0x32 (by decide)⟩
  · intro b hb
    rw [List.mem_singleton.1 hb]
    exact ⟨bytes!"3", bytes!"9", rfl, uint_single 0x33 (by decide), uint_single 0x39 (by decide)⟩

theorem plant_type : TypeFiles plantEnv [bytes!"d"] bytes!"X" (some plantBits) none [(bytes!"A.B", .hint)] := by
  obtain ⟨entries, dir, hl, _, _, _, _⟩ := dir_type
  refine ⟨_, [bytes!"d", bytes!"f"], rfl, ⟨[], [], rfl, by simp⟩, ?_, ?_, ?_⟩
  · refine Or.inr ⟨by decide +kernel, [(plantFirst, some ((bytes!"X.F", 0), [⟨1, 2, true⟩, ⟨0, 7, false⟩])), (plantSecond, some ((bytes!"X.F", 2), [⟨3, 9, true⟩]))],
      ⟨unlines [plantFirst, plantSecond], none, by decide +kernel, ⟨by decide, Or.inl rfl⟩, fun _ => rfl⟩, ?_, rfl⟩
    intro l hl
    rcases List.mem_cons.1 hl with rfl | hl
    · exact plant_first
    · rw [List.mem_singleton.1 hl]
      exact plant_second
  · exact Or.inl ⟨by decide +kernel, rfl⟩
  · refine Or.inr ⟨by decide +kernel, [(dirPip, some (bytes!"A.B", .hint))],
      ⟨dirPip, some 0, by decide +kernel, ⟨by decide, Or.inr ⟨[], dirPip, rfl, by decide, rfl⟩⟩, fun h => by cases h⟩, ?_, rfl⟩
    intro l hl
    rw [List.mem_singleton.1 hl]
    exact examplePipLine

theorem plant_tile {tile : Bytes} {t : Db.Tile} (h : plantGrid.lookup tile = some t) : tile = bytes!"T" ∧ t = fileT := by
  have hm := mem_of_lookup h
  have e := List.mem_singleton.1 hm
  exact ⟨(Prod.mk.inj e).1, (Prod.mk.inj e).2⟩

theorem plant_plain : PlainGrid plantGrid where
  own := by
    intro tile t h e he
    obtain ⟨_, rfl⟩ := plant_tile h
    rw [show e = _ from List.mem_singleton.1 he]
  pins := by
    rintro tile pin ⟨info, fn, h1, h2, _⟩
    have e := List.mem_singleton.1 h1
    rw [(Prod.mk.inj e).2] at h2
    cases h2

theorem plant_files : DesignFiles plantEnv bytes!"d" bytes!"p" plantGrid smallDesc (fun _ => plantContents) [nibble] where
  dir := ⟨_, plant_dir⟩
  listed := ⟨_, rfl⟩
  types := by
    intro tile feature addr t _ ht
    obtain ⟨_, rfl⟩ := plant_tile ht
    exact plant_type
  plain := plant_plain

theorem plant_wants (tile feature : Bytes) (addr : Nat) : Wants [nibble] tile feature addr ↔ tile = bytes!"T" ∧ feature = bytes!"F" ∧ (addr = 0 ∨ addr = 2) := by
  constructor
  · rintro ⟨hdot, l, hl, hs⟩
    rw [List.mem_singleton.1 hl] at hs
    obtain ⟨h1, h2, h3, h4⟩ := hs
    have e1 : bytes!"T.F" = tile ++ 0x2e :: feature := h1
    refine ⟨?_, ?_, ?_⟩
    · match tile, e1 with
      | [], e1 => cases (List.cons.inj e1).1
      | [a], e1 => rw [← (List.cons.inj e1).1]
      | a :: b :: r, e1 =>
        have := (List.cons.inj (List.cons.inj e1).2).1
        exact absurd (show (0x2e : UInt8) ∈ a :: b :: r by rw [← this]; simp) hdot
    · match tile, e1 with
      | [], e1 => cases (List.cons.inj e1).1
      | [a], e1 => exact (List.cons.inj (List.cons.inj e1).2).2.symm
      | a :: b :: r, e1 =>
        have := (List.cons.inj (List.cons.inj e1).2).1
        exact absurd (by rw [← this]; simp) hdot
    · have h3' : addr ≤ 3 := h3
      have h4' : (5 : Nat).testBit (addr - 0) = true := h4
      rcases (by omega : addr = 0 ∨ addr = 1 ∨ addr = 2 ∨ addr = 3) with rfl | rfl | rfl | rfl
      · exact Or.inl rfl
      · exact absurd h4' (by decide)
      · exact Or.inr rfl
      · exact absurd h4' (by decide)
  · rintro ⟨rfl, rfl, h⟩
    refine ⟨by decide, nibble, List.mem_singleton.2 rfl, ?_⟩
    rcases h with rfl | rfl
    · exact ⟨rfl, by decide, by decide, by decide⟩
    · exact ⟨rfl, by decide, by decide, by decide⟩

def plantBlock : BitsBlock := { alias? := none, baseAddress := 0, frames := 36, offset := 2, words := 2 }

theorem plant_pip : ¬ plantContents.Pip bytes!"T" bytes!"X" bytes!"F" := by
  rintro ⟨v, h | h⟩ <;> exact absurd h (by cases v <;> decide)

/-- What the files list for the two bits the design asks for. -/
theorem plant_lists (addr : Nat) (block : BitsBlock) (s : SegmentBit) (h : addr = 0 ∨ addr = 2) :
    FilesList plantGrid (fun _ => plantContents) bytes!"T" bytes!"F" addr block s ↔
      block = plantBlock ∧ ((addr = 0 ∧ (s = ⟨1, 2, true⟩ ∨ s = ⟨0, 7, false⟩)) ∨ (addr = 2 ∧ s = ⟨3, 9, true⟩)) := by
  constructor
  · rintro ⟨t, bus, bits, h1, _, h2, h3, h4⟩
    obtain ⟨_, rfl⟩ := plant_tile h1
    have e := List.mem_singleton.1 h2
    obtain ⟨rfl, rfl⟩ := Prod.mk.inj e
    refine ⟨rfl, ?_⟩
    rcases h3 with ⟨_, es, he, hb⟩ | ⟨hb, _⟩
    · cases he
      rcases h with rfl | rfl
      · have : bits = [⟨1, 2, true⟩, ⟨0, 7, false⟩] := Option.some.inj (hb.symm.trans (by decide))
        subst this
        exact Or.inl ⟨rfl, by simpa using h4⟩
      · have : bits = [⟨3, 9, true⟩] := Option.some.inj (hb.symm.trans (by decide))
        subst this
        exact Or.inr ⟨rfl, by simpa using h4⟩
    · cases hb
  · rintro ⟨rfl, ⟨rfl, hs⟩ | ⟨rfl, rfl⟩⟩
    · exact ⟨fileT, .clbIoClk, [⟨1, 2, true⟩, ⟨0, 7, false⟩], rfl, plant_pip, List.mem_singleton.2 rfl,
        Or.inl ⟨rfl, plantBits, rfl, by decide⟩, by rcases hs with rfl | rfl <;> decide⟩
    · exact ⟨fileT, .clbIoClk, [⟨3, 9, true⟩], rfl, plant_pip, List.mem_singleton.2 rfl, Or.inl ⟨rfl, plantBits, rfl, by decide⟩, by simp⟩

theorem plant_know (tile feature : Bytes) (addr : Nat) (h : Wants [nibble] tile feature addr) :
    FilesKnow plantGrid (fun _ => plantContents) tile feature addr := by
  obtain ⟨rfl, rfl, h0⟩ := (plant_wants _ _ _).1 h
  refine ⟨fileT, rfl, ?_, ?_⟩
  · rcases h0 with rfl | rfl
    · exact Or.inr ⟨.clbIoClk, plantBlock, _, List.mem_singleton.2 rfl, Or.inl ⟨rfl, plantBits, rfl, (by decide : _ = some [⟨1, 2, true⟩, ⟨0, 7, false⟩])⟩⟩
    · exact Or.inr ⟨.clbIoClk, plantBlock, _, List.mem_singleton.2 rfl, Or.inl ⟨rfl, plantBits, rfl, (by decide : _ = some [⟨3, 9, true⟩])⟩⟩
  · intro block s k w b hl ⟨_, _, hp⟩ _
    obtain ⟨rfl, h | h⟩ := (plant_lists addr block s h0).1 hl
    · rcases h.2 with rfl | rfl <;> (have : ((w * 32 + b : Nat) : Int) = _ := hp; simp only [plantBlock] at this; omega)
    · obtain ⟨_, rfl⟩ := h
      have : ((w * 32 + b : Nat) : Int) = _ := hp
      simp only [plantBlock] at this
      omega

theorem plant_buses : NoBusClash smallDesc := by
  intro row h c c' _ h2
  exfalso
  have none : ∀ row ∈ smallDesc.topRows ++ smallDesc.bottomRows, ∀ e ∈ row, e.1 ≠ ConfigBusType.cfgClb := by decide +kernel
  exact none row (List.mem_append.2 h) _ h2 rfl

/-- The design `T.F[3:0]=4'b0101` on the example device: the device ends up with exactly two bits set, bit 2 of word 2 of frame 1 and bit 9 of word 2 of frame 3. -/
example (load : LoadOrder) (hload : LoadOk load) (ord : HashOrder) (hord : Permutes ord) :
    ∃ (p : Xc7.Part) (walk : BMap (FrameWords 101)), Part.fromPart smallDesc = .ok p ∧ WalkFrom p 0#32 walk ∧ ∃ fuel0, ∀ fuel ≥ fuel0, ∃ o file words data,
      main plantEnv load ord plantInv ⟨[], 0, true, false⟩ fuel = some (.ok (0, o)) ∧
      readBitFile o.bytes = some file ∧
      file.config = fileBytes (List.replicate 8 0xFFFFFFFF#32 ++ [0x000000BB#32, 0x11220044#32] ++
        List.replicate 2 0xFFFFFFFF#32 ++ [0xAA995566#32] ++ words) ∧
      (Device.run p.idcode words).loaded = [(0, data)] ∧
      ∀ (i k : Nat), (walk.map (·.1))[i]? = some k → ∀ w b, w < 101 →
        ((∃ x, data[slot 101 p walk i + w]? = some x ∧ x.getLsbD b = true) ↔ w = 2 ∧ (k = 1 ∧ b = 2 ∨ k = 3 ∧ b = 9)) := by
  have hfits := fits_fromPart _ smallDesc_dense.fits _ rfl
  have hdense := dense_fromPart _ smallDesc_dense _ rfl
  obtain ⟨walk, h1, _, fuel0, h2⟩ := C129_device plantEnv load hload ord hord plantInv bytes!"d"
    ⟨by decide, Or.inr ⟨rfl, rfl⟩, by decide, by decide, by decide⟩ plantGrid smallDesc (fun _ => plantContents) [nibble] plant_files
    (by
      intro l hl
      rw [List.mem_singleton.1 hl]
      refine ⟨nibble_ok.1, nibble_ok.2, ?_⟩
      rintro ⟨a, b, h⟩
      have := congrArg List.length (show bytes!"T.F" = a ++ bytes!"STEPDOWN" ++ b from h)
      simp only [List.length_append, List.length_cons] at this
      omega)
    (Or.inr ⟨fun _ _ h => by simp [plantInv, fileInv] at h, rfl⟩) plant_know smallDesc_dense.fits
    plant_buses
    _ rfl smallDesc_packet (by unfold ShortAscii; decide) (by unfold ShortAscii; decide)
    (by
      intro tile feature addr block s k hw hl hf
      obtain ⟨rfl, rfl, h⟩ := (plant_wants _ _ _).1 hw
      have hk : k < 36 := by
        obtain ⟨rfl, h4⟩ := (plant_lists addr block s h).1 hl
        rcases hf with rfl | ⟨i, hi, rfl⟩
        · rcases h4 with ⟨_, rfl | rfl⟩ | ⟨_, rfl⟩ <;> decide
        · have : i < 36 := hi
          simp only [plantBlock]
          omega
      refine (reached_iff hfits hdense _).2 (Or.inr ⟨by omega, ?_⟩)
      rw [Nat.mod_eq_of_lt (by omega)]
      exact file_valid k hk) true
  refine ⟨_, walk, rfl, h1, fuel0, fun fuel hf => ?_⟩
  obtain ⟨o, file, words, data, a1, a2, a3, a4, _, _, _, a5⟩ := h2 fuel hf
  refine ⟨o, file, words, data, a1, a2, a3, a4, fun i k hik w b hw => (a5 i k hik w b hw).trans ?_⟩
  constructor
  · rintro ⟨tile, feature, addr, block, s, hw, hl, hset, hk, hb, hp⟩
    obtain ⟨rfl, rfl, h⟩ := (plant_wants _ _ _).1 hw
    obtain ⟨rfl, h4⟩ := (plant_lists addr block s h).1 hl
    rcases h4 with ⟨_, rfl | rfl⟩ | ⟨_, rfl⟩
    · simp only [plantBlock] at hk hp; omega
    · cases hset
    · simp only [plantBlock] at hk hp; omega
  · rintro ⟨rfl, ⟨rfl, rfl⟩ | ⟨rfl, rfl⟩⟩
    · exact ⟨bytes!"T", bytes!"F", 0, plantBlock, ⟨1, 2, true⟩, (plant_wants _ _ _).2 ⟨rfl, rfl, Or.inl rfl⟩,
        (plant_lists 0 _ _ (Or.inl rfl)).2 ⟨rfl, Or.inl ⟨rfl, Or.inl rfl⟩⟩, rfl, by decide, by decide, by decide⟩
    · exact ⟨bytes!"T", bytes!"F", 2, plantBlock, ⟨3, 9, true⟩, (plant_wants _ _ _).2 ⟨rfl, rfl, Or.inr rfl⟩,
        (plant_lists 2 _ _ (Or.inr rfl)).2 ⟨rfl, Or.inr ⟨rfl, rfl⟩⟩, rfl, by decide, by decide, by decide⟩

end Verif.Props
