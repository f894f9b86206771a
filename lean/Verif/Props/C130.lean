import Verif.Props.C129
import Verif.Spec.WholeDesign
/-! # C130: from the files to the device, with everything the assembler adds -/
namespace Verif.Props
open Verif.Db Verif.Asm Verif.Spec Verif.Text Verif.Xc7

theorem nodup_second {α β : Type} {l : List (α × β)} (hn : (l.map (·.2)).Nodup) {a b : α} {x : β} (ha : (a, x) ∈ l) (hb : (b, x) ∈ l) : a = b := by
  induction l with
  | nil => cases ha
  | cons e l ih =>
    rw [List.map_cons, List.nodup_cons] at hn
    rcases List.mem_cons.1 ha with h | ha
    · rcases List.mem_cons.1 hb with h' | hb
      · exact (Prod.mk.inj (h.trans h'.symm)).1
      · exact absurd (List.mem_map.2 ⟨(b, x), hb, (show x = e.2 from congrArg Prod.snd h)⟩) hn.1
    · rcases List.mem_cons.1 hb with h' | hb
      · exact absurd (List.mem_map.2 ⟨(a, x), ha, (show x = e.2 from congrArg Prod.snd h')⟩) hn.1
      · exact ih hn.2 ha hb

theorem head_bank (order : List Bytes → List Bytes) (part : Db.Part) (pins : PackagePins) (hn : (part.iobanks.map (·.2)).Nodup) (tile : Bytes) (bank : Nat) :
    ((Registry.create order part pins).tileBanks tile).head? = some bank ↔ HeadBank part pins tile bank := by
  rw [C43_tile_banks_list]
  have hp : ((pins.filter fun p => p.tile == tile).map (·.bank)).head? = some bank ↔
      ∃ before p behind, pins = before ++ p :: behind ∧ p.tile = tile ∧ p.bank = bank ∧ ∀ q ∈ before, q.tile ≠ tile := by
    rw [List.head?_map, List.head?_filter, Option.map_eq_some_iff]
    constructor
    · rintro ⟨p, h, rfl⟩
      obtain ⟨h1, as, bs, h2, h3⟩ := List.find?_eq_some_iff_append.1 h
      exact ⟨as, p, bs, h2, eq_of_beq h1, rfl, fun q hq e => by simpa [e] using h3 q hq⟩
    · rintro ⟨as, p, bs, h1, h2, h3, h4⟩
      refine ⟨p, List.find?_eq_some_iff_append.2 ⟨by simpa using h2, as, bs, h1, fun q hq => by simpa using h4 q hq⟩, h3⟩
  unfold HeadBank
  cases hf : part.iobanks.filter (fun e => bytes!"HCLK_IOI3_" ++ e.2 == tile) with
  | nil =>
    have hno : ∀ e ∈ part.iobanks, tile ≠ bytes!"HCLK_IOI3_" ++ e.2 := by
      intro e he h
      have := List.filter_eq_nil_iff.1 hf e he
      exact this (by simp [h])
    rw [List.map_nil, List.nil_append, hp]
    constructor
    · exact fun h => Or.inr ⟨hno, h⟩
    · rintro (⟨loc, h1, h2⟩ | ⟨_, h⟩)
      · exact absurd h2 (hno _ h1)
      · exact h
  | cons e es =>
    have he : e ∈ part.iobanks.filter (fun e => bytes!"HCLK_IOI3_" ++ e.2 == tile) := by rw [hf]; simp
    obtain ⟨h1, h2⟩ := List.mem_filter.1 he
    have h2 := eq_of_beq h2
    rw [List.map_cons, List.cons_append, List.head?_cons, Option.some.injEq]
    constructor
    · rintro rfl
      exact Or.inl ⟨e.2, h1, h2.symm⟩
    · rintro (⟨loc, h3, h4⟩ | ⟨h3, _⟩)
      · have h5 : e.2 = loc := List.append_cancel_left (h2.trans h4)
        subst h5
        exact nodup_second hn (show (e.1, e.2) ∈ _ from h1) h3
      · exact absurd h2.symm (h3 e h1)

section
variable (tiles : Tiles) (pins : PackagePins) (hb : tiles.banks = Registry.create (fun l => l) tiles.part pins) (hset : SettledFiles tiles.grid tiles.part)
  (ls : List SourceLine) (hls : ∀ l ∈ ls, l.Ok ∧ l.Dotted)
include hb hset hls

/-- The statements of the text or for the PUDC_B pin with a non-zero value, by name. -/
theorem whole_use (name : Bytes) (hd : 0x2e ∈ name) : (∃ F, SourceBasic tiles ls F ∧ F.bits ≠ 0 ∧ F.name = name) ↔ InUse tiles.grid ls name := by
  have hw := (C128_written ls (fun l hl => (hls l hl).1) (fun l hl => (hls l hl).2)).2
  have h2 := (C69_written ls (fun l hl => (hls l hl).1)).2
  obtain ⟨tile, feature, rfl, hdot⟩ : ∃ tile feature, name = tile ++ 0x2e :: feature ∧ 0x2e ∉ tile := by
    obtain ⟨a, b, h1, h2⟩ := List.eq_append_cons_of_mem hd
    exact ⟨a, b, h1, h2⟩
  have hpudc : (∃ F, PudcFeature tiles.grid F ∧ F.bits ≠ 0 ∧ F.name = tile ++ 0x2e :: feature) ↔ PudcName tiles.grid (tile ++ 0x2e :: feature) := by
    constructor
    · rintro ⟨F, ⟨t, pin, site, g1, g2, _, g3⟩, _, g4⟩
      exact ⟨t, pin, site, (firstPudc_iff hset.onePudc t pin).1 g1, g2, g4 ▸ g3⟩
    · rintro ⟨t, pin, site, g1, g2, g3⟩
      exact ⟨⟨-1, tile ++ 0x2e :: feature, 0, 1, 1⟩, ⟨t, pin, site, (firstPudc_iff hset.onePudc t pin).2 g1, g2, ⟨rfl, rfl, rfl, rfl⟩, g3⟩, Nat.one_ne_zero, rfl⟩
  unfold InUse
  rw [← hpudc]
  constructor
  · rintro ⟨F, h1 | h1, h3, h4⟩
    · exact Or.inr ⟨F, h1, h3, h4⟩
    · have hF := (h2 F).2 h1
      obtain ⟨i, h5, h6⟩ := written_bit hF h3
      obtain ⟨_, l, hl, hs⟩ := (hw tile feature _).1 ⟨F, hF, h4, hdot, i, h5, h6, rfl⟩
      exact Or.inl ⟨l, hl, _, hs⟩
  · rintro (⟨l, hl, n, hs⟩ | ⟨F, h1, h3, h4⟩)
    · obtain ⟨F, h3, h4, _, i, h5, h6, _⟩ := (hw tile feature n).2 ⟨hdot, l, hl, hs⟩
      refine ⟨F, Or.inr ((h2 F).1 h3), fun h0 => ?_, h4⟩
      rw [h0, Nat.zero_testBit] at h6
      cases h6
    · exact ⟨F, Or.inl h1, h3, h4⟩

theorem whole_tag (tile site tag : Bytes) : (∃ F, SourceBasic tiles ls F ∧ HasTag F tile site tag) ↔ ∃ name, InUse tiles.grid ls name ∧ TagOf name tile site tag := by
  have dotted : ∀ name, TagOf name tile site tag → 0x2e ∈ name := by
    rintro name ⟨_, _, _, rfl | ⟨rest, rfl⟩⟩ <;> simp
  constructor
  · rintro ⟨F, h1, h2, h3⟩
    exact ⟨F.name, (whole_use tiles pins hb hset ls hls F.name (dotted _ h3)).1 ⟨F, h1, h2, rfl⟩, h3⟩
  · rintro ⟨name, h1, h2⟩
    obtain ⟨F, h3, h4, rfl⟩ := (whole_use tiles pins hb hset ls hls name (dotted _ h2)).2 h1
    exact ⟨F, h3, h4, h2⟩

theorem whole_step (bank : Nat) (tag : Bytes) : StepTag tiles.banks (SourceBasic tiles ls) bank tag ↔ StepUsed tiles.grid tiles.part pins ls bank tag := by
  have ht := whole_tag tiles pins hb hset ls hls
  have hh := head_bank (fun l => l) tiles.part pins hset.banks
  rw [← hb] at hh
  constructor
  · rintro ⟨F, tile, site, h1, h2, h3, h4⟩
    obtain ⟨name, h5, h6⟩ := (ht tile site tag).1 ⟨F, h1, h2⟩
    exact ⟨name, tile, site, h5, h6, h3, (hh tile bank).1 h4⟩
  · rintro ⟨name, tile, site, h5, h6, h3, h4⟩
    obtain ⟨F, h1, h2⟩ := (ht tile site tag).2 ⟨name, h5, h6⟩
    exact ⟨F, tile, site, h1, h2, h3, (hh tile bank).2 h4⟩

theorem whole_site (tile site : Bytes) : UsedSite (SourceBasic tiles ls) tile site ↔ SiteUsed tiles.grid ls tile site := by
  have ht := whole_tag tiles pins hb hset ls hls
  constructor
  · rintro ⟨F, t, s, tag, h1, h2, h3⟩
    obtain ⟨name, h5, h6⟩ := (ht t s tag).1 ⟨F, h1, h2⟩
    exact ⟨name, t, s, tag, h5, h6, h3⟩
  · rintro ⟨name, t, s, tag, h5, h6, h3⟩
    obtain ⟨F, h1, h2⟩ := (ht t s tag).2 ⟨name, h5, h6⟩
    exact ⟨F, t, s, tag, h1, h2, h3⟩

/-- The tiles of a bank. -/
theorem whole_bank (bank : Nat) (tag tile : Bytes) (h : StepUsed tiles.grid tiles.part pins ls bank tag) :
    (∃ ts, tiles.banks.tiles bank = some ts) ∧ ((∃ ts, tiles.banks.tiles bank = some ts ∧ tile ∈ ts) ↔ InBank tiles.part pins bank tile) := by
  constructor
  · cases hc : tiles.banks.tiles bank with
    | some ts => exact ⟨ts, rfl⟩
    | none =>
      rw [hb] at hc
      obtain ⟨_, t, _, _, _, _, hh⟩ := h
      have := (C43_unknown_bank _ _ _ bank).1 hc t
      rw [← C43_tile_banks (fun l => l)] at this
      exact absurd (List.mem_of_mem_head? ((head_bank (fun l => l) tiles.part pins hset.banks t bank).2 hh)) this
  · rw [hb, ← C43_two_way _ _ _ (fun _ => List.Perm.refl _), C43_tile_banks]

/-- The bits the design asks for. -/
theorem whole_wants (tile feature : Bytes) (addr : Nat) :
    (∃ F, SourceDesign tiles ls F ∧ Asks F tile feature addr) ↔ WantsBit tiles.grid tiles.part pins ls tile feature addr := by
  have hw := (C128_written ls (fun l hl => (hls l hl).1) (fun l hl => (hls l hl).2)).2
  have h2 := (C69_written ls (fun l hl => (hls l hl).1)).2
  have made : ∀ F, Made F → Asks F tile feature addr → addr = 0 := by
    rintro F ⟨_, m2, m3, m4⟩ ⟨_, _, i, h1, _, h3⟩
    rw [m3] at h1
    rw [m2] at h3
    have : i = 0 := by omega
    subst this
    rw [h3]
    decide
  have asks : ∀ name, name = tile ++ 0x2e :: feature → 0x2e ∉ tile → addr = 0 → Asks ⟨-1, name, 0, 1, 1⟩ tile feature addr := by
    rintro name rfl hd rfl
    exact ⟨rfl, hd, 0, (show (0 : Int) < 1 by decide), (show (1 : Nat).testBit 0 = true by decide), (show 0 = ((((0 : Nat) : Int) + 0) % 2 ^ 32).toNat by decide)⟩
  have hstep := whole_step tiles pins hb hset ls hls
  have hsite := whole_site tiles pins hb hset ls hls
  have hbank := whole_bank tiles pins hb hset ls hls
  constructor
  · rintro ⟨F, (h1 | h1) | ⟨hm, h1 | h1⟩, ha⟩
    · obtain ⟨t, pin, site, g1, g2, g3, g4⟩ := h1
      refine ⟨ha.2.1, Or.inr ⟨made F g3 ha, .pudc ⟨t, pin, site, (firstPudc_iff hset.onePudc t pin).1 g1, g2, ?_⟩⟩⟩
      rw [← ha.1]; exact g4
    · obtain ⟨h3, h4⟩ := (hw tile feature addr).1 ⟨F, (h2 F).2 h1, ha⟩
      exact ⟨h3, Or.inl h4⟩
    · obtain ⟨bank, tag, ts, t, ti, pin, site, a1, a2, a3, a4, a5, a6, a7, a8, a9⟩ := h1
      have b1 := (hstep bank tag).1 a1
      refine ⟨ha.2.1, Or.inr ⟨made F hm ha, ?_⟩⟩
      rw [← ha.1, a9]
      exact .site b1 ((hbank bank tag t b1).2.1 ⟨ts, a2, a3⟩) a4 a5 a6 a7 (fun h => a8 ((hsite _ _).2 h))
    · obtain ⟨bank, tag, ts, t, a1, a2, a3, a4, a5⟩ := h1
      have b1 := (hstep bank tag).1 a1
      refine ⟨ha.2.1, Or.inr ⟨made F hm ha, ?_⟩⟩
      rw [← ha.1, a5]
      exact .bank b1 ((hbank bank tag t b1).2.1 ⟨ts, a2, a3⟩) a4
  · rintro ⟨hd, h | ⟨h0, h⟩⟩
    · obtain ⟨F, h3, h4⟩ := (hw tile feature addr).2 ⟨hd, h⟩
      exact ⟨F, Or.inl (Or.inr ((h2 F).1 h3)), h4⟩
    · generalize hname : tile ++ 0x2e :: feature = name at h
      refine ⟨⟨-1, name, 0, 1, 1⟩, ?_, asks name hname.symm hd h0⟩
      cases h with
      | pudc h =>
        obtain ⟨t, pin, site, g1, g2, g3⟩ := h
        exact Or.inl (Or.inl ⟨t, pin, site, (firstPudc_iff hset.onePudc t pin).2 g1, g2, ⟨rfl, rfl, rfl, rfl⟩, g3⟩)
      | site a1 a2 a3 a4 a5 a6 a7 =>
        obtain ⟨ts, a8, a9⟩ := (hbank _ _ _ a1).2.2 a2
        exact Or.inr ⟨⟨rfl, rfl, rfl, rfl⟩, Or.inl ⟨_, _, ts, _, _, _, _, (hstep _ _).2 a1, a8, a9, a3, a4, a5, a6, fun h => a7 ((hsite _ _).1 h), rfl⟩⟩
      | bank a1 a2 a3 =>
        obtain ⟨ts, a8, a9⟩ := (hbank _ _ _ a1).2.2 a2
        exact Or.inr ⟨⟨rfl, rfl, rfl, rfl⟩, Or.inr ⟨_, _, ts, _, (hstep _ _).2 a1, a8, a9, a3, rfl⟩⟩

end

section
variable (tiles : Tiles) (files : Bytes → TypeContents) {tile feature : Bytes}
  (hfiles : ∀ t ty f, tiles.grid.lookup tile = some t → KnownAs t feature ty f →
    ∃ sb, tiles.bits ty = .ok (some sb) ∧ SaysSame sb (files ty).clb (files ty).ram (files ty).pips)
include hfiles

/-- What the database says about a bit of a feature is what the files list. -/
theorem whole_bits (addr : Nat) :
    ((∃ bits, FeatureBits tiles tile feature addr bits) ↔ ∃ t ty f, tiles.grid.lookup tile = some t ∧ KnownAs t feature ty f ∧
      ((files ty).Pip tile ty f ∨ ∃ bus block bits, (bus, block) ∈ t.bits ∧ (files ty).Gives bus (ty ++ 0x2e :: f, addr) bits)) ∧
    ∀ bits, FeatureBits tiles tile feature addr bits → ∀ c, c ∈ bits ↔ ∃ block s t ty f sbits, tiles.grid.lookup tile = some t ∧ KnownAs t feature ty f ∧
      ¬ (files ty).Pip tile ty f ∧ (c.bus, block) ∈ t.bits ∧ (files ty).Gives c.bus (ty ++ 0x2e :: f, addr) sbits ∧ s ∈ sbits ∧
      c = ⟨c.bus, bitFrame block s, bitPos block s / 32, bitPos block s % 32, s.isSet⟩ := by
  constructor
  · constructor
    · rintro ⟨bits, t, ty, f, sb, h1, h2, h3, h4⟩
      obtain ⟨sb', h5, h6⟩ := hfiles t ty f h1 h2
      rw [h3] at h5
      cases h5
      refine ⟨t, ty, f, h1, h2, ?_⟩
      rcases h4 with ⟨h4, _⟩ | ⟨_, ⟨e, he, h4⟩, _⟩
      · exact Or.inl ((files_pip h6 tile ty _).1 h4)
      · obtain ⟨bs, hb⟩ := Option.isSome_iff_exists.1 h4
        exact Or.inr ⟨e.1, e.2, bs, he, (files_given h6 _ _ _).1 hb⟩
    · rintro ⟨t, ty, f, h1, h2, h⟩
      obtain ⟨sb, h5, h6⟩ := hfiles t ty f h1 h2
      by_cases hp : (files ty).Pip tile ty f
      · exact ⟨[], t, ty, f, sb, h1, h2, h5, Or.inl ⟨(files_pip h6 _ _ _).2 hp, rfl⟩⟩
      · rcases h with h | ⟨bus, block, bs, hb, hg⟩
        · exact absurd h hp
        · exact ⟨_, t, ty, f, sb, h1, h2, h5, Or.inr ⟨fun h => hp ((files_pip h6 _ _ _).1 h),
            ⟨(bus, block), hb, by rw [(files_given h6 _ _ _).2 hg]; rfl⟩, rfl⟩⟩
  · rintro bits ⟨t, ty, f, sb, h1, h2, h3, h4⟩ c
    obtain ⟨sb', h5, h6⟩ := hfiles t ty f h1 h2
    rw [h3] at h5
    cases h5
    have hpip := files_pip h6 tile ty f
    have only : ∀ t2 ty2 f2, tiles.grid.lookup tile = some t2 → KnownAs t2 feature ty2 f2 → t2 = t ∧ ty2 = ty ∧ f2 = f := by
      intro t2 ty2 f2 g1 g2
      rw [h1] at g1
      cases g1
      obtain ⟨a1, a2⟩ := knownAs_fold h2
      obtain ⟨b1, b2⟩ := knownAs_fold g2
      exact ⟨rfl, b1.symm.trans a1, b2.symm.trans a2⟩
    rcases h4 with ⟨h4, rfl⟩ | ⟨h4, _, rfl⟩
    · constructor
      · intro h; cases h
      · rintro ⟨block, s, t2, ty2, f2, sbits, g1, g2, g3, _⟩
        obtain ⟨rfl, rfl, rfl⟩ := only _ _ _ g1 g2
        exact absurd (hpip.1 h4) g3
    · unfold tileBits
      rw [List.mem_flatMap]
      constructor
      · rintro ⟨e, he, hc⟩
        obtain ⟨s, hs, rfl⟩ := List.mem_map.1 hc
        cases hl : listed sb (ty ++ 0x2e :: f, addr) e.1 with
        | none => rw [hl] at hs; cases hs
        | some bs =>
          rw [hl] at hs
          exact ⟨e.2, s, t, ty, f, bs, h1, h2, fun h => h4 (hpip.2 h), he, (files_given h6 _ _ _).1 hl, hs, rfl⟩
      · rintro ⟨block, s, t2, ty2, f2, sbits, g1, g2, g3, g4, g5, g6, g7⟩
        obtain ⟨rfl, rfl, rfl⟩ := only _ _ _ g1 g2
        refine ⟨(c.bus, block), g4, ?_⟩
        rw [(files_given h6 _ _ _).2 g5, g7]
        exact List.mem_map.2 ⟨s, g6, rfl⟩

end

theorem lies_iff (block : BitsBlock) (s : SegmentBit) (k w b : Nat) :
    Lies block s k w b ↔ bitFrame block s = k ∧ bitPos block s / 32 = w ∧ bitPos block s % 32 = b := by
  unfold Lies bitFrame bitPos firstWord
  generalize block.alias?.elim 0 (fun a => (a.startOffset : Int)) = off
  have h1 := Int.emod_nonneg ((block.offset - off) * 32 + s.wordBit) (show (2 : Int) ^ 32 ≠ 0 by decide)
  constructor
  · rintro ⟨h2, h3, h4⟩
    refine ⟨h2.symm, ?_, ?_⟩ <;> omega
  · rintro ⟨h2, h3, h4⟩
    refine ⟨h2.symm, ?_, ?_⟩ <;> omega

section
variable (tiles : Tiles) (pins : PackagePins) (hb : tiles.banks = Registry.create (fun l => l) tiles.part pins) (hset : SettledFiles tiles.grid tiles.part)
  (files : Bytes → TypeContents) (ls : List SourceLine) (hls : ∀ l ∈ ls, l.Ok ∧ l.Dotted)
  (hfiles : ∀ tile feature addr t ty f, WantsBit tiles.grid tiles.part pins ls tile feature addr → tiles.grid.lookup tile = some t → KnownAs t feature ty f →
    ∃ sb, tiles.bits ty = .ok (some sb) ∧ SaysSame sb (files ty).clb (files ty).ram (files ty).pips)
include hb hset hls hfiles

theorem whole_lists (tile : Bytes) (c : BitCall) : Lists tiles (SourceDesign tiles ls) tile c ↔
    ∃ feature addr bits, WantsBit tiles.grid tiles.part pins ls tile feature addr ∧ FeatureBits tiles tile feature addr bits ∧ c ∈ bits := by
  have hw := whole_wants tiles pins hb hset ls hls
  constructor
  · rintro ⟨F, feature, addr, bits, h3, h4, h5⟩
    exact ⟨feature, addr, bits, (hw tile feature addr).1 ⟨F, h3, h4⟩, h5⟩
  · rintro ⟨feature, addr, bits, h3, h5⟩
    obtain ⟨F, h6, h7⟩ := (hw tile feature addr).2 h3
    exact ⟨F, feature, addr, bits, h6, h7, h5⟩

theorem whole_bit (k w b : Nat) : (∃ tile c, Lists tiles (SourceDesign tiles ls) tile c ∧ c.value = true ∧ c.frame = k ∧ c.word = w ∧ c.index = b) ↔
    ∃ tile feature addr block s, WantsBit tiles.grid tiles.part pins ls tile feature addr ∧ FileBits tiles.grid files tile feature addr block s ∧
      s.isSet = true ∧ Lies block s k w b := by
  constructor
  · rintro ⟨tile, c, h, h1, h2, h3, h4⟩
    obtain ⟨feature, addr, bits, h5, h6, h7⟩ := (whole_lists tiles pins hb hset files ls hls hfiles tile c).1 h
    obtain ⟨block, s, t, ty, f, sbits, g1, g2, g3, g4, g5, g6, g7⟩ :=
      ((whole_bits tiles files (fun t ty f => hfiles tile feature addr t ty f h5) addr).2 bits h6 c).1 h7
    refine ⟨tile, feature, addr, block, s, h5, ⟨t, ty, f, c.bus, sbits, g1, g2, g3, g4, g5, g6⟩, ?_, ?_⟩
    · rw [g7] at h1; exact h1
    · rw [lies_iff]
      rw [g7] at h2 h3 h4
      exact ⟨h2, h3, h4⟩
  · rintro ⟨tile, feature, addr, block, s, h5, ⟨t, ty, f, bus, sbits, g1, g2, g3, g4, g5, g6⟩, h1, h2⟩
    obtain ⟨hex, hall⟩ := whole_bits tiles files (fun t ty f => hfiles tile feature addr t ty f h5) addr
    obtain ⟨bits, hbi⟩ := hex.2 ⟨t, ty, f, g1, g2, Or.inr ⟨bus, block, sbits, g4, g5⟩⟩
    rw [lies_iff] at h2
    refine ⟨tile, ⟨bus, bitFrame block s, bitPos block s / 32, bitPos block s % 32, s.isSet⟩, ?_, h1, h2⟩
    exact (whole_lists tiles pins hb hset files ls hls hfiles tile _).2 ⟨feature, addr, bits, h5, hbi, (hall bits hbi _).2 ⟨block, s, t, ty, f, sbits, g1, g2, g3, g4, g5, g6, rfl⟩⟩

theorem whole_touches (k : Nat) (h : TouchesFrame tiles (SourceDesign tiles ls) k) : ∃ tile feature addr block s,
    WantsBit tiles.grid tiles.part pins ls tile feature addr ∧ FileBits tiles.grid files tile feature addr block s ∧ Fills block s k := by
  obtain ⟨tile, c, h1, h2⟩ := h
  obtain ⟨feature, addr, bits, h5, h6, h7⟩ := (whole_lists tiles pins hb hset files ls hls hfiles tile c).1 h1
  obtain ⟨block, s, t, ty, f, sbits, g1, g2, g3, g4, g5, g6, g7⟩ :=
    ((whole_bits tiles files (fun t ty f => hfiles tile feature addr t ty f h5) addr).2 bits h6 c).1 h7
  rcases h2 with h2 | ⟨t', block', i, h8, h9, h10, h11⟩
  · refine ⟨tile, feature, addr, block, s, h5, ⟨t, ty, f, c.bus, sbits, g1, g2, g3, g4, g5, g6⟩, Or.inl ?_⟩
    rw [g7] at h2
    exact h2.symm
  · rw [g1] at h8
    cases h8
    exact ⟨tile, feature, addr, block', s, h5, ⟨t, ty, f, c.bus, sbits, g1, g2, g3, h9, g5, g6⟩, Or.inr ⟨i, h10, h11⟩⟩

theorem whole_assembles : SourceAssembles tiles ls ↔ FilesSuffice tiles.grid tiles.part pins files ls := by
  have hw := whole_wants tiles pins hb hset ls hls
  have hw' := (C128_written ls (fun l hl => (hls l hl).1) (fun l hl => (hls l hl).2)).1
  have h2 := (C69_written ls (fun l hl => (hls l hl).1)).2
  have ht := whole_tag tiles pins hb hset ls hls
  have hh := head_bank (fun l => l) tiles.part pins hset.banks
  rw [← hb] at hh
  have hstep := whole_step tiles pins hb hset ls hls
  have hbank := whole_bank tiles pins hb hset ls hls
  have know : ∀ tile feature addr, WantsBit tiles.grid tiles.part pins ls tile feature addr →
      (BitKnown tiles.grid files tile feature addr ↔ ∃ bits, FeatureBits tiles tile feature addr bits ∧ ∀ c ∈ bits, c.value = true → c.word < 101) := by
    intro tile feature addr h5
    obtain ⟨hex, hall⟩ := whole_bits tiles files (fun t ty f => hfiles tile feature addr t ty f h5) addr
    constructor
    · rintro ⟨h1, h4⟩
      obtain ⟨bits, hbi⟩ := hex.2 h1
      refine ⟨bits, hbi, fun c hc hv => ?_⟩
      obtain ⟨block, s, t', ty, f, sbits, g1, g2, g3, g4, g5, g6, g7⟩ := (hall bits hbi c).1 hc
      rw [g7] at hv ⊢
      exact h4 block s _ _ _ ⟨t', ty, f, c.bus, sbits, g1, g2, g3, g4, g5, g6⟩ ((lies_iff block s _ _ _).2 ⟨rfl, rfl, rfl⟩) hv
    · rintro ⟨bits, hbi, hwd⟩
      refine ⟨hex.1 ⟨bits, hbi⟩, ?_⟩
      rintro block s k w b ⟨t', ty, f, bus, sbits, g1, g2, g3, g4, g5, g6⟩ hat hs
      obtain ⟨_, e, _⟩ := (lies_iff block s k w b).1 hat
      have := hwd ⟨bus, bitFrame block s, bitPos block s / 32, bitPos block s % 32, s.isSet⟩ ((hall bits hbi _).2 ⟨block, s, t', ty, f, sbits, g1, g2, g3, g4, g5, g6, rfl⟩) hs
      rw [← e]
      exact this
  constructor
  · rintro ⟨⟨a1, a2⟩, a3, a4⟩
    refine ⟨?_, ?_, ?_, ?_⟩
    · intro name tile site tag h3 h4 h5
      obtain ⟨F, h6, h7⟩ := (ht tile site tag).2 ⟨name, h3, h4⟩
      have := a1 F tile site tag h6 h7 h5
      cases hc : tiles.banks.tileBanks tile with
      | nil => exact absurd hc this
      | cons b bs => exact ⟨b, (hh tile b).1 (by rw [hc]; rfl)⟩
    · intro bank tag tile h3 h4 h5
      obtain ⟨ts, h6, h7⟩ := a2 bank tag ((hstep bank tag).2 h3)
      obtain ⟨ts', h8, h9⟩ := (hbank bank tag tile h3).2.2 h4
      rw [h6] at h8
      cases h8
      exact h7 tile h9 h5
    · intro tile feature addr h5
      obtain ⟨F, h6, h7⟩ := (hw tile feature addr).2 h5
      exact (know tile feature addr h5).2 ((a3 F h6).2.2 tile feature addr h7)
    · exact fun tile pin h => a4 tile pin ((firstPudc_iff hset.onePudc tile pin).2 h)
  · rintro ⟨a1, a2, a3, a4⟩
    refine ⟨⟨?_, ?_⟩, ?_, ?_⟩
    · intro F tile site tag h3 h4 h5
      obtain ⟨name, h6, h7⟩ := (ht tile site tag).1 ⟨F, h3, h4⟩
      obtain ⟨b, h8⟩ := a1 name tile site tag h6 h7 h5
      intro h9
      have := (hh tile b).2 h8
      rw [h9] at this
      cases this
    · intro bank tag h3
      have h3 := (hstep bank tag).1 h3
      obtain ⟨ts, h6⟩ := (hbank bank tag [] h3).1
      exact ⟨ts, h6, fun tile h7 h8 => a2 bank tag tile h3 ((hbank bank tag tile h3).2.1 ⟨ts, h6, h7⟩) h8⟩
    · intro F hF
      have hr : (∀ i : Nat, (i : Int) < F.width → i < 64 ∧ (i : Int) + F.start < 2 ^ 31) ∧ 0x2e ∈ F.name := by
        have made : ∀ (F : FasmFeature), Made F → ∀ i : Nat, (i : Int) < F.width → i < 64 ∧ (i : Int) + F.start < 2 ^ 31 := by
          rintro F ⟨_, m2, m3, _⟩ i hi
          rw [m3] at hi
          rw [m2]
          omega
        rcases hF with (⟨t, pin, site, _, _, g3, g4⟩ | h) | ⟨hm, h | h⟩
        · refine ⟨made F g3, ?_⟩
          simp only [pudcNames, List.mem_cons, List.not_mem_nil, or_false] at g4
          rcases g4 with h | h | h <;> rw [h] <;> simp
        · have hF' := (h2 F).2 h
          obtain ⟨c1, c2⟩ := hw'.2 F hF'
          obtain ⟨_, w2, _⟩ := written_chunk hF'
          exact ⟨fun i hi => ⟨by omega, c2 i hi⟩, c1⟩
        · obtain ⟨_, _, _, _, _, _, _, _, _, _, _, _, _, _, _, h⟩ := h
          exact ⟨made F hm, by rw [h]; simp⟩
        · obtain ⟨_, _, _, _, _, _, _, _, h⟩ := h
          exact ⟨made F hm, by rw [h]; simp⟩
      refine ⟨hr.1, hr.2, fun tile feature addr ha => ?_⟩
      have h5 := (hw tile feature addr).1 ⟨F, hF, ha⟩
      exact (know tile feature addr h5).1 (a3 tile feature addr h5)
    · exact fun tile pin h => a4 tile pin ((firstPudc_iff hset.onePudc tile pin).1 h)

end

/-- Loading in file order: the database says exactly what the files say. -/
theorem whole_load {env : Env} {inv : Invocation} {path : Bytes} (hcfg : Configured env inv path)
    {grid : TileGrid} {part : Db.Part} {pins : PackagePins} {files : Bytes → TypeContents} {ls : List SourceLine}
    (hdb : WholeFiles env path inv.part grid part pins files ls) (htext : Input inv (sourceText ls)) :
    ∃ bits, Starts env sameLoad inv ⟨⟨grid, bits, Registry.create (fun l => l) part pins, part⟩, []⟩ (sourceText ls) ∧
      ∀ tile feature addr t ty f, WantsBit grid part pins ls tile feature addr → grid.lookup tile = some t → KnownAs t feature ty f →
        ∃ sb, bits ty = .ok (some sb) ∧ SaysSame sb (files ty).clb (files ty).ram (files ty).pips := by
  obtain ⟨⟨⟨info, ht, hg⟩, hp, hpins⟩, ⟨entries, hl⟩, htypes, hset⟩ := hdb
  obtain ⟨paths, hpaths⟩ : ∃ paths, indexTileTypes env [path] = .ok paths := by
    rcases C44_error env [path] with ⟨h, _⟩ | h
    · rw [hl] at h; cases h
    · exact h
  have h : parseDatabase env sameLoad [path] inv.part = .ok ⟨⟨grid, tilesDatabase env paths, Registry.create (fun l => l) part pins, part⟩, []⟩ :=
    parseDatabase_iff.2 ⟨info, grid, paths, part, pins, (table_lookup ht).1 _ rfl,
      json_loads hg fun j hj => C42_complete j grid hj, hpaths, json_loads hp fun j hj => (C41_iff j part).2 hj, pins_load hpins, rfl⟩
  obtain ⟨c1, c2, c3, c4, c5⟩ := hcfg
  exact ⟨_, ⟨c1, c5, htext, path, c2, c3, c4, h⟩,
    fun tile feature addr t ty f hw hgt hk => C70_tile_type env sameLoad [path] inv.part _ h ty _ _ _ (htypes tile feature addr t ty f hw hgt hk)⟩

section
variable (env : Env) (load : LoadOrder) (hload : LoadOk load) (ord : HashOrder) (hord : Permutes ord) (inv : Invocation) (path : Bytes)
  (hcfg : Configured env inv path) (grid : TileGrid) (part : Db.Part) (pins : PackagePins) (files : Bytes → TypeContents) (ls : List SourceLine)
  (hdb : WholeFiles env path inv.part grid part pins files ls) (hls : ∀ l ∈ ls, l.Ok ∧ l.Dotted) (htext : Input inv (sourceText ls))
include hload hord hcfg hdb hls htext

/-- With any hash orders the program does what it does in file order. -/
theorem whole_order (out o : OStream) (fuel : Nat) :
    main env load ord inv out fuel = some (.ok (0, o)) ↔ main env sameLoad sameOrder inv out fuel = some (.ok (0, o)) := by
  obtain ⟨bits, hs, _⟩ := whole_load hcfg hdb htext
  have hs0 : Settled (⟨grid, bits, Registry.create (fun l => l) part pins, part⟩ : Tiles) := ⟨hdb.settled.aliases, hdb.settled.onePudc, hdb.settled.banks, hdb.settled.buses⟩
  refine (C66_reproducible env sameLoad load sameLoad_ok hload sameOrder ord sameOrder_permutes hord inv (fun db text h => ?_) out o fuel).symm
  obtain ⟨rfl, _⟩ := starts_unique hs h
  exact hs0

/-- From the files to the device: the bits the device holds after the program wrote the bitstream and it was loaded are those the files of the database list for the design and for what is added to it. -/
theorem C130_device (hknow : FilesSuffice grid part pins files ls) (hd : DescFits part) (p : Xc7.Part) (hp : Part.fromPart part = .ok p)
    (hsmall : FitsPacket p) (hdate : ShortAscii inv.date) (htime : ShortAscii inv.time)
    (hin : ∀ tile feature addr block s k, WantsBit grid part pins ls tile feature addr → FileBits grid files tile feature addr block s → Fills block s k →
      ∃ a, Reached p a ∧ a.toNat = k % 2 ^ 32) (seek : Bool) :
    ∃ walk : BMap (FrameWords 101), WalkFrom p 0#32 walk ∧
      (∀ k, k ∈ walk.map (·.1) ↔ ∃ a, Reached p a ∧ a.toNat = k) ∧
      ∃ fuel0, ∀ fuel ≥ fuel0, ∃ o file words data,
        main env load ord inv ⟨[], 0, seek, false⟩ fuel = some (.ok (0, o)) ∧
        readBitFile o.bytes = some file ∧
        file.config = fileBytes (List.replicate 8 0xFFFFFFFF#32 ++ [0x000000BB#32, 0x11220044#32] ++
          List.replicate 2 0xFFFFFFFF#32 ++ [0xAA995566#32] ++ words) ∧
        (Device.run p.idcode words).loaded = [(0, data)] ∧ (Device.run p.idcode words).started = true ∧
        (∀ id, id ≠ p.idcode → (Device.run id words).loaded = [] ∧ (Device.run id words).started = false) ∧
        data.length = (walk.length + 2 * rowEnds p walk + 2) * 101 ∧
        ∀ (i k : Nat), (walk.map (·.1))[i]? = some k → ∀ w b, w < 101 →
          ((∃ x, data[slot 101 p walk i + w]? = some x ∧ x.getLsbD b = true) ↔
            ∃ tile feature addr block s, WantsBit grid part pins ls tile feature addr ∧ FileBits grid files tile feature addr block s ∧
              s.isSet = true ∧ Lies block s k w b) := by
  obtain ⟨bits, hs, hf⟩ := whole_load hcfg hdb htext
  have hswap := whole_order env load hload ord hord inv path hcfg grid part pins files ls hdb hls htext
  have hok : ∀ l ∈ ls, l.Ok := fun l hl => (hls l hl).1
  obtain ⟨walk, h1, h2, fuel0, h3⟩ := C69_gaps env sameLoad sameLoad_ok sameOrder sameOrder_permutes inv _ ls hok hs
    ((whole_assembles ⟨grid, bits, Registry.create (fun l => l) part pins, part⟩ pins rfl hdb.settled files ls hls hf).2 hknow) hd p hp hsmall hdate htime
    (fun k ht => by
      obtain ⟨tile, feature, addr, block, s, a1, a2, a3⟩ := whole_touches ⟨grid, bits, Registry.create (fun l => l) part pins, part⟩ pins rfl hdb.settled files ls hls hf k ht
      exact hin tile feature addr block s k a1 a2 a3) seek
  refine ⟨walk, h1, h2, fuel0, fun fuel hfu => ?_⟩
  obtain ⟨o, file, words, data, a1, a2, a3, a4, a5, a6, a7, a8⟩ := h3 fuel hfu
  refine ⟨o, file, words, data, (hswap _ _ _).2 a1, a2, a3, a4, a5, a6, a7, fun i k hik w b hw => ?_⟩
  exact (a8 i k hik w b hw).trans (whole_bit ⟨grid, bits, Registry.create (fun l => l) part pins, part⟩ pins rfl hdb.settled files ls hls hf k w b)

/-- A run that succeeds has found everything it needs in the files. -/
theorem C130_needs (out o : OStream) (fuel : Nat) (h : main env load ord inv out fuel = some (.ok (0, o))) : FilesSuffice grid part pins files ls := by
  obtain ⟨bits, hs, hf⟩ := whole_load hcfg hdb htext
  have hok : ∀ l ∈ ls, l.Ok := fun l hl => (hls l hl).1
  rw [whole_order env load hload ord hord inv path hcfg grid part pins files ls hdb hls htext] at h
  rcases C58_stages_partial env sameLoad sameOrder inv out o fuel 0 h with ⟨h, _⟩ | ⟨_, db', text, db2, frames, hs', ha, _⟩
  · cases h
  · obtain ⟨rfl, rfl⟩ := starts_unique hs hs'
    refine (whole_assembles ⟨grid, bits, Registry.create (fun l => l) part pins, part⟩ pins rfl hdb.settled files ls hls hf).1 ((sourceAssembles_iff _ ls hok).1 ?_)
    obtain ⟨_, _, h1, path', h2, _, _, h3⟩ := hs
    exact (C50_succeeds (C45_loaded _ _ sameLoad_ok _ _ _ h3).1 sameOrder sameOrder_permutes _ _ Reachable.fresh).1 ⟨_, ha⟩

end

end Verif.Props
