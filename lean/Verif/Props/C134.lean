import Verif.Spec.WrittenOut
import Verif.Props.WholeExample
/-! # C134: writing out what the assembler adds -/
namespace Verif.Props
open Verif.Db Verif.Asm Verif.Spec Verif.Text Verif.Xc7

theorem head_in {part : Db.Part} {pins : PackagePins} {tile : Bytes} {bank : Nat} (h : HeadBank part pins tile bank) : InBank part pins bank tile := by
  rcases h with ⟨loc, h1, h2⟩ | ⟨_, before, p, behind, h1, h2, h3, _⟩
  · exact Or.inr ⟨loc, h1, h2⟩
  · exact Or.inl ⟨p, by rw [h1]; simp, h3, h2⟩

theorem first_pin (pins : PackagePins) (tile : Bytes) (h : ∃ p ∈ pins, p.tile = tile) :
    ∃ before p behind, pins = before ++ p :: behind ∧ p.tile = tile ∧ ∀ q ∈ before, q.tile ≠ tile := by
  induction pins with
  | nil => obtain ⟨p, h, _⟩ := h; cases h
  | cons q pins ih =>
    by_cases hq : q.tile = tile
    · exact ⟨[], q, pins, rfl, hq, fun r hr => by cases hr⟩
    · obtain ⟨p, hp, ht⟩ := h
      rcases List.mem_cons.1 hp with rfl | hp
      · exact absurd ht hq
      · obtain ⟨before, p', behind, h1, h2, h3⟩ := ih ⟨p, hp, ht⟩
        refine ⟨q :: before, p', behind, by rw [h1]; rfl, h2, fun r hr => ?_⟩
        rcases List.mem_cons.1 hr with rfl | hr
        · exact hq
        · exact h3 r hr

theorem some_head {part : Db.Part} {pins : PackagePins} {tile : Bytes} {bank : Nat} (h : InBank part pins bank tile) : ∃ b, HeadBank part pins tile b := by
  by_cases hl : ∃ e ∈ part.iobanks, tile = bytes!"HCLK_IOI3_" ++ e.2
  · obtain ⟨⟨b, loc⟩, h1, h2⟩ := hl
    exact ⟨b, Or.inl ⟨loc, h1, h2⟩⟩
  · rcases h with ⟨p, h1, h2, h3⟩ | ⟨loc, h1, h2⟩
    · obtain ⟨before, p', behind, g1, g2, g3⟩ := first_pin pins tile ⟨p, h1, h3⟩
      exact ⟨p'.bank, Or.inr ⟨fun e he h => hl ⟨e, he, h⟩, before, p', behind, g1, g2, rfl, g3⟩⟩
    · exact absurd ⟨_, h1, h2⟩ hl

/-! ## What is in use -/

section
variable {grid : TileGrid} {part : Db.Part} {pins : PackagePins} {ls full : List SourceLine} (hout : WritesOut grid part pins ls full)
include hout

theorem out_use {name tile site tag : Bytes} (h : InUse grid ls name) (ht : TagOf name tile site tag) : InUse grid full name := by
  rcases h with ⟨l, hl, n, hs⟩ | h
  · obtain ⟨h0, _, _, e⟩ := id ht
    have cut : ∃ rest, name = tile ++ 0x2e :: rest := by
      rcases e with e | ⟨r, e⟩
      · exact ⟨_, e⟩
      · exact ⟨_, e⟩
    obtain ⟨rest, rfl⟩ := cut
    obtain ⟨l', hl', hs'⟩ := (hout tile rest n h0).2 ⟨h0, Or.inl ⟨l, hl, hs⟩⟩
    exact Or.inl ⟨l', hl', n, hs'⟩
  · exact Or.inr h

theorem out_used {name tile site tag : Bytes} (h : InUse grid full name) (ht : TagOf name tile site tag) : InUse grid ls name ∨ Added grid part pins ls name := by
  rcases h with ⟨l, hl, n, hs⟩ | h
  · obtain ⟨h0, _, _, e⟩ := id ht
    have cut : ∃ rest, name = tile ++ 0x2e :: rest := by
      rcases e with e | ⟨r, e⟩
      · exact ⟨_, e⟩
      · exact ⟨_, e⟩
    obtain ⟨rest, rfl⟩ := cut
    obtain ⟨_, h | ⟨_, h⟩⟩ := (hout tile rest n h0).1 ⟨l, hl, hs⟩
    · obtain ⟨l', hl', hs'⟩ := h
      exact Or.inl (Or.inl ⟨l', hl', n, hs'⟩)
    · exact Or.inr h
  · exact Or.inl (Or.inr h)

theorem out_site {tile site : Bytes} (h : SiteUsed grid ls tile site) : SiteUsed grid full tile site := by
  obtain ⟨name, t, s, tag, h1, h2, h3⟩ := h
  exact ⟨name, t, s, tag, out_use hout h1 h2, h2, h3⟩

variable (hapart : BanksApart part pins)
include hapart

/-- A tag in the full file: of a feature the design uses, or the same tag in the bank of the tile it was added to. -/
theorem out_tag {name tile site tag : Bytes} (h : InUse grid full name) (ht : TagOf name tile site tag) :
    InUse grid ls name ∨ ∃ bank, StepUsed grid part pins ls bank tag ∧ InBank part pins bank tile := by
  rcases out_used hout h ht with h | h
  · exact Or.inl h
  · cases h with
    | pudc h => exact Or.inl (Or.inr h)
    | @site bank tag0 tile0 t pin site0 h1 h2 h3 h4 h5 h6 h7 =>
      obtain ⟨pre, c, _, _, rfl⟩ := id h6
      obtain ⟨_, _, _, _, ⟨_, _, g3, _⟩, _⟩ := id h1
      have hS0 : (0x2e : UInt8) ∉ bytes!"IOB_Y" ++ (if c.toNat % 2 = 0 then bytes!"0" else bytes!"1") := by split <;> decide
      rw [List.append_assoc, List.cons_append] at ht
      obtain ⟨rfl, _, rfl⟩ := tag_short (hapart.dots _ _ h2) hS0 g3 ht
      exact Or.inr ⟨bank, h1, h2⟩
    | @bank bank tag0 tile0 h1 h2 h3 =>
      obtain ⟨t1, t2, t3, e⟩ := ht
      have hd := hapart.dots _ _ h2
      have hn : (0x2e : UInt8) ∉ bytes!"STEPDOWN" := by decide
      rcases e with e | ⟨rest, e⟩
      · exact absurd (by rw [(first_dot hd t1 e).2]; simp) hn
      · exact absurd (by rw [(first_dot hd t1 e).2]; simp) hn

/-- The full file has no other STEPDOWN tags. -/
theorem out_step (bank : Nat) (tag : Bytes) : StepUsed grid part pins full bank tag ↔ StepUsed grid part pins ls bank tag := by
  constructor
  · rintro ⟨name, tile, site, h1, h2, h3, h4⟩
    rcases out_tag hout hapart h1 h2 with h | ⟨b, h5, h6⟩
    · exact ⟨name, tile, site, h, h2, h3, h4⟩
    · rw [hapart.one bank b tile (head_in h4) h6]
      exact h5
  · rintro ⟨name, tile, site, h1, h2, h3, h4⟩
    exact ⟨name, tile, site, out_use hout h1 h2, h2, h3, h4⟩

/-- Nothing is added to it that was not added to the design. -/
theorem out_added {name : Bytes} (h : Added grid part pins full name) : Added grid part pins ls name := by
  cases h with
  | pudc h => exact .pudc h
  | site h1 h2 h3 h4 h5 h6 h7 => exact .site ((out_step hout hapart _ _).1 h1) h2 h3 h4 h5 h6 fun h => h7 (out_site hout h)
  | bank h1 h2 h3 => exact .bank ((out_step hout hapart _ _).1 h1) h2 h3

/-- The same bits are to be 1. -/
theorem C134_wants (tile feature : Bytes) (addr : Nat) : WantsBit grid part pins full tile feature addr ↔ WantsBit grid part pins ls tile feature addr := by
  constructor
  · rintro ⟨h0, h | ⟨h1, h⟩⟩
    · exact (hout tile feature addr h0).1 h
    · exact ⟨h0, Or.inr ⟨h1, out_added hout hapart h⟩⟩
  · intro h
    exact ⟨h.1, Or.inl ((hout tile feature addr h.1).2 h)⟩

/-- And the files have all that is needed for the one if they have it for the other. -/
theorem C134_suffice (files : Bytes → TypeContents) : FilesSuffice grid part pins files full ↔ FilesSuffice grid part pins files ls := by
  constructor
  · rintro ⟨a1, a2, a3, a4⟩
    exact ⟨fun name tile site tag h1 h2 h3 => a1 name tile site tag (out_use hout h1 h2) h2 h3,
      fun bank tag tile h1 => a2 bank tag tile ((out_step hout hapart _ _).2 h1),
      fun tile feature addr h => a3 tile feature addr ((C134_wants hout hapart _ _ _).2 h), a4⟩
  · rintro ⟨a1, a2, a3, a4⟩
    refine ⟨fun name tile site tag h1 h2 h3 => ?_, fun bank tag tile h1 => a2 bank tag tile ((out_step hout hapart _ _).1 h1),
      fun tile feature addr h => a3 tile feature addr ((C134_wants hout hapart _ _ _).1 h), a4⟩
    rcases out_tag hout hapart h1 h2 with h | ⟨b, _, h⟩
    · exact a1 name tile site tag h h2 h3
    · exact some_head h

end

/-! ## The program -/

/-- Two designs that come to the same bits, additions included: if the files suffice for the second, it gives what the first gives. -/
theorem C134_same (env : Env) (load : LoadOrder) (hload : LoadOk load) (ord ord' : HashOrder) (hord : Permutes ord) (hord' : Permutes ord') (inv inv' : Invocation)
    (path : Bytes) (hcfg : Configured env inv path) (hcfg' : Configured env inv' path) (hpart : inv'.part = inv.part) (hdate : inv'.date = inv.date) (htime : inv'.time = inv.time)
    (grid : TileGrid) (part : Db.Part) (pins : PackagePins) (files : Bytes → TypeContents) (ls ls' : List SourceLine)
    (hdb : WholeFiles env path inv.part grid part pins files ls) (hls : ∀ l ∈ ls, l.Ok ∧ l.Dotted) (hls' : ∀ l ∈ ls', l.Ok ∧ l.Dotted)
    (htext : Input inv (sourceText ls)) (htext' : Input inv' (sourceText ls'))
    (hsame : ∀ tile feature addr, WantsBit grid part pins ls' tile feature addr ↔ WantsBit grid part pins ls tile feature addr)
    (hsuff : FilesSuffice grid part pins files ls') (out o : OStream) (fuel : Nat)
    (h : main env load ord inv out fuel = some (.ok (0, o))) : main env load ord' inv' out fuel = some (.ok (0, o)) := by
  have hdb' : WholeFiles env path inv'.part grid part pins files ls' :=
    ⟨by rw [hpart]; exact hdb.dir, hdb.listed, fun tile feature addr t ty f hw => hdb.types tile feature addr t ty f ((hsame _ _ _).1 hw), hdb.settled⟩
  rw [whole_order env load hload ord hord inv path hcfg grid part pins files ls hdb hls htext] at h
  rw [whole_order env load hload ord' hord' inv' path hcfg' grid part pins files ls' hdb' hls' htext']
  obtain ⟨bits, hs, hf⟩ := whole_load hcfg hdb htext
  have hf' : ∀ tile feature addr t ty f, WantsBit grid part pins ls' tile feature addr → grid.lookup tile = some t → KnownAs t feature ty f →
      ∃ sb, bits ty = .ok (some sb) ∧ SaysSame sb (files ty).clb (files ty).ram (files ty).pips :=
    fun tile feature addr t ty f hw => hf tile feature addr t ty f ((hsame _ _ _).1 hw)
  obtain ⟨hparse, hs'⟩ : parseDatabase env sameLoad [path] inv.part = .ok ⟨⟨grid, bits, Registry.create (fun l => l) part pins, part⟩, []⟩ ∧
      Starts env sameLoad inv' ⟨⟨grid, bits, Registry.create (fun l => l) part pins, part⟩, []⟩ (sourceText ls') := by
    obtain ⟨_, _, _, path', g4, _, _, g7⟩ := id hs
    have e := (C61_setting _ _ _).2 hcfg.2.1
    rw [(C61_setting _ _ _).2 g4] at e
    cases e
    obtain ⟨c1, c2, c3, c4, c5⟩ := hcfg'
    exact ⟨g7, c1, c5, htext', path, c2, c3, c4, by rw [hpart]; exact g7⟩
  obtain ⟨hok, hr⟩ := C45_loaded env sameLoad sameLoad_ok _ _ _ hparse
  rcases C58_stages_partial env sameLoad sameOrder inv out o fuel 0 h with ⟨h, _⟩ | ⟨_, d, t, d1, fr, hs1, ha, he⟩
  · cases h
  obtain ⟨rfl, rfl⟩ := starts_unique hs hs1
  have okay : ∀ l ∈ ls, l.Ok := fun l hl => (hls l hl).1
  have okay' : ∀ l ∈ ls', l.Ok := fun l hl => (hls' l hl).1
  have hasm' : Assembles (⟨grid, bits, Registry.create (fun l => l) part pins, part⟩ : Tiles) (sourceText ls') :=
    (sourceAssembles_iff _ ls' okay').2 ((whole_assembles ⟨grid, bits, Registry.create (fun l => l) part pins, part⟩ pins rfl hdb.settled files ls' hls' hf').2 hsuff)
  obtain ⟨d2, fr2, ha2, hr2, h2⟩ := assemble_ok hok sameOrder sameOrder_permutes (sourceText ls') _ hr hasm'
  have h1 := C50_frames hok sameOrder sameOrder_permutes (sourceText ls) _ hr d1 fr ha
  have lists : ∀ tile c, Lists (⟨grid, bits, Registry.create (fun l => l) part pins, part⟩ : Tiles) (Design ⟨grid, bits, Registry.create (fun l => l) part pins, part⟩ (sourceText ls)) tile c ↔
      Lists (⟨grid, bits, Registry.create (fun l => l) part pins, part⟩ : Tiles) (Design ⟨grid, bits, Registry.create (fun l => l) part pins, part⟩ (sourceText ls')) tile c := by
    intro tile c
    rw [sourceDesign_iff _ ls okay, sourceDesign_iff _ ls' okay', whole_lists ⟨grid, bits, Registry.create (fun l => l) part pins, part⟩ pins rfl hdb.settled files ls hls hf,
      whole_lists ⟨grid, bits, Registry.create (fun l => l) part pins, part⟩ pins rfl hdb.settled files ls' hls' hf']
    simp only [hsame]
  have h4 : FramesOf (⟨grid, bits, Registry.create (fun l => l) part pins, part⟩ : Tiles) (Design ⟨grid, bits, Registry.create (fun l => l) part pins, part⟩ (sourceText ls')) fr := by
    obtain ⟨a1, a2, a3⟩ := h1
    refine ⟨a1, fun k w b => ?_, fun k => ?_⟩
    · rw [a2]
      simp only [lists]
    · rw [a3]
      simp only [lists]
  obtain rfl := framesOf_unique h4 h2
  have hp : d1.tiles = d2.tiles := by
    have := (C50_succeeds hok sameOrder sameOrder_permutes (sourceText ls) _ hr).1 ⟨_, ha⟩
    obtain ⟨db'', frames', ha', hreach, _⟩ := assemble_ok hok sameOrder sameOrder_permutes (sourceText ls) _ hr this
    rw [ha] at ha'
    cases ha'
    rw [(reachable_cache hreach).1, (reachable_cache hr2).1]
  refine main_started env sameLoad sameOrder inv' out fuel _ _ hs' d2 fr ha2 o ?_
  rw [← hp, hdate, htime]
  exact he

/-- A design and the same design with everything the assembler adds written out as lines: the one is turned into a bitstream exactly when the other is, and into the same one. -/
theorem C134_program (env : Env) (load : LoadOrder) (hload : LoadOk load) (ord ord' : HashOrder) (hord : Permutes ord) (hord' : Permutes ord') (inv inv' : Invocation)
    (path : Bytes) (hcfg : Configured env inv path) (hcfg' : Configured env inv' path) (hpart : inv'.part = inv.part) (hdate : inv'.date = inv.date) (htime : inv'.time = inv.time)
    (grid : TileGrid) (part : Db.Part) (pins : PackagePins) (files : Bytes → TypeContents) (ls full : List SourceLine)
    (hdb : WholeFiles env path inv.part grid part pins files ls) (hls : ∀ l ∈ ls, l.Ok ∧ l.Dotted) (hfull : ∀ l ∈ full, l.Ok ∧ l.Dotted)
    (htext : Input inv (sourceText ls)) (htext' : Input inv' (sourceText full))
    (hapart : BanksApart part pins) (hout : WritesOut grid part pins ls full) (out o : OStream) (fuel : Nat) :
    main env load ord inv out fuel = some (.ok (0, o)) ↔ main env load ord' inv' out fuel = some (.ok (0, o)) := by
  have hdb' : WholeFiles env path inv'.part grid part pins files full :=
    ⟨by rw [hpart]; exact hdb.dir, hdb.listed, fun tile feature addr t ty f hw => hdb.types tile feature addr t ty f ((C134_wants hout hapart _ _ _).1 hw), hdb.settled⟩
  constructor
  · intro h
    have hs := C130_needs env load hload ord hord inv path hcfg grid part pins files ls hdb hls htext out o fuel h
    exact C134_same env load hload ord ord' hord hord' inv inv' path hcfg hcfg' hpart hdate htime grid part pins files ls full hdb hls hfull htext htext'
      (C134_wants hout hapart) ((C134_suffice hout hapart files).2 hs) out o fuel h
  · intro h
    have hs := C130_needs env load hload ord' hord' inv' path hcfg' grid part pins files full hdb' hfull htext' out o fuel h
    exact C134_same env load hload ord' ord hord' hord inv' inv path hcfg' hcfg hpart.symm hdate.symm htime.symm grid part pins files full ls hdb' hfull hls htext' htext
      (fun t f a => (C134_wants hout hapart t f a).symm) ((C134_suffice hout hapart files).1 hs) out o fuel h

/-! ## The design of the yard, written out -/

/-- `IOB33.IOB_Y0.STEPDOWN`, `IOB33.IOB_Y1.STEPDOWN`, and the three features for the PUDC_B pin. -/
def yardFull : List SourceLine := yardAsked.map fun e => .statement (fun _ => []) ⟨e.1 ++ 0x2e :: e.2.1, .absent, .absent⟩ [] []

def yardFullInv : Invocation := { yardInv with stdin := sourceText yardFull }

theorem yard_full_sets (name : Bytes) (n : Nat) : (∃ l ∈ yardFull, l.Sets name n) ↔ n = 0 ∧ ∃ e ∈ yardAsked, name = e.1 ++ 0x2e :: e.2.1 := by
  constructor
  · rintro ⟨l, hl, hs⟩
    obtain ⟨e, he, rfl⟩ := List.mem_map.1 hl
    obtain ⟨h1, _, h2, _⟩ := hs
    exact ⟨Nat.le_zero.1 h2, e, he, h1.symm⟩
  · rintro ⟨rfl, e, he, rfl⟩
    exact ⟨_, List.mem_map.2 ⟨e, he, rfl⟩, rfl, Nat.le_refl _, Nat.le_refl _, (by decide : Nat.testBit 1 0 = true)⟩

theorem yard_full : WritesOut yardGrid smallDesc yardPins [yardStep] yardFull := by
  intro tile feature addr h0
  have dots : ∀ e ∈ yardAsked, 0x2e ∉ e.1 := by decide +kernel
  rw [yard_full_sets, yard_wants]
  constructor
  · rintro ⟨rfl, e, he, h⟩
    obtain ⟨h1, h2⟩ := first_dot h0 (dots e he) h
    exact ⟨rfl, e, he, h1, h2⟩
  · rintro ⟨rfl, e, he, h1, h2⟩
    exact ⟨rfl, e, he, by rw [h1, h2]⟩

theorem yard_apart : BanksApart smallDesc yardPins where
  one b b' tile h h' := ((yard_bank b tile).1 h).1.trans ((yard_bank b' tile).1 h').1.symm
  dots b tile h := by rw [((yard_bank b tile).1 h).2]; decide

theorem yard_full_ok : ∀ l ∈ yardFull, l.Ok ∧ l.Dotted := by
  have names : ∀ e ∈ yardAsked, e.1 ++ 0x2e :: e.2.1 ≠ [] ∧ (∀ c ∈ e.1 ++ 0x2e :: e.2.1, NameChar c) ∧ (0x2e : UInt8) ∈ e.1 ++ 0x2e :: e.2.1 := by
    unfold NameChar; decide +kernel
  intro l hl
  obtain ⟨e, he, rfl⟩ := List.mem_map.1 hl
  obtain ⟨h1, h2, h3⟩ := names e he
  exact ⟨⟨fun _ c hc => (by cases hc), ⟨h1, h2, trivial, trivial⟩, Or.inl ⟨(by decide : 1 ≤ 64), (by decide : 0 ≤ 64)⟩, ⟨by simp, Or.inl rfl⟩, by simp⟩, h3⟩

/-- One line, and the five lines it comes to: the texts differ, the bitstream is the same. -/
example (load : LoadOrder) (hload : LoadOk load) (ord ord' : HashOrder) (hord : Permutes ord) (hord' : Permutes ord') :
    sourceText [yardStep] = bytes!"IOB33.IOB_Y0.STEPDOWN\n" ∧
    (∃ fuel0, ∀ fuel ≥ fuel0, ∃ o, main yardEnv load ord yardInv ⟨[], 0, true, false⟩ fuel = some (.ok (0, o)) ∧
      main yardEnv load ord' yardFullInv ⟨[], 0, true, false⟩ fuel = some (.ok (0, o))) := by
  refine ⟨by decide +kernel, ?_⟩
  have hcfg : Configured yardEnv yardInv bytes!"d" := ⟨by decide, Or.inr ⟨rfl, rfl⟩, by decide, by decide, by decide⟩
  have hcfg' : Configured yardEnv yardFullInv bytes!"d" := ⟨by decide, Or.inr ⟨rfl, rfl⟩, by decide, by decide, by decide⟩
  have htext : Input yardInv (sourceText [yardStep]) := Or.inr ⟨fun _ _ h => by simp [yardInv, fileInv] at h, rfl⟩
  have htext' : Input yardFullInv (sourceText yardFull) := Or.inr ⟨fun _ _ h => by simp [yardFullInv, yardInv, fileInv] at h, rfl⟩
  have hfits := fits_fromPart _ smallDesc_dense.fits _ rfl
  have hdense := dense_fromPart _ smallDesc_dense _ rfl
  obtain ⟨walk, _, _, fuel0, h2⟩ := C130_device yardEnv load hload ord hord yardInv bytes!"d" hcfg yardGrid smallDesc yardPins (fun _ => yardContents) [yardStep] yard_files
    yard_ok htext yard_suffice smallDesc_dense.fits _ rfl smallDesc_packet (by unfold ShortAscii; decide) (by unfold ShortAscii; decide)
    (by
      intro tile feature addr block s k hw hl hf
      have hk := yard_inside hw hl hf
      refine (reached_iff hfits hdense _).2 (Or.inr ⟨by omega, ?_⟩)
      rw [Nat.mod_eq_of_lt (by omega)]
      exact file_valid k hk) true
  refine ⟨fuel0, fun fuel hf => ?_⟩
  obtain ⟨o, _, _, _, h, _⟩ := h2 fuel hf
  exact ⟨o, h, (C134_program yardEnv load hload ord ord' hord hord' yardInv yardFullInv bytes!"d" hcfg hcfg' rfl rfl rfl yardGrid smallDesc yardPins (fun _ => yardContents)
    [yardStep] yardFull yard_files yard_ok yard_full_ok htext htext' yard_apart yard_full _ o fuel).1 h⟩

/-! ## A tile in two banks

`IOB33` has its first pin in bank 1 and another in bank 2; `U` is in bank 2, `HCLK_IOI3` in bank 1. For `U.S.STEPDOWN` the assembler adds
`IOB33.IOB_Y0.STEPDOWN`; where that is written as a line, it takes the bank of `IOB33` to be 1, and adds `HCLK_IOI3.STEPDOWN` as well. -/

def crossPins : PackagePins :=
  [⟨bytes!"A1", 1, bytes!"S", bytes!"IOB33", bytes!"F"⟩, ⟨bytes!"A2", 2, bytes!"S", bytes!"U", bytes!"F"⟩,
   ⟨bytes!"A3", 2, bytes!"S", bytes!"IOB33", bytes!"F"⟩, ⟨bytes!"A4", 1, bytes!"S", bytes!"HCLK_IOI3", bytes!"F"⟩]

def crossTile : Db.Tile := { yardTile with sites := [(bytes!"IOB_X0Y0", bytes!"IOB33S")] }
def crossGrid : TileGrid := [(bytes!"IOB33", crossTile)]
def crossLine (name : Bytes) : SourceLine := .statement (fun _ => []) ⟨name, .absent, .absent⟩ [] []
def crossStep : SourceLine := crossLine bytes!"U.S.STEPDOWN"
def crossFull : List SourceLine := [crossStep, crossLine bytes!"IOB33.IOB_Y0.STEPDOWN"]

theorem cross_sets (name name' : Bytes) (n : Nat) : (crossLine name).Sets name' n ↔ name' = name ∧ n = 0 := by
  constructor
  · rintro ⟨h1, _, h2, _⟩
    exact ⟨h1.symm, Nat.le_zero.1 h2⟩
  · rintro ⟨rfl, rfl⟩
    exact ⟨rfl, Nat.le_refl _, Nat.le_refl _, (by decide : Nat.testBit 1 0 = true)⟩

theorem cross_pudc (name : Bytes) : ¬ PudcName crossGrid name := by
  rintro ⟨tile, pin, site, ⟨info, fn, h1, h2, _⟩, _⟩
  rw [(Prod.mk.inj (List.mem_singleton.1 h1)).2] at h2
  cases h2

theorem cross_use (name : Bytes) : InUse crossGrid [crossStep] name ↔ name = bytes!"U.S.STEPDOWN" := by
  constructor
  · rintro (⟨l, hl, n, h⟩ | h)
    · rw [List.mem_singleton.1 hl] at h
      exact ((cross_sets _ _ _).1 h).1
    · exact absurd h (cross_pudc _)
  · rintro rfl
    exact Or.inl ⟨_, List.mem_singleton.2 rfl, 0, (cross_sets _ _ _).2 ⟨rfl, rfl⟩⟩

theorem cross_tag {name tile site tag : Bytes} (h : InUse crossGrid [crossStep] name) (ht : TagOf name tile site tag) :
    tile = bytes!"U" ∧ site = bytes!"S" ∧ tag = bytes!"STEPDOWN" := by
  rw [(cross_use _).1 h] at ht
  exact tag_short (T := bytes!"U") (S := bytes!"S") (G := bytes!"STEPDOWN") (by decide) (by decide) (by decide) ht

theorem cross_head (bank : Nat) : HeadBank smallDesc crossPins bytes!"U" bank ↔ bank = 2 := by
  constructor
  · intro h
    rcases head_in h with ⟨p, h1, h2, h3⟩ | ⟨loc, h, _⟩
    · have all : ∀ p ∈ crossPins, p.tile = bytes!"U" → p.bank = 2 := by decide
      rw [← h2]
      exact all p h1 h3
    · cases h
  · rintro rfl
    refine Or.inr ⟨(fun e he => by cases he), [⟨bytes!"A1", 1, bytes!"S", bytes!"IOB33", bytes!"F"⟩], _, _, rfl, rfl, rfl, ?_⟩
    decide

theorem cross_step (bank : Nat) (tag : Bytes) : StepUsed crossGrid smallDesc crossPins [crossStep] bank tag ↔ bank = 2 ∧ tag = bytes!"STEPDOWN" := by
  constructor
  · rintro ⟨name, tile, site, h1, h2, _, h4⟩
    obtain ⟨rfl, rfl, rfl⟩ := cross_tag h1 h2
    exact ⟨(cross_head _).1 h4, rfl⟩
  · rintro ⟨rfl, rfl⟩
    exact ⟨_, _, _, (cross_use _).2 rfl, ⟨by decide, by decide, by decide, Or.inl (show bytes!"U.S.STEPDOWN" = bytes!"U" ++ 0x2e :: (bytes!"S" ++ 0x2e :: bytes!"STEPDOWN") by decide)⟩,
      ⟨[], [], rfl⟩, (cross_head _).2 rfl⟩

theorem cross_bank {tile : Bytes} (h : InBank smallDesc crossPins 2 tile) : tile = bytes!"U" ∨ tile = bytes!"IOB33" := by
  rcases h with ⟨p, h1, h2, h3⟩ | ⟨loc, h, _⟩
  · have all : ∀ p ∈ crossPins, p.bank = 2 → p.tile = bytes!"U" ∨ p.tile = bytes!"IOB33" := by decide
    rw [← h3]
    exact all p h1 h2
  · cases h

theorem cross_iob (site : Bytes) : IobName bytes!"IOB_X0Y0" site ↔ site = bytes!"IOB_Y0" := by
  constructor
  · rintro ⟨pre, c, h1, h2, rfl⟩
    have := List.append_inj' (show bytes!"IOB_X0Y" ++ [0x30] = pre ++ [c] from h1) rfl
    rw [← (List.cons.inj this.2).1]
    rfl
  · rintro rfl
    exact ⟨bytes!"IOB_X0Y", 0x30, rfl, by decide, rfl⟩

theorem cross_added (name : Bytes) : Added crossGrid smallDesc crossPins [crossStep] name ↔ name = bytes!"IOB33.IOB_Y0.STEPDOWN" := by
  have apart : ∀ s, ¬ Occurs s bytes!"U" ∨ s.length ≤ 1 := by
    intro s
    by_cases h : s.length ≤ 1
    · exact Or.inr h
    · refine Or.inl ?_
      rintro ⟨a, b, e⟩
      have := congrArg List.length e
      simp only [List.length_append, List.length_cons, List.length_nil] at this
      omega
  constructor
  · intro h
    cases h with
    | pudc h => exact absurd h (cross_pudc _)
    | @site bank tag tile t pin site h1 h2 h3 h4 h5 h6 h7 =>
      obtain ⟨rfl, rfl⟩ := (cross_step _ _).1 h1
      have e := List.mem_singleton.1 (mem_of_lookup h4)
      obtain ⟨rfl, rfl⟩ := Prod.mk.inj e
      rw [show pin = bytes!"IOB_X0Y0" from List.mem_singleton.1 h5] at h6
      rw [(cross_iob _).1 h6]
      decide
    | bank h1 h2 h3 =>
      obtain ⟨rfl, rfl⟩ := (cross_step _ _).1 h1
      rcases cross_bank h2 with rfl | rfl
      · exact absurd h3 ((apart _).resolve_right (by decide))
      · exact absurd ((occurs_iff _ _).1 h3) (by decide +kernel)
  · rintro rfl
    exact Added.site (grid := crossGrid) (part := smallDesc) (pins := crossPins) (ls := [crossStep]) (bank := 2) (tag := bytes!"STEPDOWN") (tile := bytes!"IOB33")
      (t := crossTile) (pin := bytes!"IOB_X0Y0") (site := bytes!"IOB_Y0") ((cross_step _ _).2 ⟨rfl, rfl⟩)
      (Or.inl ⟨⟨bytes!"A3", 2, bytes!"S", bytes!"IOB33", bytes!"F"⟩, by decide, rfl, rfl⟩) ⟨[], [], rfl⟩ rfl (List.mem_singleton.2 rfl) ((cross_iob _).2 rfl)
      (by
        rintro ⟨name, t, s, tag, h1, h2, h3, _⟩
        obtain ⟨rfl, _⟩ := cross_tag h1 h2
        exact absurd h3 ((apart _).resolve_right (by decide)))

/-- With a tile in two banks a design and the same design written out are not the same: the second gets a STEPDOWN the first does not get. -/
theorem C134_two_banks : WritesOut crossGrid smallDesc crossPins [crossStep] crossFull ∧ (∀ b tile, InBank smallDesc crossPins b tile → 0x2e ∉ tile) ∧
    WantsBit crossGrid smallDesc crossPins crossFull bytes!"HCLK_IOI3" bytes!"STEPDOWN" 0 ∧
    ¬ WantsBit crossGrid smallDesc crossPins [crossStep] bytes!"HCLK_IOI3" bytes!"STEPDOWN" 0 := by
  have sets : ∀ name n, (∃ l ∈ [crossStep], l.Sets name n) ↔ name = bytes!"U.S.STEPDOWN" ∧ n = 0 := by
    intro name n
    constructor
    · rintro ⟨l, hl, h⟩
      rw [List.mem_singleton.1 hl] at h
      exact (cross_sets _ _ _).1 h
    · exact fun h => ⟨_, List.mem_singleton.2 rfl, (cross_sets _ _ _).2 h⟩
  have full : ∀ name n, (∃ l ∈ crossFull, l.Sets name n) ↔ (name = bytes!"U.S.STEPDOWN" ∨ name = bytes!"IOB33.IOB_Y0.STEPDOWN") ∧ n = 0 := by
    intro name n
    constructor
    · rintro ⟨l, hl, h⟩
      rcases List.mem_cons.1 hl with rfl | hl
      · exact ⟨Or.inl ((cross_sets _ _ _).1 h).1, ((cross_sets _ _ _).1 h).2⟩
      · rw [List.mem_singleton.1 hl] at h
        exact ⟨Or.inr ((cross_sets _ _ _).1 h).1, ((cross_sets _ _ _).1 h).2⟩
    · rintro ⟨h | h, h0⟩
      · exact ⟨crossStep, List.mem_cons_self, (cross_sets _ _ _).2 ⟨h, h0⟩⟩
      · exact ⟨_, List.mem_cons_of_mem _ (List.mem_singleton.2 rfl), (cross_sets _ _ _).2 ⟨h, h0⟩⟩
  refine ⟨?_, ?_, ⟨by decide, Or.inr ⟨rfl, ?_⟩⟩, ?_⟩
  · intro tile feature addr h0
    rw [full]
    unfold WantsBit
    rw [sets, cross_added]
    constructor
    · rintro ⟨h | h, rfl⟩
      · exact ⟨h0, Or.inl ⟨h, rfl⟩⟩
      · exact ⟨h0, Or.inr ⟨rfl, h⟩⟩
    · rintro ⟨_, ⟨h, rfl⟩ | ⟨rfl, h⟩⟩
      · exact ⟨Or.inl h, rfl⟩
      · exact ⟨Or.inr h, rfl⟩
  · rintro b tile (⟨p, h1, _, h3⟩ | ⟨loc, h, _⟩)
    · have all : ∀ p ∈ crossPins, 0x2e ∉ p.tile := by decide
      rw [← h3]
      exact all p h1
    · cases h
  · have := Added.bank (grid := crossGrid) (part := smallDesc) (pins := crossPins) (ls := crossFull) (bank := 1) (tag := bytes!"STEPDOWN") (tile := bytes!"HCLK_IOI3")
      ⟨bytes!"IOB33.IOB_Y0.STEPDOWN", bytes!"IOB33", bytes!"IOB_Y0", Or.inl ⟨_, List.mem_cons_of_mem _ (List.mem_singleton.2 rfl), 0, (cross_sets _ _ _).2 ⟨rfl, rfl⟩⟩,
        yard_tag, ⟨[], [], rfl⟩, Or.inr ⟨(fun e he => by cases he), [], _, _, rfl, rfl, rfl, (fun q hq => by cases hq)⟩⟩
      (Or.inl ⟨⟨bytes!"A4", 1, bytes!"S", bytes!"HCLK_IOI3", bytes!"F"⟩, by decide, rfl, rfl⟩) ⟨[], [], rfl⟩
    exact this
  · rintro ⟨_, h | ⟨_, h⟩⟩
    · exact absurd ((sets _ _).1 h).1 (by decide)
    · exact absurd ((cross_added _).1 h) (by decide)

/-! ## Every design can be written out -/

/-- All pieces of a list. -/
def pieces (l : Bytes) : List Bytes := (List.range (l.length + 1)).flatMap fun i => (List.range (l.length + 1)).map fun j => (l.drop i).take j

theorem piece_of (a b c : Bytes) : b ∈ pieces (a ++ (b ++ c)) := by
  refine List.mem_flatMap.2 ⟨a.length, List.mem_range.2 (by simp only [List.length_append]; omega), List.mem_map.2 ⟨b.length, List.mem_range.2 (by simp only [List.length_append]; omega), ?_⟩⟩
  rw [List.drop_left, List.take_left]

theorem tag_piece {name tile site tag : Bytes} (h : TagOf name tile site tag) : tag ∈ pieces name ∧ ∀ c ∈ tag, c ∈ name := by
  obtain ⟨_, _, _, rfl | ⟨rest, rfl⟩⟩ := h
  · have := piece_of (tile ++ 0x2e :: (site ++ [0x2e])) tag []
    refine ⟨by simpa using this, fun c hc => by simp [hc]⟩
  · have := piece_of (tile ++ 0x2e :: (site ++ [0x2e])) tag (0x2e :: rest)
    refine ⟨by simpa using this, fun c hc => by simp [hc]⟩

theorem pudc_site {pin site : Bytes} (h : PudcSite pin site) : site = bytes!"IOB_Y0" ∨ site = bytes!"IOB_Y1" ∨ site = bytes!"IOB_Y-1" := by
  obtain ⟨_, c, _, rfl⟩ := h
  split
  · exact Or.inl rfl
  · split
    · exact Or.inr (Or.inl rfl)
    · exact Or.inr (Or.inr rfl)

theorem iob_site {pin site : Bytes} (h : IobName pin site) : site = bytes!"IOB_Y0" ∨ site = bytes!"IOB_Y1" := by
  obtain ⟨_, c, _, _, rfl⟩ := h
  split
  · exact Or.inl rfl
  · exact Or.inr rfl

/-- The names the lines write, and those for the PUDC_B pin. -/
def useNames (grid : TileGrid) (ls : List SourceLine) : List Bytes :=
  (ls.flatMap fun l => match l with | .empty _ _ => [] | .statement _ f _ _ => [f.name]) ++
  grid.flatMap fun e => [bytes!"IOB_Y0", bytes!"IOB_Y1", bytes!"IOB_Y-1"].flatMap fun s => pudcNames e.1 s

theorem pudc_listed {grid : TileGrid} {name : Bytes} (ls : List SourceLine) (h : PudcName grid name) : name ∈ useNames grid ls := by
  obtain ⟨tile, pin, site, ⟨info, fn, h1, _⟩, h2, h3⟩ := h
  refine List.mem_append_right _ (List.mem_flatMap.2 ⟨_, h1, List.mem_flatMap.2 ⟨site, ?_, h3⟩⟩)
  rcases pudc_site h2 with rfl | rfl | rfl <;> simp

theorem use_listed {grid : TileGrid} {ls : List SourceLine} {name : Bytes} (h : InUse grid ls name) : name ∈ useNames grid ls := by
  rcases h with ⟨l, hl, n, hs⟩ | h
  · refine List.mem_append_left _ (List.mem_flatMap.2 ⟨l, hl, ?_⟩)
    cases l with
    | empty => cases hs
    | statement g f as e => exact List.mem_singleton.2 hs.1.symm
  · exact pudc_listed ls h

/-- There are finitely many names to add. -/
theorem added_listed (grid : TileGrid) (part : Db.Part) (pins : PackagePins) (ls : List SourceLine) : ∃ names : List Bytes, ∀ name, Added grid part pins ls name → name ∈ names := by
  refine ⟨useNames grid ls ++ ((grid.flatMap fun e => [bytes!"IOB_Y0", bytes!"IOB_Y1"].flatMap fun s => (useNames grid ls).flatMap fun n => (pieces n).map fun tag =>
      e.1 ++ 0x2e :: s ++ 0x2e :: tag) ++
    ((pins.map (·.tile) ++ part.iobanks.map fun e => bytes!"HCLK_IOI3_" ++ e.2).map fun tile => tile ++ 0x2e :: bytes!"STEPDOWN")), fun name h => ?_⟩
  cases h with
  | pudc h => exact List.mem_append_left _ (pudc_listed ls h)
  | site h1 h2 h3 h4 h5 h6 h7 =>
    obtain ⟨name, _, _, g1, g2, _⟩ := h1
    refine List.mem_append_right _ (List.mem_append_left _ (List.mem_flatMap.2 ⟨_, mem_of_lookup h4, List.mem_flatMap.2 ⟨_, ?_, List.mem_flatMap.2 ⟨name, use_listed g1,
      List.mem_map.2 ⟨_, (tag_piece g2).1, rfl⟩⟩⟩⟩))
    rcases iob_site h6 with rfl | rfl <;> simp
  | bank h1 h2 h3 =>
    refine List.mem_append_right _ (List.mem_append_right _ (List.mem_map.2 ⟨_, ?_, rfl⟩))
    rcases h2 with ⟨p, p1, _, p3⟩ | ⟨loc, p1, p2⟩
    · exact List.mem_append_left _ (List.mem_map.2 ⟨p, p1, p3⟩)
    · exact List.mem_append_right _ (List.mem_map.2 ⟨_, p1, p2.symm⟩)

section
variable {grid : TileGrid} {part : Db.Part} {pins : PackagePins} (hn : NamesPlain grid part pins)
include hn

theorem pudc_plain {name : Bytes} (h : PudcName grid name) : ∀ c ∈ name, NameChar c := by
  obtain ⟨tile, pin, site, h1, h2, h3⟩ := h
  have ht : ∀ c ∈ tile, NameChar c := by
    obtain ⟨info, fn, g, _⟩ := id h1
    exact hn.tiles _ g
  have hs : ∀ c ∈ site, NameChar c := by
    rcases pudc_site h2 with rfl | rfl | rfl
    · decide
    · decide
    · exact absurd h2 (hn.pudc tile pin h1)
  have d : NameChar 0x2e := by decide
  have l1 : ∀ c ∈ bytes!"LVCMOS12_LVCMOS15_LVCMOS18_LVCMOS25_LVCMOS33_LVDS_25_LVTTL_SSTL135_SSTL15_TMDS_33.IN_ONLY", NameChar c := by decide +kernel
  have l2 : ∀ c ∈ bytes!"LVCMOS25_LVCMOS33_LVTTL.IN", NameChar c := by decide +kernel
  have l3 : ∀ c ∈ bytes!"PULLTYPE.PULLUP", NameChar c := by decide +kernel
  have glue : ∀ last : Bytes, (∀ c ∈ last, NameChar c) → ∀ c ∈ tile ++ 0x2e :: (site ++ 0x2e :: last), NameChar c := by
    intro last hl c hc
    rcases List.mem_append.1 hc with hc | hc
    · exact ht c hc
    rcases List.mem_cons.1 hc with rfl | hc
    · exact d
    rcases List.mem_append.1 hc with hc | hc
    · exact hs c hc
    rcases List.mem_cons.1 hc with rfl | hc
    · exact d
    · exact hl c hc
  unfold pudcNames at h3
  rcases List.mem_cons.1 h3 with rfl | h3
  · exact glue _ l1
  rcases List.mem_cons.1 h3 with rfl | h3
  · exact glue _ l2
  · rw [List.mem_singleton.1 h3]
    exact glue _ l3

theorem added_plain {ls : List SourceLine} (hls : ∀ l ∈ ls, l.Ok ∧ l.Dotted) {name : Bytes} (h : Added grid part pins ls name) :
    (∀ c ∈ name, NameChar c) ∧ 0x2e ∈ name := by
  have d : NameChar 0x2e := by decide
  have used : ∀ n, InUse grid ls n → ∀ c ∈ n, NameChar c := by
    rintro n (⟨l, hl, k, hs⟩ | h)
    · cases l with
      | empty => cases hs
      | statement g f as e =>
        rw [← hs.1]
        exact (hls _ hl).1.2.1.2.1
    · exact pudc_plain hn h
  cases h with
  | pudc h =>
    refine ⟨pudc_plain hn h, ?_⟩
    obtain ⟨_, _, _, _, _, h3⟩ := h
    simp only [pudcNames, List.mem_cons, List.not_mem_nil, or_false] at h3
    rcases h3 with rfl | rfl | rfl <;> simp
  | @site bank tag tile t pin site h1 h2 h3 h4 h5 h6 h7 =>
    obtain ⟨n, _, _, g1, g2, _⟩ := h1
    have ht := hn.tiles _ (mem_of_lookup h4)
    have hs : ∀ c ∈ site, NameChar c := by
      rcases iob_site h6 with rfl | rfl <;> decide
    refine ⟨fun c hc => ?_, by simp⟩
    rcases List.mem_append.1 hc with hc | hc
    · rcases List.mem_append.1 hc with hc | hc
      · exact ht c hc
      rcases List.mem_cons.1 hc with rfl | hc
      · exact d
      · exact hs c hc
    rcases List.mem_cons.1 hc with rfl | hc
    · exact d
    · exact used n g1 c ((tag_piece g2).2 c hc)
  | @bank bank tag tile h1 h2 h3 =>
    have hs : ∀ c ∈ bytes!"STEPDOWN", NameChar c := by decide
    refine ⟨fun c hc => ?_, by simp⟩
    rcases List.mem_append.1 hc with hc | hc
    · exact hn.banks _ _ h2 c hc
    rcases List.mem_cons.1 hc with rfl | hc
    · exact d
    · exact hs c hc

/-- Every design can be written out, with one plain line for each bit. -/
theorem C134_exists (ls : List SourceLine) (hls : ∀ l ∈ ls, l.Ok ∧ l.Dotted) : ∃ full : List SourceLine,
    (∀ l ∈ full, l.Ok ∧ l.Dotted ∧ ∃ name n, PlainBit name n l) ∧ WritesOut grid part pins ls full := by
  classical
  obtain ⟨bits, hb1, hb2⟩ := C128_bitwise ls hls
  obtain ⟨names, hnames⟩ := added_listed grid part pins ls
  refine ⟨bits ++ (names.filter fun n => decide (Added grid part pins ls n)).map fun n => plainBit n 0, ?_, ?_⟩
  · intro l hl
    rcases List.mem_append.1 hl with hl | hl
    · exact hb1 l hl
    · obtain ⟨n, hm, rfl⟩ := List.mem_map.1 hl
      have ha : Added grid part pins ls n := by simpa using (List.mem_filter.1 hm).2
      obtain ⟨c1, c2⟩ := added_plain hn hls ha
      obtain ⟨p1, p2, _⟩ := plainBit_ok (n := 0) (fun e => by rw [e] at c2; cases c2) c1 (by decide)
      exact ⟨p1, c2, n, 0, p2⟩
  · intro tile feature addr h0
    have plain : ∀ n, Added grid part pins ls n → ∀ name' n', (plainBit n 0).Sets name' n' ↔ name' = n ∧ n' = 0 := by
      intro n ha
      obtain ⟨c1, c2⟩ := added_plain hn hls ha
      exact (plainBit_ok (n := 0) (fun e => by rw [e] at c2; cases c2) c1 (by decide)).2.2
    constructor
    · rintro ⟨l, hl, hs⟩
      rcases List.mem_append.1 hl with hl | hl
      · exact ⟨h0, Or.inl ((hb2 _ _).2 ⟨l, hl, hs⟩)⟩
      · obtain ⟨n, hm, rfl⟩ := List.mem_map.1 hl
        have ha : Added grid part pins ls n := by simpa using (List.mem_filter.1 hm).2
        obtain ⟨e1, e2⟩ := (plain n ha _ _).1 hs
        exact ⟨h0, Or.inr ⟨e2, by rw [e1]; exact ha⟩⟩
    · rintro ⟨_, h | ⟨rfl, h⟩⟩
      · obtain ⟨l, hl, hs⟩ := (hb2 _ _).1 h
        exact ⟨l, List.mem_append_left _ hl, hs⟩
      · exact ⟨_, List.mem_append_right _ (List.mem_map.2 ⟨_, List.mem_filter.2 ⟨hnames _ h, by simpa using h⟩, rfl⟩), (plain _ h _ _).2 ⟨rfl, rfl⟩⟩

end

theorem yard_names : NamesPlain yardGrid smallDesc yardPins where
  tiles := by decide
  banks b tile h := by rw [((yard_bank b tile).1 h).2]; decide
  pudc tile pin h hs := by
    rw [((yard_pudc_pin _ _).1 h).2, yard_site] at hs
    exact absurd hs (by decide)

/-- So every design has a form with one plain line for each bit, to which nothing is added, and which gives the same bitstream. -/
theorem C134_written (env : Env) (load : LoadOrder) (hload : LoadOk load) (inv : Invocation) (path : Bytes) (hcfg : Configured env inv path)
    (grid : TileGrid) (part : Db.Part) (pins : PackagePins) (files : Bytes → TypeContents) (ls : List SourceLine)
    (hdb : WholeFiles env path inv.part grid part pins files ls) (hls : ∀ l ∈ ls, l.Ok ∧ l.Dotted) (htext : Input inv (sourceText ls))
    (hapart : BanksApart part pins) (hnames : NamesPlain grid part pins) : ∃ full : List SourceLine,
    (∀ l ∈ full, l.Ok ∧ l.Dotted ∧ ∃ name n, PlainBit name n l) ∧
    (∀ name, 0x2e ∈ name → Added grid part pins full name → ∃ l ∈ full, l.Sets name 0) ∧
    ∀ (ord ord' : HashOrder) (_ : Permutes ord) (_ : Permutes ord') (inv' : Invocation), Configured env inv' path → inv'.part = inv.part → inv'.date = inv.date →
      inv'.time = inv.time → Input inv' (sourceText full) → ∀ out o fuel,
      (main env load ord inv out fuel = some (.ok (0, o)) ↔ main env load ord' inv' out fuel = some (.ok (0, o))) := by
  obtain ⟨full, h1, h2⟩ := C134_exists hnames ls hls
  refine ⟨full, h1, fun name hd h => ?_, fun ord ord' hord hord' inv' hcfg' hpart hdate htime htext' out o fuel => ?_⟩
  · obtain ⟨tile, rest, rfl, h0⟩ : ∃ tile rest, name = tile ++ 0x2e :: rest ∧ 0x2e ∉ tile := by
      clear h
      induction name with
      | nil => cases hd
      | cons c name ih =>
        by_cases hc : c = 0x2e
        · exact ⟨[], name, by rw [hc]; rfl, by simp⟩
        · obtain ⟨tile, rest, e, h0⟩ := ih (by
            rcases List.mem_cons.1 hd with h | h
            · exact absurd h.symm hc
            · exact h)
          refine ⟨c :: tile, rest, by rw [e]; rfl, fun hm => ?_⟩
          rcases List.mem_cons.1 hm with h | h
          · exact hc h.symm
          · exact h0 h
    exact (h2 tile rest 0 h0).2 ⟨h0, Or.inr ⟨rfl, out_added h2 hapart h⟩⟩
  · exact C134_program env load hload ord ord' hord hord' inv inv' path hcfg hcfg' hpart hdate htime grid part pins files ls full hdb hls
      (fun l hl => ⟨(h1 l hl).1, (h1 l hl).2.1⟩) htext htext' hapart h2 out o fuel

/-- The yard has such a form. -/
example : ∃ full : List SourceLine, (∀ l ∈ full, l.Ok ∧ l.Dotted ∧ ∃ name n, PlainBit name n l) ∧ WritesOut yardGrid smallDesc yardPins [yardStep] full :=
  C134_exists yard_names [yardStep] yard_ok

end Verif.Props
