import Verif.Spec.Telling
import Verif.Props.C108
import Verif.Props.C132
import Verif.Props.C134
/-! # C135: what a bitstream tells about its design -/
namespace Verif.Props
open Verif.Db Verif.Asm Verif.Spec Verif.Text Verif.Xc7

/-- With equal places, and a place of its own for a feature bit, the bit is in both designs or in none. -/
theorem told_by_bits {grid : TileGrid} {part : Db.Part} {pins : PackagePins} {files : Bytes → TypeContents} {ls ls' : List SourceLine}
    (hbits : ∀ k w b, SaysBit grid part pins files ls k w b ↔ SaysBit grid part pins files ls' k w b) {known : Bytes → Bytes → Nat → Prop}
    (hknown' : ∀ tile feature addr, WantsBit grid part pins ls' tile feature addr → known tile feature addr)
    {tile feature : Bytes} {addr : Nat} (ht : CanTell grid files known tile feature addr) (h : WantsBit grid part pins ls tile feature addr) :
    WantsBit grid part pins ls' tile feature addr := by
  obtain ⟨k, w, b, ⟨block, s, h1, h2, h3⟩, h4⟩ := ht
  obtain ⟨tile', feature', addr', block', s', g1, g2, g3, g4⟩ := (hbits k w b).1 ⟨tile, feature, addr, block, s, h, h1, h2, h3⟩
  obtain ⟨rfl, rfl, rfl⟩ := h4 _ _ _ _ _ (hknown' _ _ _ g1) g2 g3 g4
  exact g1

section
variable (env : Env) (load : LoadOrder) (hload : LoadOk load) (ord ord' : HashOrder) (hord : Permutes ord) (hord' : Permutes ord') (inv inv' : Invocation) (path : Bytes)
  (hcfg : Configured env inv path) (hcfg' : Configured env inv' path) (hpart : inv'.part = inv.part) (hdate : inv'.date = inv.date) (htime : inv'.time = inv.time)
  (grid : TileGrid) (part : Db.Part) (pins : PackagePins) (files : Bytes → TypeContents) (ls ls' : List SourceLine)
  (hdb : WholeFiles env path inv.part grid part pins files ls) (hdb' : WholeFiles env path inv'.part grid part pins files ls')
  (hls : ∀ l ∈ ls, l.Ok ∧ l.Dotted) (hls' : ∀ l ∈ ls', l.Ok ∧ l.Dotted) (htext : Input inv (sourceText ls)) (htext' : Input inv' (sourceText ls'))
  (hknow : FilesSuffice grid part pins files ls) (hknow' : FilesSuffice grid part pins files ls')
  (hd : DescDense part) (p : Xc7.Part) (hp : Part.fromPart part = .ok p) (hsmall : FitsPacket p) (hshort : ShortAscii inv.date) (hshort' : ShortAscii inv.time)
  (hin : ∀ tile feature addr block s k, WantsBit grid part pins ls tile feature addr → FileBits grid files tile feature addr block s → Fills block s k → Spec.FrameOf part k)
  (hin' : ∀ tile feature addr block s k, WantsBit grid part pins ls' tile feature addr → FileBits grid files tile feature addr block s → Fills block s k → Spec.FrameOf part k)
  (seek : Bool)
include hload hord hord' hcfg hcfg' hpart hdate htime hdb hdb' hls hls' htext htext' hknow hknow' hd hp hsmall hshort hshort' hin hin'

/-- Two designs for one part, made with the same date and time: the bitstreams are equal exactly when the designs, with what is added, set the same places. -/
theorem C135_places : ∃ fuel0, ∀ fuel ≥ fuel0, ∃ o o', main env load ord inv ⟨[], 0, seek, false⟩ fuel = some (.ok (0, o)) ∧
    main env load ord' inv' ⟨[], 0, seek, false⟩ fuel = some (.ok (0, o')) ∧ o.bytes.length = o'.bytes.length ∧
    (o.bytes = o'.bytes ↔ ∀ k w b, SaysBit grid part pins files ls k w b ↔ SaysBit grid part pins files ls' k w b) := by
  obtain ⟨bits, hs, hf⟩ := whole_load hcfg hdb htext
  obtain ⟨bits', hs', hf'⟩ := whole_load hcfg' hdb' htext'
  obtain rfl : bits = bits' := by
    obtain ⟨_, _, _, p1, g1, _, _, h1⟩ := id hs
    obtain ⟨_, _, _, p2, g2, _, _, h2⟩ := id hs'
    have e1 := (C61_setting _ _ _).2 g1
    rw [(C61_setting _ _ _).2 hcfg.2.1] at e1
    cases e1
    have e2 := (C61_setting _ _ _).2 g2
    rw [(C61_setting _ _ _).2 hcfg'.2.1] at e2
    cases e2
    rw [hpart, h1] at h2
    cases h2
    rfl
  have okay : ∀ l ∈ ls, l.Ok := fun l hl => (hls l hl).1
  have okay' : ∀ l ∈ ls', l.Ok := fun l hl => (hls' l hl).1
  have small : ∀ k, Spec.FrameOf part k → FrameOf p k := fun k h => Or.inr ((frameOf_iff hd hp k).1 h)
  obtain ⟨place, _, fuel0, h⟩ := C108_difference env sameLoad sameLoad_ok ⟨⟨grid, bits, Registry.create (fun l => l) part pins, part⟩, []⟩ hd p hp hsmall seek sameOrder sameOrder
    sameOrder_permutes sameOrder_permutes inv inv' hshort hshort' hdate htime (sourceText ls) (sourceText ls') hs hs'
    ((sourceAssembles_iff _ ls okay).2 ((whole_assembles ⟨grid, bits, Registry.create (fun l => l) part pins, part⟩ pins rfl hdb.settled files ls hls hf).2 hknow))
    ((sourceAssembles_iff _ ls' okay').2 ((whole_assembles ⟨grid, bits, Registry.create (fun l => l) part pins, part⟩ pins rfl hdb.settled files ls' hls' hf').2 hknow'))
    (fun k ht => by
      rw [sourceDesign_iff _ ls okay] at ht
      obtain ⟨tile, feature, addr, block, s, a1, a2, a3⟩ := whole_touches ⟨grid, bits, Registry.create (fun l => l) part pins, part⟩ pins rfl hdb.settled files ls hls hf k ht
      exact small k (hin tile feature addr block s k a1 a2 a3))
    (fun k ht => by
      rw [sourceDesign_iff _ ls' okay'] at ht
      obtain ⟨tile, feature, addr, block, s, a1, a2, a3⟩ := whole_touches ⟨grid, bits, Registry.create (fun l => l) part pins, part⟩ pins rfl hdb.settled files ls' hls' hf' k ht
      exact small k (hin' tile feature addr block s k a1 a2 a3))
  have says : ∀ k w b, Wants ⟨grid, bits, Registry.create (fun l => l) part pins, part⟩ (sourceText ls) k w b ↔ SaysBit grid part pins files ls k w b := by
    intro k w b
    unfold Wants
    rw [sourceDesign_iff _ ls okay]
    exact whole_bit ⟨grid, bits, Registry.create (fun l => l) part pins, part⟩ pins rfl hdb.settled files ls hls hf k w b
  have says' : ∀ k w b, Wants ⟨grid, bits, Registry.create (fun l => l) part pins, part⟩ (sourceText ls') k w b ↔ SaysBit grid part pins files ls' k w b := by
    intro k w b
    unfold Wants
    rw [sourceDesign_iff _ ls' okay']
    exact whole_bit ⟨grid, bits, Registry.create (fun l => l) part pins, part⟩ pins rfl hdb.settled files ls' hls' hf' k w b
  have inside : ∀ l, (∀ tile feature addr block s k, WantsBit grid part pins l tile feature addr → FileBits grid files tile feature addr block s → Fills block s k → Spec.FrameOf part k) →
      FilesSuffice grid part pins files l → ∀ k w b, SaysBit grid part pins files l k w b → FrameOf p k ∧ w < 101 ∧ b < 32 := by
    rintro l hi hk k w b ⟨tile, feature, addr, block, s, a1, a2, a3, a4⟩
    exact ⟨small k (hi tile feature addr block s k a1 a2 (Or.inl a4.1)), (hk.bits tile feature addr a1).2 block s k w b a2 a4 a3, a4.2.1⟩
  refine ⟨fuel0, fun fuel hfu => ?_⟩
  obtain ⟨o, o', m1, m2, m3, m4⟩ := h fuel hfu
  refine ⟨o, o', (whole_order env load hload ord hord inv path hcfg grid part pins files ls hdb hls htext _ _ _).2 m1,
    (whole_order env load hload ord' hord' inv' path hcfg' grid part pins files ls' hdb' hls' htext' _ _ _).2 m2, m3, fun e k w b => ?_, fun hb => ?_⟩
  · refine Classical.byContradiction fun hne => ?_
    have hi : FrameOf p k ∧ w < 101 ∧ b < 32 := by
      by_cases h1 : SaysBit grid part pins files ls k w b
      · exact inside ls hin hknow k w b h1
      · by_cases h2 : SaysBit grid part pins files ls' k w b
        · exact inside ls' hin' hknow' k w b h2
        · exact absurd ⟨fun h => absurd h h1, fun h => absurd h h2⟩ hne
    refine (m4 _).2 ⟨k, w, b, hi.1, hi.2.1, hi.2.2, rfl, fun hw => hne ?_⟩ (by rw [e])
    rw [← says, ← says']
    exact hw
  · refine List.ext_getElem? fun n => Classical.byContradiction fun hne => ?_
    obtain ⟨k, w, b, _, _, _, _, hw⟩ := (m4 n).1 hne
    refine hw ?_
    rw [says, says']
    exact hb k w b

/-- A feature bit with a place of its own is in both designs or in none if their bitstreams are equal. So where every feature bit has a place of its own, the bitstreams are
equal exactly when the designs, with what is added, are the same. -/
theorem C135_tells (known : Bytes → Bytes → Nat → Prop) (hknown : ∀ tile feature addr, WantsBit grid part pins ls tile feature addr → known tile feature addr)
    (hknown' : ∀ tile feature addr, WantsBit grid part pins ls' tile feature addr → known tile feature addr) :
    ∃ fuel0, ∀ fuel ≥ fuel0, ∃ o o', main env load ord inv ⟨[], 0, seek, false⟩ fuel = some (.ok (0, o)) ∧
      main env load ord' inv' ⟨[], 0, seek, false⟩ fuel = some (.ok (0, o')) ∧
      (o.bytes = o'.bytes → ∀ tile feature addr, CanTell grid files known tile feature addr →
        (WantsBit grid part pins ls tile feature addr ↔ WantsBit grid part pins ls' tile feature addr)) ∧
      ((∀ tile feature addr, known tile feature addr → CanTell grid files known tile feature addr) →
        (o.bytes = o'.bytes ↔ ∀ tile feature addr, WantsBit grid part pins ls tile feature addr ↔ WantsBit grid part pins ls' tile feature addr)) := by
  obtain ⟨fuel0, h⟩ := C135_places env load hload ord ord' hord hord' inv inv' path hcfg hcfg' hpart hdate htime grid part pins files ls ls' hdb hdb' hls hls' htext htext'
    hknow hknow' hd p hp hsmall hshort hshort' hin hin' seek
  refine ⟨fuel0, fun fuel hf => ?_⟩
  obtain ⟨o, o', m1, m2, _, m4⟩ := h fuel hf
  have told : o.bytes = o'.bytes → ∀ tile feature addr, CanTell grid files known tile feature addr →
      (WantsBit grid part pins ls tile feature addr ↔ WantsBit grid part pins ls' tile feature addr) := fun e tile feature addr ht =>
    ⟨told_by_bits (m4.1 e) hknown' ht, told_by_bits (fun k w b => (m4.1 e k w b).symm) hknown ht⟩
  refine ⟨o, o', m1, m2, told, fun hall => ⟨fun e tile feature addr => ?_, fun hw => m4.2 fun k w b => ?_⟩⟩
  · by_cases hk : known tile feature addr
    · exact told e tile feature addr (hall tile feature addr hk)
    · exact ⟨fun h => absurd (hknown _ _ _ h) hk, fun h => absurd (hknown' _ _ _ h) hk⟩
  · unfold SaysBit
    simp only [hw]

end

/-! ## The design of the yard and the empty design -/

theorem bare_use {name : Bytes} (h : InUse yardGrid [] name) : PudcName yardGrid name := by
  rcases h with ⟨l, hl, _⟩ | h
  · cases hl
  · exact h

theorem bare_step (bank : Nat) (tag : Bytes) : ¬ StepUsed yardGrid smallDesc yardPins [] bank tag := by
  rintro ⟨name, tile, site, h1, h2, h3, _⟩
  have hp := bare_use h1
  obtain ⟨rfl, rfl, rfl⟩ := yard_step _ _ _ _ (Or.inr hp) h2 h3
  obtain ⟨_, _, _, h | ⟨rest, h⟩⟩ := h2
  all_goals
    rw [h] at hp
    rcases (yard_pudc _).1 hp with e | e | e <;> exact absurd (List.cons.inj e).1 (by decide)

theorem bare_added {name : Bytes} (h : Added yardGrid smallDesc yardPins [] name) : PudcName yardGrid name := by
  cases h with
  | pudc h => exact h
  | site h1 _ _ _ _ _ _ => exact absurd h1 (bare_step _ _)
  | bank h1 _ _ => exact absurd h1 (bare_step _ _)

theorem bare_wants {tile feature : Bytes} {addr : Nat} (h : WantsBit yardGrid smallDesc yardPins [] tile feature addr) :
    WantsBit yardGrid smallDesc yardPins [yardStep] tile feature addr ∧ PudcName yardGrid (tile ++ 0x2e :: feature) := by
  obtain ⟨h0, ⟨l, hl, _⟩ | ⟨h1, h⟩⟩ := h
  · cases hl
  · exact ⟨⟨h0, Or.inr ⟨h1, .pudc (bare_added h)⟩⟩, bare_added h⟩

theorem bare_files : WholeFiles yardEnv bytes!"d" bytes!"p" yardGrid smallDesc yardPins (fun _ => yardContents) [] :=
  ⟨yard_files.dir, yard_files.listed, fun tile feature addr t ty f hw => yard_files.types tile feature addr t ty f (bare_wants hw).1, yard_files.settled⟩

theorem bare_suffice : FilesSuffice yardGrid smallDesc yardPins (fun _ => yardContents) [] where
  banks name tile site tag h1 := yard_suffice.banks name tile site tag (Or.inr (bare_use h1))
  sites bank tag tile h1 := absurd h1 (bare_step _ _)
  bits tile feature addr h := yard_suffice.bits tile feature addr (bare_wants h).1
  pudc := yard_suffice.pudc

/-- Each of the five feature bits has a place of its own. -/
theorem yard_tells (tile feature : Bytes) (addr : Nat) (h : WantsBit yardGrid smallDesc yardPins [yardStep] tile feature addr) :
    CanTell yardGrid (fun _ => yardContents) (WantsBit yardGrid smallDesc yardPins [yardStep]) tile feature addr := by
  have apart : ∀ e ∈ yardAll, ∀ e' ∈ yardAll,
      (e.2.2.2.1.baseAddress + e.2.2.2.2.wordColumn) % 2 ^ 32 = (e'.2.2.2.1.baseAddress + e'.2.2.2.2.wordColumn) % 2 ^ 32 →
      bitPos e.2.2.2.1 e.2.2.2.2 / 32 = bitPos e'.2.2.2.1 e'.2.2.2.2 / 32 → bitPos e.2.2.2.1 e.2.2.2.2 % 32 = bitPos e'.2.2.2.1 e'.2.2.2.2 % 32 →
      e'.1 = e.1 ∧ e'.2.1 = e.2.1 := by decide +kernel
  have isset : ∀ e ∈ yardAll, e.2.2.2.2.isSet = true := by decide +kernel
  obtain ⟨rfl, f, block, s, hm⟩ := yard_all h
  refine ⟨_, _, _, ⟨block, s, (yard_lists _ _ _ _ _ hm _ _).2 ⟨rfl, rfl⟩, isset _ hm, (yard_lies _ _ _ _ _ hm _ _ _).2 ⟨rfl, rfl, rfl⟩⟩, fun tile' feature' addr' block' s' h1 h2 _ h4 => ?_⟩
  obtain ⟨rfl, f', block2, s2, hm'⟩ := yard_all h1
  obtain ⟨rfl, rfl⟩ := (yard_lists _ _ _ _ _ hm' _ _).1 h2
  obtain ⟨e1, e2, e3⟩ := (yard_lies _ _ _ _ _ hm' _ _ _).1 h4
  obtain ⟨g1, g2⟩ := apart _ hm _ hm' e1 e2 e3
  exact ⟨g1, g2, rfl⟩

/-- The bitstreams of `IOB33.IOB_Y0.STEPDOWN` and of the empty design differ. -/
example (load : LoadOrder) (hload : LoadOk load) (ord ord' : HashOrder) (hord : Permutes ord) (hord' : Permutes ord') :
    ∃ fuel0, ∀ fuel ≥ fuel0, ∃ o o', main yardEnv load ord yardInv ⟨[], 0, true, false⟩ fuel = some (.ok (0, o)) ∧
      main yardEnv load ord' { yardInv with stdin := [] } ⟨[], 0, true, false⟩ fuel = some (.ok (0, o')) ∧ o.bytes ≠ o'.bytes := by
  have hin : ∀ tile feature addr block s k, WantsBit yardGrid smallDesc yardPins [yardStep] tile feature addr → FileBits yardGrid (fun _ => yardContents) tile feature addr block s →
      Fills block s k → Spec.FrameOf smallDesc k := fun tile feature addr block s k hw hl hf =>
    ⟨.clbIoClk, false, 0, 0, k, 36, rfl, yard_inside hw hl hf, by simp [busNumber]⟩
  obtain ⟨fuel0, h⟩ := C135_tells yardEnv load hload ord ord' hord hord' yardInv { yardInv with stdin := [] } bytes!"d" ⟨by decide, Or.inr ⟨rfl, rfl⟩, by decide, by decide, by decide⟩
    ⟨by decide, Or.inr ⟨rfl, rfl⟩, by decide, by decide, by decide⟩ rfl rfl rfl yardGrid smallDesc yardPins (fun _ => yardContents) [yardStep] [] yard_files bare_files yard_ok
    (fun l hl => by cases hl) (Or.inr ⟨fun _ _ h => by simp [yardInv, fileInv] at h, rfl⟩) (Or.inr ⟨fun _ _ h => by simp [yardInv, fileInv] at h, rfl⟩) yard_suffice bare_suffice
    smallDesc_dense _ rfl smallDesc_packet (by unfold ShortAscii; decide) (by unfold ShortAscii; decide) hin
    (fun tile feature addr block s k hw => hin tile feature addr block s k (bare_wants hw).1) true
    (WantsBit yardGrid smallDesc yardPins [yardStep]) (fun _ _ _ h => h) (fun _ _ _ h => (bare_wants h).1)
  refine ⟨fuel0, fun fuel hf => ?_⟩
  obtain ⟨o, o', m1, m2, _, m4⟩ := h fuel hf
  refine ⟨o, o', m1, m2, fun e => ?_⟩
  have hw := ((m4 yard_tells).1 e bytes!"IOB33" bytes!"IOB_Y0.STEPDOWN" 0).1 ((yard_wants _ _ _).2 ⟨rfl, _, List.mem_cons_self, rfl, rfl⟩)
  rcases (yard_pudc _).1 (bare_wants hw).2 with e | e | e <;> exact absurd (List.cons.inj e).1 (by decide)

end Verif.Props
