import Verif.Props.C136
/-! # C137: what a change of a design changes in a device -/
namespace Verif.Props
open Verif.Db Verif.Asm Verif.Spec Verif.Text Verif.Xc7

section
variable (env : Env) (load : LoadOrder) (hload : LoadOk load) (ord ord' : HashOrder) (hord : Permutes ord) (hord' : Permutes ord') (inv inv' : Invocation) (path : Bytes)
  (hcfg : Configured env inv path) (hcfg' : Configured env inv' path)
  (grid : TileGrid) (part : Db.Part) (pins : PackagePins) (files : Bytes → TypeContents) (ls ls' : List SourceLine)
  (hdb : WholeFiles env path inv.part grid part pins files ls) (hdb' : WholeFiles env path inv'.part grid part pins files ls')
  (hls : ∀ l ∈ ls, l.Ok ∧ l.Dotted) (hls' : ∀ l ∈ ls', l.Ok ∧ l.Dotted) (htext : Input inv (sourceText ls)) (htext' : Input inv' (sourceText ls'))
  (hknow : FilesSuffice grid part pins files ls) (hknow' : FilesSuffice grid part pins files ls')
  (hd : DescDense part) (p : Xc7.Part) (hp : Part.fromPart part = .ok p) (order : List Nat) (ho : FramesInOrder part order) (h0 : Spec.FrameOf part 0)
  (hsmall : FitsPacket p) (hdate : ShortAscii inv.date) (htime : ShortAscii inv.time) (hdate' : ShortAscii inv'.date) (htime' : ShortAscii inv'.time)
  (hin : ∀ tile feature addr block s k, WantsBit grid part pins ls tile feature addr → FileBits grid files tile feature addr block s → Fills block s k →
    Spec.FrameOf part (k % 2 ^ 32))
  (hin' : ∀ tile feature addr block s k, WantsBit grid part pins ls' tile feature addr → FileBits grid files tile feature addr block s → Fills block s k →
    Spec.FrameOf part (k % 2 ^ 32))
  (seek : Bool)
include hload hord hord' hcfg hcfg' hdb hdb' hls hls' htext htext' hknow hknow' hd hp ho h0 hsmall hdate htime hdate' htime' hin hin'

/-- Two designs in two devices of one kind, whatever these held before: a place has different contents only if it is set by a feature bit that is asked for or added
in one of the designs and not in the other; exactly, if one of the designs sets the place and the other does not.  A frame with no such place has the same contents in both. -/
theorem C137_change : ∃ fuel0, ∀ fuel ≥ fuel0, ∃ o o' file file' words words',
    main env load ord inv ⟨[], 0, seek, false⟩ fuel = some (.ok (0, o)) ∧ main env load ord' inv' ⟨[], 0, seek, false⟩ fuel = some (.ok (0, o')) ∧
    readBitFile o.bytes = some file ∧ readBitFile o'.bytes = some file' ∧
    file.config = fileBytes (List.replicate 8 0xFFFFFFFF#32 ++ [0x000000BB#32, 0x11220044#32] ++ List.replicate 2 0xFFFFFFFF#32 ++ [0xAA995566#32] ++ words) ∧
    file'.config = fileBytes (List.replicate 8 0xFFFFFFFF#32 ++ [0x000000BB#32, 0x11220044#32] ++ List.replicate 2 0xFFFFFFFF#32 ++ [0xAA995566#32] ++ words') ∧
    ∀ mem mem' k, k ∈ order →
      (∀ w b, w < 101 →
        ((Stored ((Device.run part.idcode words).memory order mem) (k, w, b) ↔ Stored ((Device.run part.idcode words').memory order mem') (k, w, b)) ↔
          (SaysBit grid part pins files ls k w b ↔ SaysBit grid part pins files ls' k w b))) ∧
      (∀ w b, w < 101 →
        ¬ (Stored ((Device.run part.idcode words).memory order mem) (k, w, b) ↔ Stored ((Device.run part.idcode words').memory order mem') (k, w, b)) →
        ∃ tile feature addr block s, ¬ (WantsBit grid part pins ls tile feature addr ↔ WantsBit grid part pins ls' tile feature addr) ∧
          FileBits grid files tile feature addr block s ∧ s.isSet = true ∧ Lies block s k w b) ∧
      ((∀ tile feature addr block s w b, ¬ (WantsBit grid part pins ls tile feature addr ↔ WantsBit grid part pins ls' tile feature addr) →
          FileBits grid files tile feature addr block s → s.isSet = true → ¬ Lies block s k w b) →
        (Device.run part.idcode words).memory order mem k = (Device.run part.idcode words').memory order mem' k) := by
  obtain ⟨f1, h1⟩ := C132_memory env load hload ord hord inv path hcfg grid part pins files ls hdb hls htext hknow hd p hp order ho h0 hsmall hdate htime hin seek
  obtain ⟨f2, h2⟩ := C132_memory env load hload ord' hord' inv' path hcfg' grid part pins files ls' hdb' hls' htext' hknow' hd p hp order ho h0 hsmall hdate' htime' hin' seek
  refine ⟨max f1 f2, fun fuel hf => ?_⟩
  obtain ⟨o, file, words, a1, a2, a3, a4, _⟩ := h1 fuel (by omega)
  obtain ⟨o', file', words', b1, b2, b3, b4, _⟩ := h2 fuel (by omega)
  refine ⟨o, o', file, file', words, words', a1, b1, a2, b2, a3, b3, fun mem mem' k hk => ?_⟩
  obtain ⟨a5, a6⟩ := (a4 mem k).1 hk
  obtain ⟨b5, b6⟩ := (b4 mem' k).1 hk
  have places : ∀ w b, w < 101 →
      ¬ (Stored ((Device.run part.idcode words).memory order mem) (k, w, b) ↔ Stored ((Device.run part.idcode words').memory order mem') (k, w, b)) →
      ∃ tile feature addr block s, ¬ (WantsBit grid part pins ls tile feature addr ↔ WantsBit grid part pins ls' tile feature addr) ∧
        FileBits grid files tile feature addr block s ∧ s.isSet = true ∧ Lies block s k w b := by
    intro w b hw hne
    refine Classical.byContradiction fun hnone => hne ?_
    have same : ∀ tile feature addr block s, FileBits grid files tile feature addr block s → s.isSet = true → Lies block s k w b →
        (WantsBit grid part pins ls tile feature addr ↔ WantsBit grid part pins ls' tile feature addr) := fun tile feature addr block s h1 h2 h3 =>
      Classical.byContradiction fun h => hnone ⟨tile, feature, addr, block, s, h, h1, h2, h3⟩
    refine (a6 w b hw).trans (Iff.trans ?_ (b6 w b hw).symm)
    constructor
    · rintro ⟨tile, feature, addr, block, s, g1, g2, g3, g4⟩
      exact ⟨tile, feature, addr, block, s, (same _ _ _ _ _ g2 g3 g4).1 g1, g2, g3, g4⟩
    · rintro ⟨tile, feature, addr, block, s, g1, g2, g3, g4⟩
      exact ⟨tile, feature, addr, block, s, (same _ _ _ _ _ g2 g3 g4).2 g1, g2, g3, g4⟩
  refine ⟨fun w b hw => ?_, places, fun hnone => ?_⟩
  · rw [show Stored ((Device.run part.idcode words).memory order mem) (k, w, b) ↔ SaysBit grid part pins files ls k w b from a6 w b hw,
      show Stored ((Device.run part.idcode words').memory order mem') (k, w, b) ↔ SaysBit grid part pins files ls' k w b from b6 w b hw]
  refine List.ext_getElem (a5.trans b5.symm) fun w hw hw' => BitVec.eq_of_getLsbD_eq fun b _ => Classical.byContradiction fun hne => ?_
  obtain ⟨tile, feature, addr, block, s, g1, g2, g3, g4⟩ := places w b (by omega) (fun h => hne (by
    have l1 := List.getElem?_eq_getElem hw
    have l2 := List.getElem?_eq_getElem hw'
    have e : ∀ (mem : Nat → List (BitVec 32)) (hw : w < (mem k).length), Stored mem (k, w, b) ↔ (mem k)[w].getLsbD b = true := fun mem hw => by
      constructor
      · rintro ⟨x, hx, hb⟩
        rw [show (mem (k, w, b).1)[(k, w, b).2.1]? = (mem k)[w]? from rfl, List.getElem?_eq_getElem hw] at hx
        cases hx
        exact hb
      · exact fun hb => ⟨_, List.getElem?_eq_getElem hw, hb⟩
    rw [e _ hw, e _ hw'] at h
    exact Bool.eq_iff_iff.2 h))
  exact hnone _ _ _ _ _ _ _ g1 g2 g3 g4

/-- If the assembler adds the same to both designs, and they differ only in what their lines say of the tiles `touched`, then the devices differ only in places that
the files give to features of these tiles. -/
theorem C137_tiles (hadd : ∀ name, Added grid part pins ls name ↔ Added grid part pins ls' name) (touched : Bytes → Prop)
    (htouch : ∀ tile feature n, 0x2e ∉ tile → ¬ ((∃ l ∈ ls, l.Sets (tile ++ 0x2e :: feature) n) ↔ ∃ l ∈ ls', l.Sets (tile ++ 0x2e :: feature) n) → touched tile) :
    ∃ fuel0, ∀ fuel ≥ fuel0, ∃ o o' file file' words words',
    main env load ord inv ⟨[], 0, seek, false⟩ fuel = some (.ok (0, o)) ∧ main env load ord' inv' ⟨[], 0, seek, false⟩ fuel = some (.ok (0, o')) ∧
    readBitFile o.bytes = some file ∧ readBitFile o'.bytes = some file' ∧
    file.config = fileBytes (List.replicate 8 0xFFFFFFFF#32 ++ [0x000000BB#32, 0x11220044#32] ++ List.replicate 2 0xFFFFFFFF#32 ++ [0xAA995566#32] ++ words) ∧
    file'.config = fileBytes (List.replicate 8 0xFFFFFFFF#32 ++ [0x000000BB#32, 0x11220044#32] ++ List.replicate 2 0xFFFFFFFF#32 ++ [0xAA995566#32] ++ words') ∧
    ∀ mem mem' k, k ∈ order →
      (∀ w b, w < 101 →
        ¬ (Stored ((Device.run part.idcode words).memory order mem) (k, w, b) ↔ Stored ((Device.run part.idcode words').memory order mem') (k, w, b)) →
        ∃ tile feature addr block s, touched tile ∧ FileBits grid files tile feature addr block s ∧ s.isSet = true ∧ Lies block s k w b) ∧
      ((∀ tile feature addr block s, touched tile → FileBits grid files tile feature addr block s → k ≠ (block.baseAddress + s.wordColumn) % 2 ^ 32) →
        (Device.run part.idcode words).memory order mem k = (Device.run part.idcode words').memory order mem' k) := by
  have touch : ∀ tile feature addr, ¬ (WantsBit grid part pins ls tile feature addr ↔ WantsBit grid part pins ls' tile feature addr) → touched tile := by
    intro tile feature addr hne
    refine Classical.byContradiction fun hnt => hne ?_
    unfold WantsBit
    refine and_congr_right fun hdot => ?_
    rw [Classical.byContradiction fun h => hnt (htouch tile feature addr hdot h), hadd]
  obtain ⟨fuel0, h⟩ := C137_change env load hload ord ord' hord hord' inv inv' path hcfg hcfg' grid part pins files ls ls' hdb hdb' hls hls' htext htext' hknow hknow' hd p hp
    order ho h0 hsmall hdate htime hdate' htime' hin hin' seek
  refine ⟨fuel0, fun fuel hf => ?_⟩
  obtain ⟨o, o', file, file', words, words', a1, b1, a2, b2, a3, b3, h⟩ := h fuel hf
  refine ⟨o, o', file, file', words, words', a1, b1, a2, b2, a3, b3, fun mem mem' k hk => ⟨fun w b hw hne => ?_, fun hnone => (h mem mem' k hk).2.2 ?_⟩⟩
  · obtain ⟨tile, feature, addr, block, s, g1, g2⟩ := (h mem mem' k hk).2.1 w b hw hne
    exact ⟨tile, feature, addr, block, s, touch _ _ _ g1, g2⟩
  · exact fun tile feature addr block s w b g1 g2 _ g4 => hnone _ _ _ _ _ (touch _ _ _ g1) g2 g4.1

end

/-- The assembler adds the same if the same STEPDOWN tags are used and the same IOB33 sites. -/
theorem C137_added {grid : TileGrid} {part : Db.Part} {pins : PackagePins} {ls ls' : List SourceLine}
    (hstep : ∀ bank tag, StepUsed grid part pins ls bank tag ↔ StepUsed grid part pins ls' bank tag)
    (hsite : ∀ bank tag, StepUsed grid part pins ls bank tag → ∀ tile site, SiteUsed grid ls tile site ↔ SiteUsed grid ls' tile site) (name : Bytes) :
    Added grid part pins ls name ↔ Added grid part pins ls' name := by
  constructor
  · intro h
    cases h with
    | pudc h => exact .pudc h
    | site h1 h2 h3 h4 h5 h6 h7 => exact .site ((hstep _ _).1 h1) h2 h3 h4 h5 h6 (fun h => h7 ((hsite _ _ h1 _ _).2 h))
    | bank h1 h2 h3 => exact .bank ((hstep _ _).1 h1) h2 h3
  · intro h
    cases h with
    | pudc h => exact .pudc h
    | site h1 h2 h3 h4 h5 h6 h7 => exact .site ((hstep _ _).2 h1) h2 h3 h4 h5 h6 (fun h => h7 ((hsite _ _ ((hstep _ _).2 h1) _ _).1 h))
    | bank h1 h2 h3 => exact .bank ((hstep _ _).2 h1) h2 h3

/-! ## The yard -/

/-- `IOB33.IOB_Y0.STEPDOWN` against the empty design: only frames 1 and 3 can differ. -/
example (load : LoadOrder) (hload : LoadOk load) (ord ord' : HashOrder) (hord : Permutes ord) (hord' : Permutes ord') (order : List Nat) (ho : FramesInOrder smallDesc order) :
    ∃ fuel0, ∀ fuel ≥ fuel0, ∃ o o' file file' words words',
      main yardEnv load ord yardInv ⟨[], 0, true, false⟩ fuel = some (.ok (0, o)) ∧
      main yardEnv load ord' { yardInv with stdin := [] } ⟨[], 0, true, false⟩ fuel = some (.ok (0, o')) ∧
      readBitFile o.bytes = some file ∧ readBitFile o'.bytes = some file' ∧
      file.config = fileBytes (List.replicate 8 0xFFFFFFFF#32 ++ [0x000000BB#32, 0x11220044#32] ++ List.replicate 2 0xFFFFFFFF#32 ++ [0xAA995566#32] ++ words) ∧
      file'.config = fileBytes (List.replicate 8 0xFFFFFFFF#32 ++ [0x000000BB#32, 0x11220044#32] ++ List.replicate 2 0xFFFFFFFF#32 ++ [0xAA995566#32] ++ words') ∧
      ∀ mem mem' k, k ∈ order → k ≠ 1 → k ≠ 3 →
        (Device.run smallDesc.idcode words).memory order mem k = (Device.run smallDesc.idcode words').memory order mem' k := by
  have hin : ∀ tile feature addr block s k, WantsBit yardGrid smallDesc yardPins [yardStep] tile feature addr → FileBits yardGrid (fun _ => yardContents) tile feature addr block s →
      Fills block s k → Spec.FrameOf smallDesc (k % 2 ^ 32) := fun tile feature addr block s k hw hl hf => by
    have hk := yard_inside hw hl hf
    rw [Nat.mod_eq_of_lt (by omega)]
    exact ⟨.clbIoClk, false, 0, 0, k, 36, rfl, hk, by simp [busNumber]⟩
  obtain ⟨fuel0, h⟩ := C137_change yardEnv load hload ord ord' hord hord' yardInv { yardInv with stdin := [] } bytes!"d" ⟨by decide, Or.inr ⟨rfl, rfl⟩, by decide, by decide, by decide⟩
    ⟨by decide, Or.inr ⟨rfl, rfl⟩, by decide, by decide, by decide⟩ yardGrid smallDesc yardPins (fun _ => yardContents) [yardStep] [] yard_files bare_files yard_ok
    (fun l hl => by cases hl) (Or.inr ⟨fun _ _ h => by simp [yardInv, fileInv] at h, rfl⟩) (Or.inr ⟨fun _ _ h => by simp [yardInv, fileInv] at h, rfl⟩) yard_suffice bare_suffice
    smallDesc_dense _ rfl order ho small_zero smallDesc_packet (by unfold ShortAscii; decide) (by unfold ShortAscii; decide) (by unfold ShortAscii; decide) (by unfold ShortAscii; decide) hin
    (fun tile feature addr block s k hw => hin tile feature addr block s k (bare_wants hw).1) true
  refine ⟨fuel0, fun fuel hf => ?_⟩
  obtain ⟨o, o', file, file', words, words', a1, b1, a2, b2, a3, b3, h⟩ := h fuel hf
  refine ⟨o, o', file, file', words, words', a1, b1, a2, b2, a3, b3, fun mem mem' k hk h1 h3 => (h mem mem' k hk).2.2 ?_⟩
  intro tile feature addr block s w b hne hl _ hlies
  have hall : ∀ e ∈ yardAll, ((e.2.2.2.1.baseAddress + e.2.2.2.2.wordColumn) % 2 ^ 32 = 1 ∨ (e.2.2.2.1.baseAddress + e.2.2.2.2.wordColumn) % 2 ^ 32 = 3) ∨
      (e.1 ++ 0x2e :: e.2.1 = bytes!"P." ++ yardOnly ∨ e.1 ++ 0x2e :: e.2.1 = bytes!"P." ++ yardIn ∨ e.1 ++ 0x2e :: e.2.1 = bytes!"P." ++ yardPull) := by decide +kernel
  have hw : WantsBit yardGrid smallDesc yardPins [yardStep] tile feature addr :=
    Classical.byContradiction fun h => hne ⟨fun h' => absurd h' h, fun h' => absurd (bare_wants h').1 h⟩
  obtain ⟨rfl, f, block', s', hm⟩ := yard_all hw
  obtain ⟨rfl, rfl⟩ := (yard_lists _ _ _ _ _ hm _ _).1 hl
  obtain ⟨e1, _, _⟩ := (yard_lies _ _ _ _ _ hm _ _ _).1 hlies
  rcases hall _ hm with h | h
  · dsimp only at h
    omega
  · exact hne ⟨fun _ => ⟨hw.1, Or.inr ⟨rfl, .pudc ((yard_pudc _).2 h)⟩⟩, fun _ => hw⟩

/-! Lines for the PUDC_B pin only. -/

section
variable {ls : List SourceLine} (h : ∀ l ∈ ls, ∀ name n, l.Sets name n → PudcName yardGrid name ∧ n = 0)
include h

theorem only_use {name : Bytes} (hu : InUse yardGrid ls name) : PudcName yardGrid name := by
  rcases hu with ⟨l, hl, n, hs⟩ | hu
  · exact (h l hl name n hs).1
  · exact hu

theorem only_step (bank : Nat) (tag : Bytes) : ¬ StepUsed yardGrid smallDesc yardPins ls bank tag := by
  rintro ⟨name, tile, site, h1, h2⟩
  exact bare_step bank tag ⟨name, tile, site, Or.inr (only_use h h1), h2⟩

theorem only_added {name : Bytes} (ha : Added yardGrid smallDesc yardPins ls name) : PudcName yardGrid name := by
  cases ha with
  | pudc h => exact h
  | site h1 _ _ _ _ _ _ => exact absurd h1 (only_step h _ _)
  | bank h1 _ _ => exact absurd h1 (only_step h _ _)

theorem only_wants {tile feature : Bytes} {addr : Nat} (hw : WantsBit yardGrid smallDesc yardPins ls tile feature addr) :
    WantsBit yardGrid smallDesc yardPins [] tile feature addr := by
  obtain ⟨h0, ⟨l, hl, hs⟩ | ⟨h1, ha⟩⟩ := hw
  · obtain ⟨h2, h3⟩ := h l hl _ _ hs
    exact ⟨h0, Or.inr ⟨h3, .pudc h2⟩⟩
  · exact ⟨h0, Or.inr ⟨h1, .pudc (only_added h ha)⟩⟩

theorem only_files : WholeFiles yardEnv bytes!"d" bytes!"p" yardGrid smallDesc yardPins (fun _ => yardContents) ls :=
  ⟨yard_files.dir, yard_files.listed, fun tile feature addr t ty f hw => yard_files.types tile feature addr t ty f (bare_wants (only_wants h hw)).1, yard_files.settled⟩

theorem only_suffice : FilesSuffice yardGrid smallDesc yardPins (fun _ => yardContents) ls where
  banks name tile site tag h1 := yard_suffice.banks name tile site tag (Or.inr (only_use h h1))
  sites _ _ _ h1 := absurd h1 (only_step h _ _)
  bits tile feature addr hw := yard_suffice.bits tile feature addr (bare_wants (only_wants h hw)).1
  pudc := yard_suffice.pudc

end

/-- The empty design against one with a line about the tile `P`: the frames of which `P` has none are the same. -/
example (load : LoadOrder) (hload : LoadOk load) (ord ord' : HashOrder) (hord : Permutes ord) (hord' : Permutes ord') (order : List Nat) (ho : FramesInOrder smallDesc order) :
    ∃ fuel0, ∀ fuel ≥ fuel0, ∃ o o' file file' words words',
      main yardEnv load ord { yardInv with stdin := [] } ⟨[], 0, true, false⟩ fuel = some (.ok (0, o)) ∧
      main yardEnv load ord' { yardInv with stdin := sourceText [plainBit (bytes!"P." ++ yardOnly) 0] } ⟨[], 0, true, false⟩ fuel = some (.ok (0, o')) ∧
      readBitFile o.bytes = some file ∧ readBitFile o'.bytes = some file' ∧
      file.config = fileBytes (List.replicate 8 0xFFFFFFFF#32 ++ [0x000000BB#32, 0x11220044#32] ++ List.replicate 2 0xFFFFFFFF#32 ++ [0xAA995566#32] ++ words) ∧
      file'.config = fileBytes (List.replicate 8 0xFFFFFFFF#32 ++ [0x000000BB#32, 0x11220044#32] ++ List.replicate 2 0xFFFFFFFF#32 ++ [0xAA995566#32] ++ words') ∧
      ∀ mem mem' k, k ∈ order →
        (∀ tile feature addr block s, tile = bytes!"P" → FileBits yardGrid (fun _ => yardContents) tile feature addr block s → k ≠ (block.baseAddress + s.wordColumn) % 2 ^ 32) →
        (Device.run smallDesc.idcode words).memory order mem k = (Device.run smallDesc.idcode words').memory order mem' k := by
  have hin : ∀ tile feature addr block s k, WantsBit yardGrid smallDesc yardPins [] tile feature addr → FileBits yardGrid (fun _ => yardContents) tile feature addr block s →
      Fills block s k → Spec.FrameOf smallDesc (k % 2 ^ 32) := fun tile feature addr block s k hw hl hf => by
    have hk := yard_inside (bare_wants hw).1 hl hf
    rw [Nat.mod_eq_of_lt (by omega)]
    exact ⟨.clbIoClk, false, 0, 0, k, 36, rfl, hk, by simp [busNumber]⟩
  obtain ⟨g1, _, g3⟩ := plainBit_ok (name := bytes!"P." ++ yardOnly) (n := 0) (by decide +kernel) (by unfold NameChar; decide +kernel) (by decide)
  have hsets : ∀ l ∈ [plainBit (bytes!"P." ++ yardOnly) 0], ∀ name n, l.Sets name n → PudcName yardGrid name ∧ n = 0 := by
    intro l hl name n hs
    obtain rfl := List.mem_singleton.1 hl
    obtain ⟨rfl, rfl⟩ := (g3 _ _).1 hs
    exact ⟨(yard_pudc _).2 (Or.inl rfl), rfl⟩
  have hempty : ∀ l ∈ ([] : List SourceLine), ∀ name n, l.Sets name n → PudcName yardGrid name ∧ n = 0 := fun l hl => by cases hl
  obtain ⟨fuel0, h⟩ := C137_tiles yardEnv load hload ord ord' hord hord' { yardInv with stdin := [] } { yardInv with stdin := sourceText [plainBit (bytes!"P." ++ yardOnly) 0] } bytes!"d"
    ⟨by decide, Or.inr ⟨rfl, rfl⟩, by decide, by decide, by decide⟩
    ⟨by decide, Or.inr ⟨rfl, rfl⟩, by decide, by decide, by decide⟩ yardGrid smallDesc yardPins (fun _ => yardContents) [] [plainBit (bytes!"P." ++ yardOnly) 0] bare_files (only_files hsets)
    (fun l hl => by cases hl) (fun l hl => by
      obtain rfl := List.mem_singleton.1 hl
      exact ⟨g1, show (0x2e : UInt8) ∈ bytes!"P." ++ yardOnly by decide +kernel⟩)
    (Or.inr ⟨fun _ _ h => by simp [yardInv, fileInv] at h, rfl⟩) (Or.inr ⟨fun _ _ h => by simp [yardInv, fileInv] at h, rfl⟩) bare_suffice (only_suffice hsets)
    smallDesc_dense _ rfl order ho small_zero smallDesc_packet (by unfold ShortAscii; decide) (by unfold ShortAscii; decide) (by unfold ShortAscii; decide) (by unfold ShortAscii; decide) hin
    (fun tile feature addr block s k hw => hin tile feature addr block s k (only_wants hsets hw)) true
    (C137_added (fun _ _ => ⟨fun h => absurd h (only_step hempty _ _), fun h => absurd h (only_step hsets _ _)⟩) (fun _ _ h => absurd h (only_step hempty _ _)))
    (· = bytes!"P") (fun tile feature n hdot hne => Classical.byContradiction fun htile => hne ⟨(fun ⟨l, hl, _⟩ => by cases hl), fun ⟨l, hl, hs⟩ => by
      obtain rfl := List.mem_singleton.1 hl
      obtain ⟨e, _⟩ := (g3 _ _).1 hs
      exact absurd (first_dot hdot (by decide) (e.trans (show bytes!"P." ++ yardOnly = bytes!"P" ++ 0x2e :: yardOnly by decide +kernel))).1 htile⟩)
  refine ⟨fuel0, fun fuel hf => ?_⟩
  obtain ⟨o, o', file, file', words, words', a1, b1, a2, b2, a3, b3, h⟩ := h fuel hf
  exact ⟨o, o', file, file', words, words', a1, b1, a2, b2, a3, b3, fun mem mem' k hk => (h mem mem' k hk).2⟩

end Verif.Props
