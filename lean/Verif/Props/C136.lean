import Verif.Props.C135
/-! # C136: reading a design back from a device -/
namespace Verif.Props
open Verif.Db Verif.Asm Verif.Spec Verif.Text Verif.Xc7

/-- Lines for the feature bits whose places are set, as one would print them. -/
theorem disassembly (voc : List (Bytes × Bytes × Nat)) (place : Bytes × Bytes × Nat → Nat × Nat × Nat) (mem : Nat → List (BitVec 32))
    (hvoc : ∀ e ∈ voc, (∀ c ∈ e.1, NameChar c) ∧ (∀ c ∈ e.2.1, NameChar c) ∧ e.2.2 < 65536) : ∃ ls : List SourceLine,
    (∀ l ∈ ls, l.Ok ∧ l.Dotted ∧ ∃ name n, PlainBit name n l) ∧ Disassembles voc place mem ls := by
  classical
  have plain : ∀ e ∈ voc, (plainBit (e.1 ++ 0x2e :: e.2.1) e.2.2).Ok ∧ PlainBit (e.1 ++ 0x2e :: e.2.1) e.2.2 (plainBit (e.1 ++ 0x2e :: e.2.1) e.2.2) ∧
      ∀ name' n', (plainBit (e.1 ++ 0x2e :: e.2.1) e.2.2).Sets name' n' ↔ name' = e.1 ++ 0x2e :: e.2.1 ∧ n' = e.2.2 := by
    intro e he
    obtain ⟨h1, h2, h3⟩ := hvoc e he
    refine plainBit_ok (by simp) (fun c hc => ?_) h3
    rcases List.mem_append.1 hc with hc | hc
    · exact h1 c hc
    rcases List.mem_cons.1 hc with rfl | hc
    · decide
    · exact h2 c hc
  refine ⟨(voc.filter fun e => decide (Stored mem (place e))).map fun e => plainBit (e.1 ++ 0x2e :: e.2.1) e.2.2, fun l hl => ?_, fun name n => ?_⟩
  · obtain ⟨e, he, rfl⟩ := List.mem_map.1 hl
    obtain ⟨p1, p2, _⟩ := plain e (List.mem_filter.1 he).1
    exact ⟨p1, (show (0x2e : UInt8) ∈ e.1 ++ 0x2e :: e.2.1 by simp), _, _, p2⟩
  · constructor
    · rintro ⟨l, hl, hs⟩
      obtain ⟨e, he, rfl⟩ := List.mem_map.1 hl
      obtain ⟨h1, h2⟩ := List.mem_filter.1 he
      obtain ⟨h3, h4⟩ := ((plain e h1).2.2 _ _).1 hs
      exact ⟨e, h1, h3, h4, by simpa using h2⟩
    · rintro ⟨e, h1, h3, h4, h2⟩
      exact ⟨_, List.mem_map.2 ⟨e, List.mem_filter.2 ⟨h1, by simpa using h2⟩, rfl⟩, ((plain e h1).2.2 _ _).2 ⟨h3, h4⟩⟩

section
variable (env : Env) (load : LoadOrder) (hload : LoadOk load) (ord : HashOrder) (hord : Permutes ord) (inv : Invocation) (path : Bytes)
  (hcfg : Configured env inv path) (grid : TileGrid) (part : Db.Part) (pins : PackagePins) (files : Bytes → TypeContents) (ls : List SourceLine)
  (hdb : WholeFiles env path inv.part grid part pins files ls) (hls : ∀ l ∈ ls, l.Ok ∧ l.Dotted) (htext : Input inv (sourceText ls))
  (hknow : FilesSuffice grid part pins files ls) (hd : DescDense part) (p : Xc7.Part) (hp : Part.fromPart part = .ok p)
  (order : List Nat) (ho : FramesInOrder part order) (h0 : Spec.FrameOf part 0)
  (hsmall : FitsPacket p) (hdate : ShortAscii inv.date) (htime : ShortAscii inv.time)
  (hin : ∀ tile feature addr block s k, WantsBit grid part pins ls tile feature addr → FileBits grid files tile feature addr block s → Fills block s k →
    Spec.FrameOf part (k % 2 ^ 32))
  (voc : List (Bytes × Bytes × Nat)) (place : Bytes × Bytes × Nat → Nat × Nat × Nat) (hvoc : Vocabulary grid files voc place order)
  (hask : ∀ tile feature addr, WantsBit grid part pins ls tile feature addr → (tile, feature, addr) ∈ voc)
  (seek : Bool)
include hload hord hcfg hdb hls htext hknow hd hp ho h0 hsmall hdate htime hin hvoc hask

/-- In the memory of a device loaded with the bitstream, whatever it held before, the place of a feature bit is set exactly when the design asks for the bit or the assembler adds it.
Lines printed for the places that are set are a file that assembles to the same bitstream. -/
theorem C136_device (hapart : BanksApart part pins) : ∃ fuel0, ∀ fuel ≥ fuel0, ∃ o file words,
    main env load ord inv ⟨[], 0, seek, false⟩ fuel = some (.ok (0, o)) ∧
    readBitFile o.bytes = some file ∧
    file.config = fileBytes (List.replicate 8 0xFFFFFFFF#32 ++ [0x000000BB#32, 0x11220044#32] ++
      List.replicate 2 0xFFFFFFFF#32 ++ [0xAA995566#32] ++ words) ∧
    ∀ mem, (∀ e ∈ voc, Stored ((Device.run part.idcode words).memory order mem) (place e) ↔ WantsBit grid part pins ls e.1 e.2.1 e.2.2) ∧
      ∀ (full : List SourceLine) (ord' : HashOrder) (inv' : Invocation), Permutes ord' → Configured env inv' path → inv'.part = inv.part → inv'.date = inv.date → inv'.time = inv.time →
        (∀ l ∈ full, l.Ok ∧ l.Dotted) → Disassembles voc place ((Device.run part.idcode words).memory order mem) full → Input inv' (sourceText full) →
        main env load ord' inv' ⟨[], 0, seek, false⟩ fuel = some (.ok (0, o)) := by
  obtain ⟨fuel0, h⟩ := C132_memory env load hload ord hord inv path hcfg grid part pins files ls hdb hls htext hknow hd p hp order ho h0 hsmall hdate htime hin seek
  refine ⟨fuel0, fun fuel hf => ?_⟩
  obtain ⟨o, file, words, a1, a2, a3, a4, _⟩ := h fuel hf
  refine ⟨o, file, words, a1, a2, a3, fun mem => ?_⟩
  have tells : ∀ e ∈ voc, Stored ((Device.run part.idcode words).memory order mem) (place e) ↔ WantsBit grid part pins ls e.1 e.2.1 e.2.2 := by
    intro e he
    obtain ⟨⟨block, s, g1, g2, g3⟩, g4⟩ := hvoc.own e he
    obtain ⟨i1, i2⟩ := hvoc.inside e he
    refine (((a4 mem _).1 i1).2 _ _ i2).trans ⟨?_, fun hw => ⟨_, _, _, block, s, hw, g1, g2, g3⟩⟩
    rintro ⟨tile, feature, addr, block', s', h1, h2, h3, h4⟩
    obtain ⟨rfl, rfl, rfl⟩ := g4 _ _ _ _ _ (hask _ _ _ h1) h2 h3 h4
    exact h1
  refine ⟨tells, fun full ord' inv' hord' hcfg' hpart hdate' htime' hfull hdis htext' => ?_⟩
  have hout : WritesOut grid part pins ls full := by
    intro tile feature addr hdot
    rw [hdis]
    constructor
    · rintro ⟨e, he, h1, rfl, h2⟩
      obtain ⟨rfl, rfl⟩ := first_dot hdot (hvoc.dots e he) h1
      exact (tells e he).1 h2
    · intro hw
      exact ⟨_, hask _ _ _ hw, rfl, rfl, (tells _ (hask _ _ _ hw)).2 hw⟩
  exact (C134_program env load hload ord ord' hord hord' inv inv' path hcfg hcfg' hpart hdate' htime' grid part pins files ls full hdb hls hfull htext htext' hapart hout _ o fuel).1 a1

end

/-! ## The yard -/

/-- The five feature bits of the yard. -/
def yardVoc : List (Bytes × Bytes × Nat) := yardAsked.map fun e => (e.1, e.2.1, 0)

/-- Where each of them lies. -/
def yardAt (e : Bytes × Bytes × Nat) : Nat × Nat × Nat :=
  match yardAll.find? fun x => x.1 == e.1 && x.2.1 == e.2.1 with
  | some x => ((x.2.2.2.1.baseAddress + x.2.2.2.2.wordColumn) % 2 ^ 32, bitPos x.2.2.2.1 x.2.2.2.2 / 32, bitPos x.2.2.2.1 x.2.2.2.2 % 32)
  | none => (0, 0, 0)

theorem yard_voc (tile feature : Bytes) (addr : Nat) : (tile, feature, addr) ∈ yardVoc ↔ WantsBit yardGrid smallDesc yardPins [yardStep] tile feature addr := by
  rw [yard_wants]
  unfold yardVoc
  rw [List.mem_map]
  constructor
  · rintro ⟨e, he, h⟩
    obtain ⟨h1, h2⟩ := Prod.mk.inj h
    obtain ⟨h2, h3⟩ := Prod.mk.inj h2
    exact ⟨h3.symm, e, he, h1.symm, h2.symm⟩
  · rintro ⟨rfl, e, he, rfl, rfl⟩
    exact ⟨e, he, rfl⟩

theorem yard_vocabulary {order : List Nat} (ho : FramesInOrder smallDesc order) : Vocabulary yardGrid (fun _ => yardContents) yardVoc yardAt order where
  dots := by decide +kernel
  own e he := by
    have apart : ∀ e ∈ yardAll, ∀ e' ∈ yardAll,
        (e.2.2.2.1.baseAddress + e.2.2.2.2.wordColumn) % 2 ^ 32 = (e'.2.2.2.1.baseAddress + e'.2.2.2.2.wordColumn) % 2 ^ 32 →
        bitPos e.2.2.2.1 e.2.2.2.2 / 32 = bitPos e'.2.2.2.1 e'.2.2.2.2 / 32 → bitPos e.2.2.2.1 e.2.2.2.2 % 32 = bitPos e'.2.2.2.1 e'.2.2.2.2 % 32 →
        e'.1 = e.1 ∧ e'.2.1 = e.2.1 := by decide +kernel
    have isset : ∀ e ∈ yardAll, e.2.2.2.2.isSet = true ∧
        yardAt (e.1, e.2.1, 0) = ((e.2.2.2.1.baseAddress + e.2.2.2.2.wordColumn) % 2 ^ 32, bitPos e.2.2.2.1 e.2.2.2.2 / 32, bitPos e.2.2.2.1 e.2.2.2.2 % 32) := by decide +kernel
    obtain ⟨tile, feature, addr⟩ := e
    obtain ⟨rfl, f, block, s, hm⟩ := yard_all ((yard_voc _ _ _).1 he)
    obtain ⟨i1, i2⟩ := isset _ hm
    dsimp only at i1 i2
    rw [i2]
    refine ⟨⟨block, s, (yard_lists _ _ _ _ _ hm _ _).2 ⟨rfl, rfl⟩, i1, (yard_lies _ _ _ _ _ hm _ _ _).2 ⟨rfl, rfl, rfl⟩⟩, fun tile' feature' addr' block' s' h1 h2 _ h4 => ?_⟩
    obtain ⟨rfl, f', block2, s2, hm'⟩ := yard_all ((yard_voc _ _ _).1 h1)
    obtain ⟨rfl, rfl⟩ := (yard_lists _ _ _ _ _ hm' _ _).1 h2
    obtain ⟨e1, e2, e3⟩ := (yard_lies _ _ _ _ _ hm' _ _ _).1 h4
    obtain ⟨g1, g2⟩ := apart _ hm _ hm' e1 e2 e3
    exact ⟨g1, g2, rfl⟩
  inside e he := by
    have small : ∀ e ∈ yardVoc, (yardAt e).1 < 36 ∧ (yardAt e).2.1 < 101 := by decide +kernel
    obtain ⟨h1, h2⟩ := small e he
    exact ⟨(ho.2 _).2 ⟨.clbIoClk, false, 0, 0, _, 36, rfl, h1, by simp [busNumber]⟩, h2⟩

/-- The design `IOB33.IOB_Y0.STEPDOWN`: read back from a device, it comes out as the five features that were asked for or added, and these assemble to the same bitstream. -/
example (load : LoadOrder) (hload : LoadOk load) (ord : HashOrder) (hord : Permutes ord) (order : List Nat) (ho : FramesInOrder smallDesc order) :
    ∃ fuel0, ∀ fuel ≥ fuel0, ∃ o file words,
      main yardEnv load ord yardInv ⟨[], 0, true, false⟩ fuel = some (.ok (0, o)) ∧
      readBitFile o.bytes = some file ∧
      file.config = fileBytes (List.replicate 8 0xFFFFFFFF#32 ++ [0x000000BB#32, 0x11220044#32] ++
        List.replicate 2 0xFFFFFFFF#32 ++ [0xAA995566#32] ++ words) ∧
      ∀ mem, ∃ full, Disassembles yardVoc yardAt ((Device.run smallDesc.idcode words).memory order mem) full ∧
        (∀ name n, (∃ l ∈ full, l.Sets name n) ↔ n = 0 ∧ ∃ e ∈ yardAsked, name = e.1 ++ 0x2e :: e.2.1) ∧
        main yardEnv load ord { yardInv with stdin := sourceText full } ⟨[], 0, true, false⟩ fuel = some (.ok (0, o)) := by
  have hin : ∀ tile feature addr block s k, WantsBit yardGrid smallDesc yardPins [yardStep] tile feature addr → FileBits yardGrid (fun _ => yardContents) tile feature addr block s →
      Fills block s k → Spec.FrameOf smallDesc (k % 2 ^ 32) := fun tile feature addr block s k hw hl hf => by
    have hk := yard_inside hw hl hf
    rw [Nat.mod_eq_of_lt (by omega)]
    exact ⟨.clbIoClk, false, 0, 0, k, 36, rfl, hk, by simp [busNumber]⟩
  obtain ⟨fuel0, h⟩ := C136_device yardEnv load hload ord hord yardInv bytes!"d" ⟨by decide, Or.inr ⟨rfl, rfl⟩, by decide, by decide, by decide⟩
    yardGrid smallDesc yardPins (fun _ => yardContents) [yardStep] yard_files yard_ok (Or.inr ⟨fun _ _ h => by simp [yardInv, fileInv] at h, rfl⟩) yard_suffice
    smallDesc_dense _ rfl order ho small_zero smallDesc_packet (by unfold ShortAscii; decide) (by unfold ShortAscii; decide) hin
    yardVoc yardAt (yard_vocabulary ho) (fun _ _ _ h => (yard_voc _ _ _).2 h) true yard_apart
  refine ⟨fuel0, fun fuel hf => ?_⟩
  obtain ⟨o, file, words, a1, a2, a3, a4⟩ := h fuel hf
  refine ⟨o, file, words, a1, a2, a3, fun mem => ?_⟩
  obtain ⟨b1, b2⟩ := a4 mem
  obtain ⟨full, c1, c2⟩ := disassembly yardVoc yardAt ((Device.run smallDesc.idcode words).memory order mem) (by
    have names : ∀ e ∈ yardVoc, (∀ c ∈ e.1, NameChar c) ∧ (∀ c ∈ e.2.1, NameChar c) ∧ e.2.2 < 65536 := by
      intro e he
      have hn : ∀ e ∈ yardAsked, ∀ c ∈ e.1 ++ 0x2e :: e.2.1, NameChar c := by unfold NameChar; decide +kernel
      obtain ⟨x, hx, rfl⟩ := List.mem_map.1 he
      exact ⟨fun c hc => hn x hx c (List.mem_append_left _ hc), fun c hc => hn x hx c (List.mem_append_right _ (List.mem_cons_of_mem _ hc)), (by decide : 0 < 65536)⟩
    exact names)
  refine ⟨full, c2, fun name n => ?_, b2 full ord _ hord
    (show Configured yardEnv yardInv bytes!"d" from ⟨by decide, Or.inr ⟨rfl, rfl⟩, by decide, by decide, by decide⟩) rfl rfl rfl
    (fun l hl => ⟨(c1 l hl).1, (c1 l hl).2.1⟩) c2 (Or.inr ⟨fun _ _ h => by simp [yardInv, fileInv] at h, rfl⟩)⟩
  rw [c2]
  constructor
  · rintro ⟨e, he, h1, h2, _⟩
    obtain ⟨x, hx, rfl⟩ := List.mem_map.1 he
    exact ⟨h2, x, hx, h1⟩
  · rintro ⟨rfl, x, hx, rfl⟩
    have hv : (x.1, x.2.1, 0) ∈ yardVoc := List.mem_map.2 ⟨x, hx, rfl⟩
    exact ⟨_, hv, rfl, rfl, (b1 _ hv).2 ((yard_voc _ _ _).1 hv)⟩

end Verif.Props
