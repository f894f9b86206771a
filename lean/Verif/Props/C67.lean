import Verif.Props.C66
import Verif.Props.C63
/-! # C67: the program as a whole -/
namespace Verif.Props
open Verif.Db Verif.Spec Verif.Asm Verif.Xc7 Verif.Text

/-- For every part whose coordinates fit the address fields, with or without holes: as `C67_device`, for the frames the walk
from address 0 reaches; base addresses count modulo 2^32. -/
theorem C67_gaps (env : Env) (load : LoadOrder) (hload : LoadOk load) (ord : HashOrder) (hord : Permutes ord) (inv : Invocation)
    (db : PartDatabase) (text : Bytes) (hstart : Starts env load inv db text)
    (hasm : Assembles db.tiles text)
    (hd : DescFits db.tiles.part) (p : Xc7.Part) (hp : Part.fromPart db.tiles.part = .ok p)
    (hsmall : FitsPacket p) (hdate : ShortAscii inv.date) (htime : ShortAscii inv.time)
    (hin : ∀ k, TouchesFrame db.tiles (Design db.tiles text) k → ∃ a, Reached p a ∧ a.toNat = k % 2 ^ 32)
    (seek : Bool) :
    ∃ walk : BMap (FrameWords 101), WalkFrom p 0#32 walk ∧
      (∀ k, k ∈ walk.map (·.1) ↔ ∃ a, Reached p a ∧ a.toNat = k) ∧
      ∃ fuel0, ∀ fuel ≥ fuel0, ∃ o file words data,
        main env load ord inv ⟨[], 0, seek, false⟩ fuel = some (.ok (0, o)) ∧
        readBitFile o.bytes = some file ∧
        -- fpga-source;Generator=fpga-assembler
        file.design = bytes!"fpga-source;Generator=fpga-assembler\x00" ∧
        -- fasm
        file.part = bytes!"fasm\x00" ∧ file.date = inv.date ++ [0] ∧ file.time = inv.time ++ [0] ∧
        file.config = fileBytes (List.replicate 8 0xFFFFFFFF#32 ++ [0x000000BB#32, 0x11220044#32] ++
          List.replicate 2 0xFFFFFFFF#32 ++ [0xAA995566#32] ++ words) ∧
        (∀ id, Device.run id words =
          if id = p.idcode then
            { idChecked := true, loaded := [(0, data)], lastFrame := true, started := true, desynced := true,
              cmd := 13, far := 0x3be0000, mask := 0x501, ctl0 := 0x501, cor0 := 0x02003FE5 }
          else
            { idError := true, refused := true, desynced := true,
              cmd := 13, far := 0x3be0000, mask := 0x501, ctl0 := 0x501, cor0 := 0x02003FE5 }) ∧
        data.length = (walk.length + 2 * rowEnds p walk + 2) * 101 ∧
        ∀ (i k : Nat), (walk.map (·.1))[i]? = some k → ∀ w b, w < 101 →
          ((∃ x, data[slot 101 p walk i + w]? = some x ∧ x.getLsbD b = true) ↔
            ∃ tile call, Lists db.tiles (Design db.tiles text) tile call ∧ call.value = true ∧
              call.frame = k ∧ call.word = w ∧ call.index = b) := by
  obtain ⟨_, _, _, path, _, _, _, hparse⟩ := id hstart
  obtain ⟨hok, hfresh⟩ := C45_loaded env load hload _ _ db hparse
  obtain ⟨db', frames0, ha, hreach, hs0, hbits0, hframes0⟩ := assemble_ok hok ord hord text db hfresh hasm
  obtain ⟨hs, hbits, hframes⟩ := narrow_design hs0 hbits0 hframes0
  have hnarrow := encode_narrow db.tiles.part kFasm kSource inv.date inv.time frames0
  generalize convertFrames [] frames0 = frames at hs hbits hframes hnarrow
  replace hin : ∀ k, FramePresent frames k → ∃ a, Reached p a ∧ a.toNat = k := by
    intro k hk
    obtain ⟨k0, h0, rfl⟩ := (hframes k).1 hk
    exact hin k0 h0
  obtain ⟨m, hsm, hw, hget, fuel0, henc⟩ := C63_file db.tiles.part hd p hp hsmall kFasm kSource inv.date inv.time seek
    (by
      intro s hs
      simp only [List.mem_cons, List.not_mem_nil, or_false] at hs
      rcases hs with rfl | rfl | rfl | rfl
      · unfold ShortAscii; decide
      · unfold ShortAscii; decide
      · exact hdate
      · exact htime)
    frames hs (fun k f hkf => hin k ⟨f, hkf⟩)
  have hmem : ∀ k, k ∈ m.map (·.1) ↔ ∃ f, m.get? k = some f := by
    intro k
    rw [List.mem_map]
    constructor
    · rintro ⟨e, he, rfl⟩
      cases hg : m.get? e.1 with
      | some f => exact ⟨f, rfl⟩
      | none =>
        rw [BMap.get?_eq_none, BMap.find_eq_nil] at hg
        exact absurd rfl (hg e he)
    · rintro ⟨f, hf⟩
      exact ⟨(k, f), BMap.mem_of_get? hf, rfl⟩
  refine ⟨m, hw, ?_, fuel0, fun fuel hf => ?_⟩
  · intro k
    rw [hmem]
    constructor
    · rintro ⟨f, hf⟩
      rcases (hget k f).1 hf with h | ⟨_, _, a, ha, rfl⟩
      · exact hin k ⟨f, BMap.mem_of_get? h⟩
      · exact ⟨a, ha, rfl⟩
    · intro hr
      cases hfr : frames.get? k with
      | none => exact ⟨_, (hget k _).2 (Or.inr ⟨hfr, rfl, hr⟩)⟩
      | some f => exact ⟨f, (hget k _).2 (Or.inl hfr)⟩
  · obtain ⟨o, file, words, data, h1, h2, hdes, hpart, hda, hti, h3, h4, h5, h6⟩ := henc fuel hf
    refine ⟨o, file, words, data, main_started env load ord inv _ fuel db text hstart db' frames0 ha o
      (by rw [(reachable_cache hreach).1, hnarrow]; exact h1), h2, hdes, hpart, hda, hti, h3, h6, h4, ?_⟩
    intro i k hik w b hwlt
    rw [List.getElem?_map, Option.map_eq_some_iff] at hik
    obtain ⟨⟨k', f⟩, hmi, rfl⟩ := hik
    have h7 := h5 i k' f hmi
    have h8 : data[slot 101 p m i + w]? = f[w]? := by
      have : ((data.drop (slot 101 p m i)).take 101)[w]? = f.toList[w]? := by rw [h7]
      rw [List.getElem?_take_of_lt hwlt, List.getElem?_drop, Vector.getElem?_toList] at this
      exact this
    rw [h8, ← hbits]
    have hms : m.get? k' = some f := BMap.get?_of_mem hsm (List.mem_of_getElem? hmi)
    dsimp only
    rcases (hget k' f).1 hms with h | ⟨hn, rfl, _⟩
    · constructor
      · rintro ⟨x, hx, hb⟩
        exact ⟨f, x, BMap.mem_of_get? h, hx, hb⟩
      · rintro ⟨f', x, hf', hx, hb⟩
        have e : some f = some f' := h.symm.trans (BMap.get?_of_mem hs hf')
        cases e
        exact ⟨x, hx, hb⟩
    · constructor
      · rintro ⟨x, hx, hb⟩
        have hx : (Vector.replicate 101 0#32)[w]? = some x := hx
        rw [Vector.getElem?_replicate, if_pos hwlt] at hx
        cases hx
        simp at hb
      · rintro ⟨f', x, hf', hx, hb⟩
        have e : none = some f' := hn.symm.trans (BMap.get?_of_mem hs hf')
        cases e

/-- From FASM text to device: for a part without holes, a design that assembles and touches only frames of the part, the
program exits with status 0 and prints a `.bit` file — to a file or a pipe — whose header names the generator and
carries the date and time of the run.  A device with the part's IDCODE that is fed
the configuration data accepts it, loads one block of frame data from frame address 0, starts and leaves configuration
mode; the block has the frames of the part in walk order, two extra frames after each row, and a bit of a frame is 1
exactly when the database lists it for a statement of the design.  Any other device loads nothing and does not start. -/
theorem C67_device (env : Env) (load : LoadOrder) (hload : LoadOk load) (ord : HashOrder) (hord : Permutes ord) (inv : Invocation)
    (db : PartDatabase) (text : Bytes) (hstart : Starts env load inv db text)
    (hasm : Assembles db.tiles text)
    (hd : DescDense db.tiles.part) (p : Xc7.Part) (hp : Part.fromPart db.tiles.part = .ok p)
    (hsmall : FitsPacket p) (hdate : ShortAscii inv.date) (htime : ShortAscii inv.time)
    (hin : ∀ k, TouchesFrame db.tiles (Design db.tiles text) k → k < 2 ^ 26 ∧ p.isValid (BitVec.ofNat 32 k) = true)
    (seek : Bool) :
    ∃ walk : BMap (FrameWords 101), WalkFrom p 0#32 walk ∧
      (∀ k, k ∈ walk.map (·.1) ↔ k = 0 ∨ (k < 2 ^ 26 ∧ p.isValid (BitVec.ofNat 32 k) = true)) ∧
      ∃ fuel0, ∀ fuel ≥ fuel0, ∃ o file words data,
        main env load ord inv ⟨[], 0, seek, false⟩ fuel = some (.ok (0, o)) ∧
        readBitFile o.bytes = some file ∧
        -- fpga-source;Generator=fpga-assembler
        file.design = bytes!"fpga-source;Generator=fpga-assembler\x00" ∧
        -- fasm
        file.part = bytes!"fasm\x00" ∧ file.date = inv.date ++ [0] ∧ file.time = inv.time ++ [0] ∧
        file.config = fileBytes (List.replicate 8 0xFFFFFFFF#32 ++ [0x000000BB#32, 0x11220044#32] ++
          List.replicate 2 0xFFFFFFFF#32 ++ [0xAA995566#32] ++ words) ∧
        (∀ id, Device.run id words =
          if id = p.idcode then
            { idChecked := true, loaded := [(0, data)], lastFrame := true, started := true, desynced := true,
              cmd := 13, far := 0x3be0000, mask := 0x501, ctl0 := 0x501, cor0 := 0x02003FE5 }
          else
            { idError := true, refused := true, desynced := true,
              cmd := 13, far := 0x3be0000, mask := 0x501, ctl0 := 0x501, cor0 := 0x02003FE5 }) ∧
        data.length = (walk.length + 2 * rowEnds p walk + 2) * 101 ∧
        ∀ (i k : Nat), (walk.map (·.1))[i]? = some k → ∀ w b, w < 101 →
          ((∃ x, data[slot 101 p walk i + w]? = some x ∧ x.getLsbD b = true) ↔
            ∃ tile call, Lists db.tiles (Design db.tiles text) tile call ∧ call.value = true ∧
              call.frame = k ∧ call.word = w ∧ call.index = b) := by
  have hfits := fits_fromPart _ hd.fits p hp
  have hdense := dense_fromPart _ hd p hp
  obtain ⟨m, hw, hm, h⟩ := C67_gaps env load hload ord hord inv db text hstart hasm hd.fits p hp hsmall hdate htime
    (fun k hk => by
      rw [Nat.mod_eq_of_lt (show k < 2 ^ 32 from Nat.lt_trans (hin k hk).1 (by decide))]
      exact (reached_iff hfits hdense k).2 (Or.inr (hin k hk))) seek
  exact ⟨m, hw, fun k => (hm k).trans (reached_iff hfits hdense k), h⟩

/-- The hypotheses hold of a small database and a one-line design, whose frames are known. -/
theorem device_example : ∃ p, Part.fromPart smallDesc = .ok p ∧ p.idcode = smallDesc.idcode ∧ ∃ fuel0, ∀ fuel ≥ fuel0, ∃ o file words data,
    main fileEnv sameLoad sameOrder fileInv ⟨[], 0, true, false⟩ fuel = some (.ok (0, o)) ∧
    readBitFile o.bytes = some file ∧
    file.config = fileBytes (List.replicate 8 0xFFFFFFFF#32 ++ [0x000000BB#32, 0x11220044#32] ++
      List.replicate 2 0xFFFFFFFF#32 ++ [0xAA995566#32] ++ words) ∧
    (Device.run p.idcode words).loaded = [(0, data)] ∧ (Device.run p.idcode words).started = true := by
  refine ⟨_, rfl, rfl, ?_⟩
  obtain ⟨keys, hk⟩ : ∃ l, l = assembleFrames sameOrder bytes!"T.F\n" ⟨fileTiles, []⟩ [] := ⟨_, rfl⟩
  have hfr := file_frames
  rw [← hk] at hfr
  obtain ⟨r, hr, he⟩ := Outcome.bind_eq_ok.1 hfr
  have he := Outcome.ok.inj he
  rw [hr] at hk
  have hasm : Assembles fileTiles bytes!"T.F\n" :=
    (C50_succeeds fileTiles_ok sameOrder sameOrder_permutes _ _ Reachable.fresh).1 ⟨r, hk.symm⟩
  have hframes := C50_frames fileTiles_ok sameOrder sameOrder_permutes _ _ Reachable.fresh
    r.1 r.2 hk.symm
  obtain ⟨_, _, _, fuel0, h⟩ := C67_device fileEnv sameLoad sameLoad_ok sameOrder sameOrder_permutes fileInv ⟨fileTiles, []⟩ _
    file_starts hasm smallDesc_dense _ rfl smallDesc_packet (by unfold ShortAscii; decide) (by unfold ShortAscii; decide)
    (by
      intro k hk
      obtain ⟨f, hf⟩ := (hframes.2.2 k).2 hk
      have hmem : k ∈ r.2.map (·.1) := List.mem_map.2 ⟨_, hf, rfl⟩
      rw [he, List.mem_range] at hmem
      refine ⟨by omega, ?_⟩
      exact file_valid k hmem)
    true
  refine ⟨fuel0, fun fuel hf => ?_⟩
  obtain ⟨o, file, words, data, h1, h2, _, _, _, _, h3, h4, _⟩ := h fuel hf
  refine ⟨o, file, words, data, h1, h2, h3, ?_⟩
  have h5 := (h4 _).trans (if_pos (rfl : smallDesc.idcode = fileTiles.part.idcode))
  exact ⟨(congrArg (·.loaded) h5).trans rfl, (congrArg (·.started) h5).trans rfl⟩

/-- All hypotheses of `C67_device` hold for a run that reads `T.F` and touches 36 frames; the device accepts the file. -/
example : ∃ p, Part.fromPart smallDesc = .ok p ∧ ∃ fuel0, ∀ fuel ≥ fuel0, ∃ o file words,
    main fileEnv sameLoad sameOrder fileInv ⟨[], 0, false, false⟩ fuel = some (.ok (0, o)) ∧ readBitFile o.bytes = some file ∧
    file.date = [0x32, 0x30, 0] ∧ (Device.run p.idcode words).started = true := by
  refine ⟨_, rfl, ?_⟩
  obtain ⟨keys, hk⟩ : ∃ l, l = assembleFrames sameOrder bytes!"T.F\n" ⟨fileTiles, []⟩ [] := ⟨_, rfl⟩
  have hfr := file_frames
  rw [← hk] at hfr
  obtain ⟨r, hr, he⟩ := Outcome.bind_eq_ok.1 hfr
  have he := Outcome.ok.inj he
  rw [hr] at hk
  have hasm : Assembles fileTiles bytes!"T.F\n" :=
    (C50_succeeds fileTiles_ok sameOrder sameOrder_permutes _ _ Reachable.fresh).1 ⟨r, hk.symm⟩
  have hframes := C50_frames fileTiles_ok sameOrder sameOrder_permutes _ _ Reachable.fresh
    r.1 r.2 hk.symm
  obtain ⟨_, _, _, fuel0, h⟩ := C67_device fileEnv sameLoad sameLoad_ok sameOrder sameOrder_permutes fileInv ⟨fileTiles, []⟩ _ file_starts
    hasm smallDesc_dense _ rfl smallDesc_packet (by unfold ShortAscii; decide) (by unfold ShortAscii; decide)
    (by
      intro k hk
      obtain ⟨f, hf⟩ := (hframes.2.2 k).2 hk
      have hmem : k ∈ r.2.map (·.1) := List.mem_map.2 ⟨_, hf, rfl⟩
      rw [he, List.mem_range] at hmem
      refine ⟨by omega, ?_⟩
      exact file_valid k hmem)
    false
  refine ⟨fuel0, fun fuel hf => ?_⟩
  obtain ⟨o, file, words, data, h1, h2, _, _, h3, _, _, h4, _⟩ := h fuel hf
  refine ⟨o, file, words, h1, h2, h3, ?_⟩
  rw [h4, if_pos (by rfl)]

end Verif.Props
