import Verif.Proofs.Foreign
import Verif.Proofs.Narrow
import Verif.Props.C18_C23
import Verif.Props.C58_C61
/-! # C95: frames the part does not have -/
namespace Verif.Props
open Verif.Xc7 Verif.Xc7.Packet Verif.Spec Verif.Db Verif.Asm

/-- What a completed frame map holds. -/
abbrev Completes {n : Nat} (p : Xc7.Part) (frames m : BMap (FrameWords n)) : Prop :=
  ∀ k f, m.get? k = some f ↔ (frames.get? k = some f ∨
    (frames.get? k = none ∧ f = Vector.replicate n 0#32 ∧ ∃ a, Reached p a ∧ a.toNat = k))

theorem foreign_readback {n : Nat} (hn : 0 < n) (p : Xc7.Part) (hp : Fits p) (frames m : BMap (FrameWords n)) (hsm : m.Sorted)
    (hs : frames.Sorted) (hget : Completes p frames m) :
    ∃ c, initWithPackets n p (configurationPackage (type2Payload p m) p.idcode) = some c ∧ c.part = p ∧
      (∀ k ws, c.frames.get? k = some ws → ¬ Foreign p k) ∧
      ∀ k0 f0, FirstForeign p frames k0 f0 →
        (∀ a, Reached p a → a.toNat < k0 →
          c.frames.get? a.toNat = some ((frames.get? a.toNat).getD (Vector.replicate n 0#32)).toList) ∧
        ∀ b, FirstBehind p k0 b → c.frames.get? b.toNat = some f0.toList := by
  obtain ⟨c, h1, h2, _, h3⟩ := decode_any hn p hp (type2Payload p m)
  refine ⟨c, h1, h2, ?_, ?_⟩
  · intro k ws h
    obtain ⟨i, b, hw, hb, _⟩ := (h3 k ws).1 h
    exact fun hf => hf b ((reached_iff_from p b).2 (reachedFrom_walkAt p _ i b hw)) hb
  · intro k0 f0 h0
    have hreach : ∀ b, ReachedFrom p 0#32 b ↔ Reached p b := fun b => (reached_iff_from p b).symm
    have hall : ∀ b, Reached p b → m.get? b.toNat = some ((frames.get? b.toNat).getD (Vector.replicate n 0#32)) := by
      intro b hb
      cases hg : frames.get? b.toNat with
      | none => exact (hget _ _).2 (Or.inr ⟨hg, rfl, b, hb, rfl⟩)
      | some f => exact (hget _ _).2 (Or.inl hg)
    obtain ⟨r1, r2⟩ := foreign_placed hn p hp k0 f0 m 0#32 hsm (by decide) (fun _ _ _ => Nat.zero_le _)
      (fun b hb => ⟨_, BMap.mem_of_get? (hall b ((hreach b).1 hb))⟩)
      (BMap.mem_of_get? ((hget k0 f0).2 (Or.inl (BMap.get?_of_mem hs h0.given))))
      (by
        intro k f hkf hlt
        rcases (hget k f).1 (BMap.get?_of_mem hsm hkf) with h | ⟨_, _, a, ha, hak⟩
        · by_cases hf : Foreign p k
          · have := h0.first k f (BMap.mem_of_get? h) hf
            omega
          · refine Classical.byContradiction fun hno => hf fun a ha hak => hno ⟨a, (hreach a).2 ha, hak⟩
        · exact ⟨a, (hreach a).2 ha, hak⟩)
      (fun b hb => h0.foreign b ((hreach b).1 hb))
    refine ⟨fun a ha hlt => (h3 _ _).2 (r1 _ _ (BMap.mem_of_get? (hall a ha)) hlt), fun b hb => (h3 _ _).2 ?_⟩
    exact r2 b ((hreach b).2 hb.reached) hb.behind fun c hc => hb.first c ((hreach c).1 hc)

/-- Decoding the programming sequence generated for any frame map, whatever its addresses: only frames of the part are
read back.  If the map has a foreign address, the part's frames before the first of them are read back as given (zero where none
was given), but the next frame of the part reads back as the foreign frame. -/
theorem C95_sequence {n : Nat} (hn : 0 < n) (p : Xc7.Part) (hp : Fits p) (fuel : Nat) (frames m : BMap (FrameWords n)) (hs : frames.Sorted)
    (h : addMissingFrames p (zeroFrame n) fuel frames = some m) :
    ∃ c, initWithPackets n p (configurationPackage (type2Payload p m) p.idcode) = some c ∧ c.part = p ∧
      (∀ k ws, c.frames.get? k = some ws → ¬ Foreign p k) ∧
      ∀ k0 f0, FirstForeign p frames k0 f0 →
        (∀ a, Reached p a → a.toNat < k0 →
          c.frames.get? a.toNat = some ((frames.get? a.toNat).getD (Vector.replicate n 0#32)).toList) ∧
        ∀ b, FirstBehind p k0 b → c.frames.get? b.toNat = some f0.toList := by
  obtain ⟨hsm, hget⟩ := C07_fill_exact p _ _ _ _ hs h
  exact foreign_readback hn p hp frames m hsm hs hget

/-- The frame data of a completed map, if they fit. -/
theorem _root_.Verif.Spec.FitsWith.payload {p : Xc7.Part} {frames m : BMap (FrameWords frameWordsBase)} (h : FitsWith p fun k => ∃ f, (k, f) ∈ frames)
    (hs : frames.Sorted) (hsm : m.Sorted) (hget : Completes p frames m) : (type2Payload p m).length < 2 ^ 27 := by
  have e : m.map (·.1) = ((m.map fun x => (x.1, ())) : BMap Unit).map (·.1) := by
    rw [List.map_map]
    rfl
  have := h (m.map fun x => (x.1, ())) (by
      unfold BMap.Sorted at hsm ⊢
      rw [List.pairwise_map]
      exact hsm)
    (by
      intro k
      rw [← e, List.mem_map]
      constructor
      · rintro ⟨⟨k, f⟩, hkf, rfl⟩
        rcases (hget k f).1 (BMap.get?_of_mem hsm hkf) with h | ⟨_, _, h⟩
        · exact Or.inl ⟨f, BMap.mem_of_get? h⟩
        · exact Or.inr h
      · rintro (⟨f, hf⟩ | ⟨a, ha, rfl⟩)
        · exact ⟨_, BMap.mem_of_get? ((hget k f).2 (Or.inl (BMap.get?_of_mem hs hf))), rfl⟩
        · cases hg : frames.get? a.toNat with
          | none => exact ⟨_, BMap.mem_of_get? ((hget _ _).2 (Or.inr ⟨hg, rfl, a, ha, rfl⟩)), rfl⟩
          | some f => exact ⟨_, BMap.mem_of_get? ((hget _ f).2 (Or.inl hg)), rfl⟩)
  rw [← rowEnds_keys p m _ e, List.length_map] at this
  rw [type2Payload_length]
  exact this

/-- The same for the file: `Encode` accepts any frame map and reports nothing. -/
theorem C95_file (d : Db.Part) (hd : DescFits d) (p : Xc7.Part) (hp : Part.fromPart d = .ok p)
    (partName source date time : Bytes) (seek : Bool) (hnames : ∀ s ∈ [partName, source, date, time], ShortAscii s)
    (frames : BMap (FrameWords frameWordsBase)) (hs : frames.Sorted) (hk : ∀ k f, (k, f) ∈ frames → k < 2 ^ 32)
    (hsmall : FitsWith p fun k => ∃ f, (k, f) ∈ frames) :
    ∃ fuel0, ∀ fuel ≥ fuel0, ∃ o c,
      encode d partName source date time frames ⟨[], 0, seek, false⟩ fuel = some (.ok o) ∧
      decodeFile p o.bytes fuel = some (.ok (some c)) ∧
      (∀ k ws, c.frames.get? k = some ws → ¬ Foreign p k) ∧
      ∀ k0 f0, FirstForeign p frames k0 f0 →
        (∀ a, Reached p a → a.toNat < k0 →
          c.frames.get? a.toNat = some ((frames.get? a.toNat).getD (Vector.replicate 101 0#32)).toList) ∧
        ∀ b, FirstBehind p k0 b → c.frames.get? b.toNat = some f0.toList := by
  have hfits := fits_fromPart d hd p hp
  obtain ⟨fuel1, m, hm, hmono⟩ := C08_fill_terminates p hfits (zeroFrame frameWordsBase) frames
  obtain ⟨hsm, hget⟩ := C07_fill_exact p _ _ _ _ hs hm
  have hdata : (type2Payload p m).length < 2 ^ 27 := hsmall.payload hs hsm hget
  have hconv : convertFrames [] frames = frames := convertFrames_id frames hs (fun kf hkf => hk kf.1 kf.2 hkf)
  obtain ⟨c, hwit, _, hno, hfor⟩ := foreign_readback (by decide : 0 < frameWordsBase) p hfits frames m hsm hs hget
  have hr := package_representable (type2Payload p m) p.idcode hdata
  have hc := package_chained (type2Payload p m) p.idcode
  generalize hps : configurationPackage (type2Payload p m) p.idcode = ps at hwit hr hc
  refine ⟨fuel1 + (syncHeader .xc7 ++ emitted ps).length + 2, fun fuel hfuel => ?_⟩
  have hadd : addMissingFrames p (zeroFrame frameWordsBase) fuel frames = some m := by
    have := hmono (fuel - fuel1)
    rwa [show fuel1 + (fuel - fuel1) = fuel by omega] at this
  obtain ⟨o, h1, h2⟩ := write_then_read p ps hr hc partName source date time (names_syncFree _ _ _ _ hnames) seek fuel (by omega)
  refine ⟨o, c, ?_, by rw [h2, hwit], hno, hfor⟩
  rw [encode_eq d p hp _ _ _ _ frames m _ _ hconv hadd, hps]
  exact h1

/-- The program: a design that touches a frame the part does not have.  The run ends with status 0 and prints a file.  Read back, the frame
behind the first foreign one `k0` has, instead of its own bits, those the design has for `k0`; the frames of the part before `k0` have theirs. -/
theorem C95_program (env : Env) (load : LoadOrder) (hload : LoadOk load) (ord : HashOrder) (hord : Permutes ord) (inv : Invocation)
    (db : PartDatabase) (text : Bytes) (hstart : Starts env load inv db text)
    (hasm : Assembles db.tiles text)
    (hd : DescFits db.tiles.part) (p : Xc7.Part) (hp : Part.fromPart db.tiles.part = .ok p)
    (hdate : ShortAscii inv.date) (htime : ShortAscii inv.time)
    (hsmall : FitsWith p fun j => ∃ k, TouchesFrame db.tiles (Design db.tiles text) k ∧ k % 2 ^ 32 = j)
    (seek : Bool) (k0 : Nat) (h0 : ∃ k, TouchesFrame db.tiles (Design db.tiles text) k ∧ k % 2 ^ 32 = k0) (hf : Foreign p k0)
    (hfirst : ∀ k, TouchesFrame db.tiles (Design db.tiles text) k → Foreign p (k % 2 ^ 32) → k0 ≤ k % 2 ^ 32) :
    ∃ fuel0, ∀ fuel ≥ fuel0, ∃ o c,
      main env load ord inv ⟨[], 0, seek, false⟩ fuel = some (.ok (0, o)) ∧
      decodeFile p o.bytes fuel = some (.ok (some c)) ∧
      (∀ k ws, c.frames.get? k = some ws → ¬ Foreign p k) ∧
      ∀ a, Reached p a → ∀ k, (a.toNat < k0 ∧ k = a.toNat) ∨ (FirstBehind p k0 a ∧ k = k0) →
        ∀ w b, (∃ ws x, c.frames.get? a.toNat = some ws ∧ ws[w]? = some x ∧ x.getLsbD b = true) ↔
          ∃ tile call, Lists db.tiles (Design db.tiles text) tile call ∧ call.value = true ∧
            call.frame = k ∧ call.word = w ∧ call.index = b := by
  obtain ⟨_, _, _, path, _, _, _, hparse⟩ := id hstart
  obtain ⟨hok, hfresh⟩ := C45_loaded env load hload _ _ db hparse
  obtain ⟨db', frames0, ha, hreach, hs0, hbits0, hframes0⟩ := assemble_ok hok ord hord text db hfresh hasm
  obtain ⟨hs, hbits, hframes⟩ := narrow_design hs0 hbits0 hframes0
  have hnar := encode_narrow db.tiles.part kFasm kSource inv.date inv.time frames0 ⟨[], 0, seek, false⟩
  generalize hfr : convertFrames [] frames0 = frames at hs hbits hframes hnar
  obtain ⟨fuel0, henc⟩ := C95_file db.tiles.part hd p hp kFasm kSource inv.date inv.time seek
    (by
      intro s hs
      simp only [List.mem_cons, List.not_mem_nil, or_false] at hs
      rcases hs with rfl | rfl | rfl | rfl
      · unfold ShortAscii; decide
      · unfold ShortAscii; decide
      · exact hdate
      · exact htime)
    frames hs (fun k f hkf => by
      obtain ⟨k', _, e⟩ := (hframes k).1 ⟨f, hkf⟩
      rw [← e]; exact Nat.mod_lt _ (by decide))
    (by
      intro all h1 h2
      exact hsmall all h1 fun k => (h2 k).trans (or_congr (hframes k) Iff.rfl))
  obtain ⟨f0, hf0⟩ := (hframes k0).2 h0
  refine ⟨fuel0, fun fuel hfu => ?_⟩
  obtain ⟨o, c, h1, h2, h3, h4⟩ := henc fuel hfu
  obtain ⟨h5, h6⟩ := h4 k0 f0 ⟨hf0, hf, fun j g hj hfj => by
    obtain ⟨k, hk, e⟩ := (hframes j).1 ⟨g, hj⟩
    rw [← e] at hfj ⊢
    exact hfirst k hk hfj⟩
  refine ⟨o, c, main_started env load ord inv _ fuel db text hstart db' frames0 ha o
    (by rw [(reachable_cache hreach).1]; exact (hnar fuel).trans h1), h2, h3, ?_⟩
  intro a har k hk w b
  rw [← hbits, bitSet_iff hs]
  have hc : c.frames.get? a.toNat = some ((frames.get? k).getD (Vector.replicate 101 0#32)).toList := by
    rcases hk with ⟨hlt, rfl⟩ | ⟨hb, rfl⟩
    · exact h5 a har hlt
    · rw [BMap.get?_of_mem hs hf0]; exact h6 a hb
  rw [hc]
  cases hg : frames.get? k with
  | none =>
    constructor
    · rintro ⟨ws, x, h, hx, hb⟩
      have hws : (Vector.replicate 101 0#32).toList = ws := Option.some.inj h
      rw [← hws, Vector.getElem?_toList, Vector.getElem?_replicate] at hx
      split at hx
      · rw [← Option.some.inj hx] at hb; simp at hb
      · cases hx
    · rintro ⟨_, _, h, _⟩; cases h
  | some f =>
    show (∃ ws x, some f.toList = some ws ∧ _) ↔ _
    constructor
    · rintro ⟨ws, x, h, hx, hb⟩
      rw [← Option.some.inj h, Vector.getElem?_toList] at hx
      exact ⟨f, x, rfl, hx, hb⟩
    · rintro ⟨f', x, h, hx, hb⟩
      rw [← Option.some.inj h] at hx
      exact ⟨_, x, rfl, by rw [Vector.getElem?_toList]; exact hx, hb⟩

theorem exists_firstForeign {β : Type} (p : Xc7.Part) (frames : BMap β) (k : Nat) (f : β) (hkf : (k, f) ∈ frames) (hf : Foreign p k) :
    ∃ k0 f0, FirstForeign p frames k0 f0 := by
  induction k using Nat.strongRecOn generalizing f with
  | ind k ih =>
    by_cases h : ∃ j g, (j, g) ∈ frames ∧ Foreign p j ∧ j < k
    · obtain ⟨j, g, h1, h2, h3⟩ := h
      exact ih j h3 g h1 h2
    · exact ⟨k, f, hkf, hf, fun j g hj hfj => Nat.le_of_not_lt fun hlt => h ⟨j, g, hj, hfj, hlt⟩⟩

/-- **The part of the property that holds**: frames the part does not have are harmless when they all lie behind the last frame of the
part: every frame of the part is read back as given, or zero, and nothing else is. -/
theorem C95_harmless_partial {n : Nat} (hn : 0 < n) (p : Xc7.Part) (hp : Fits p) (fuel : Nat) (frames m : BMap (FrameWords n)) (hs : frames.Sorted)
    (h : addMissingFrames p (zeroFrame n) fuel frames = some m)
    (hlast : ∀ k f, (k, f) ∈ frames → Foreign p k → ∀ a, Reached p a → a.toNat < k) :
    ∃ c, initWithPackets n p (configurationPackage (type2Payload p m) p.idcode) = some c ∧ c.part = p ∧
      (∀ a, Reached p a → c.frames.get? a.toNat = some ((frames.get? a.toNat).getD (Vector.replicate n 0#32)).toList) ∧
      ∀ k ws, c.frames.get? k = some ws → ∃ a, Reached p a ∧ a.toNat = k := by
  obtain ⟨c, h1, h2, h3, h4⟩ := C95_sequence hn p hp fuel frames m hs h
  refine ⟨c, h1, h2, ?_, ?_⟩
  · by_cases hex : ∃ k f, (k, f) ∈ frames ∧ Foreign p k
    · obtain ⟨k, f, hkf, hf⟩ := hex
      obtain ⟨k0, f0, h0⟩ := exists_firstForeign p frames k f hkf hf
      exact fun a ha => (h4 k0 f0 h0).1 a ha (hlast k0 f0 h0.given h0.foreign a ha)
    · have hk : ∀ k f, (k, f) ∈ frames → ∃ a, Reached p a ∧ a.toNat = k := fun k f hkf =>
        Classical.byContradiction fun hno => hex ⟨k, f, hkf, fun a ha hak => hno ⟨a, ha, hak⟩⟩
      have := C15_payload_round_trip hn p hp fuel frames m hs hk h
      rw [h1] at this
      intro a ha
      rw [Option.some.inj this]
      show (sameFrames m).get? a.toNat = _
      obtain ⟨_, hget⟩ := C07_fill_exact p _ _ _ _ hs h
      rw [sameFrames_get]
      cases hg : frames.get? a.toNat with
      | none => rw [(hget _ _).2 (Or.inr ⟨hg, rfl, a, ha, rfl⟩)]; rfl
      | some f => rw [(hget _ _).2 (Or.inl hg)]; rfl
  · intro k ws hk
    exact Classical.byContradiction fun hno => h3 k ws hk fun a ha hak => hno ⟨a, ha, hak⟩

/-- A frame at 2^18, behind the last frame of the part with two rows, 2^17. -/
example : ∃ p, Part.fromPart tinyDesc = .ok p ∧
    (initWithPackets 1 p (configurationPackage (type2Payload (n := 1) p
      [(0, #v[4#32]), (1, #v[0#32]), (128, #v[9#32]), (129, #v[0#32]), (2^17, #v[3#32]), (2^18, #v[7#32])]) p.idcode)).map
        (fun c => c.frames) = some [(0, [4#32]), (1, [0#32]), (128, [9#32]), (129, [0#32]), (2^17, [3#32])] :=
  ⟨_, rfl, by decide +kernel⟩

/-! ## Example

The database directory of C60 with a part whose first column has 3 frames only: the bit of `T.F` is in frame 3. -/

def shortDesc : Db.Part :=
  { bottomRows := [], topRows := [[(.clbIoClk, [3, 2])]], idcode := 0x13631093#32, iobanks := [] }

def shortPart : Xc7.Part := ⟨shortDesc.idcode, regionFrom 0 [] shortDesc.topRows, regionFrom 0 [] shortDesc.bottomRows⟩

def shortEnv : Env := { fileEnv with
  json := fun c => if c = bytes!"G" then some (gridObj [(bytes!"T", fileT)]) else if c = bytes!"P" then some (partObj shortDesc) else none }

def shortTiles : Tiles :=
  { grid := [(bytes!"T", fileT)], bits := tilesDatabase shortEnv filePaths
    banks := Registry.create (fun l => l) shortDesc [], part := shortDesc }

theorem short_part : parsePart (partObj shortDesc) = .ok shortDesc := by
  refine C41_round_trip _ ⟨by decide, ?_⟩
  rintro half (rfl | rfl) <;> decide

theorem short_database : parseDatabase shortEnv sameLoad [bytes!"d"] bytes!"p" = .ok ⟨shortTiles, []⟩ := by
  have h1 : parsePartInfo shortEnv [bytes!"d"] bytes!"p" = .ok ⟨bytes!"d", bytes!"f", bytes!"k", bytes!"1"⟩ := by decide +kernel
  have h2 : indexTileTypes shortEnv [bytes!"d"] = .ok filePaths := by decide +kernel
  have h3 : parseJsonFile shortEnv parseTileGrid ([bytes!"d"] ++ [bytes!"f", kTilegrid]) = .ok [(bytes!"T", fileT)] := file_grid
  have h4 : parseJsonFile shortEnv parsePart ([bytes!"d"] ++ [bytes!"p", kPartJson]) = .ok shortDesc := short_part
  have h5 : parseFile shortEnv parsePackagePins ([bytes!"d"] ++ [bytes!"p", kPackagePins]) = .ok [] := rfl
  unfold parseDatabase
  rw [h1, Outcome.bind_ok]
  dsimp only
  rw [h3, Outcome.bind_ok, h2, Outcome.bind_ok, h4, Outcome.bind_ok, h5, Outcome.bind_ok]
  rfl

theorem short_starts : Starts shortEnv sameLoad fileInv ⟨shortTiles, []⟩ bytes!"T.F\n" :=
  ⟨by decide, by decide, Or.inr ⟨fun _ _ h => by simp [fileInv] at h, rfl⟩, bytes!"d", Or.inr ⟨rfl, rfl⟩, by decide, by decide,
    short_database⟩

theorem shortDesc_fits : DescFits shortDesc := by intro half h; rcases h with rfl | rfl <;> decide

theorem short_frames : (assembleFrames sameOrder bytes!"T.F\n" ⟨shortTiles, []⟩ [] >>= fun r => .ok (r.2.map (·.1))) =
    .ok (List.range 36) := by decide +kernel

theorem short_walk (a : FrameAddress) : Reached shortPart a ↔ a.toNat ∈ [0, 1, 2, 128, 129] := by
  have n0 : shortPart.next 0#32 = some 1#32 := by decide +kernel
  have n1 : shortPart.next 1#32 = some 2#32 := by decide +kernel
  have n2 : shortPart.next 2#32 = some 128#32 := by decide +kernel
  have n3 : shortPart.next 128#32 = some 129#32 := by decide +kernel
  have n4 : shortPart.next 129#32 = none := by decide +kernel
  have hw : ∀ a : FrameAddress, a ∈ [0#32, 1#32, 2#32, 128#32, 129#32] → ∀ n, shortPart.next a = some n →
      n ∈ [0#32, 1#32, 2#32, 128#32, 129#32] := by
    intro a ha n hn
    simp only [List.mem_cons, List.not_mem_nil, or_false] at ha ⊢
    rcases ha with ha | ha | ha | ha | ha <;> rw [ha] at hn
    · rw [n0] at hn; exact Or.inr (Or.inl (Option.some.inj hn).symm)
    · rw [n1] at hn; exact Or.inr (Or.inr (Or.inl (Option.some.inj hn).symm))
    · rw [n2] at hn; exact Or.inr (Or.inr (Or.inr (Or.inl (Option.some.inj hn).symm)))
    · rw [n3] at hn; exact Or.inr (Or.inr (Or.inr (Or.inr (Option.some.inj hn).symm)))
    · rw [n4] at hn; cases hn
  constructor
  · intro h
    have : a ∈ [0#32, 1#32, 2#32, 128#32, 129#32] := by
      induction h with
      | start => decide
      | step _ hn ih => exact hw _ ih _ hn
    simp only [List.mem_cons, List.not_mem_nil, or_false] at this
    rcases this with rfl | rfl | rfl | rfl | rfl <;> decide
  · intro h
    have h0 : Reached shortPart 0#32 := .start
    have h1 : Reached shortPart 1#32 := .step h0 n0
    have h2 : Reached shortPart 2#32 := .step h1 n1
    have h3 : Reached shortPart 128#32 := .step h2 n2
    have h4 : Reached shortPart 129#32 := .step h3 n3
    have key : ∀ k : Nat, k < 2 ^ 32 → a.toNat = k → a = BitVec.ofNat 32 k := by
      intro k hk h
      apply BitVec.eq_of_toNat_eq
      rw [h, BitVec.toNat_ofNat, Nat.mod_eq_of_lt hk]
    simp only [List.mem_cons, List.not_mem_nil, or_false] at h
    rcases h with h | h | h | h | h
    · rw [key 0 (by decide) h]; exact h0
    · rw [key 1 (by decide) h]; exact h1
    · rw [key 2 (by decide) h]; exact h2
    · rw [key 128 (by decide) h]; exact h3
    · rw [key 129 (by decide) h]; exact h4

theorem shortTiles_ok : TilesOk shortTiles := (C45_loaded _ _ sameLoad_ok _ _ _ short_database).1

/-- All hypotheses of `C95_program` hold for the example.  The bit of `T.F`, in the frame 3 the part does not have, is read back in frame 128,
of which no statement says anything. -/
theorem C95_example : ∃ fuel0, ∀ fuel ≥ fuel0, ∃ o c,
    main shortEnv sameLoad sameOrder fileInv ⟨[], 0, true, false⟩ fuel = some (.ok (0, o)) ∧
    decodeFile shortPart o.bytes fuel = some (.ok (some c)) ∧
    (∃ ws x, c.frames.get? 128 = some ws ∧ ws[3]? = some x ∧ x.getLsbD 1 = true) ∧
    ∀ tile call, Lists shortTiles (Design shortTiles bytes!"T.F\n") tile call → call.frame ≠ 128 := by
  obtain ⟨keys, hk⟩ : ∃ l, l = assembleFrames sameOrder bytes!"T.F\n" ⟨shortTiles, []⟩ [] := ⟨_, rfl⟩
  have hfr := short_frames
  have hb : (assembleFrames sameOrder bytes!"T.F\n" ⟨shortTiles, []⟩ [] >>= fun r =>
      .ok ((r.2.get? 3).any fun f => f[3].getLsbD 1)) = .ok true := by decide +kernel
  rw [← hk] at hfr hb
  obtain ⟨r, hr, he⟩ := Outcome.bind_eq_ok.1 hfr
  obtain ⟨r', hr', he'⟩ := Outcome.bind_eq_ok.1 hb
  have he := Outcome.ok.inj he
  have he' := Outcome.ok.inj he'
  rw [hr] at hk hr'
  cases hr'
  have hasm : Assembles shortTiles bytes!"T.F\n" :=
    (C50_succeeds shortTiles_ok sameOrder sameOrder_permutes _ _ Reachable.fresh).1 ⟨r, hk.symm⟩
  have hframes := C50_frames shortTiles_ok sameOrder sameOrder_permutes _ _ Reachable.fresh r.1 r.2 hk.symm
  have htouch : ∀ k, TouchesFrame shortTiles (Design shortTiles bytes!"T.F\n") k ↔ k < 36 := by
    intro k
    refine (hframes.2.2 k).symm.trans ?_
    rw [← List.mem_range, ← he, List.mem_map]
    constructor
    · rintro ⟨f, hf⟩; exact ⟨_, hf, rfl⟩
    · rintro ⟨⟨k', f⟩, hf, rfl⟩; exact ⟨f, hf⟩
  have hforeign : ∀ k, Foreign shortPart k ↔ k ∉ [0, 1, 2, 128, 129] := by
    intro k
    constructor
    · intro h hm
      have hlt : k < 2 ^ 32 := by
        simp only [List.mem_cons, List.not_mem_nil, or_false] at hm
        omega
      have e : (BitVec.ofNat 32 k).toNat = k := by rw [BitVec.toNat_ofNat]; exact Nat.mod_eq_of_lt hlt
      exact h (BitVec.ofNat 32 k) ((short_walk _).2 (by rw [e]; exact hm)) e
    · intro h a ha hak
      exact h (hak ▸ (short_walk a).1 ha)
  have hbehind : FirstBehind shortPart 3 128#32 := by
    refine ⟨(short_walk _).2 (by decide), by decide, fun a ha hlt => ?_⟩
    have := (short_walk a).1 ha
    simp only [List.mem_cons, List.not_mem_nil, or_false] at this
    have e : (128#32).toNat = 128 := rfl
    omega
  obtain ⟨fuel0, h⟩ := C95_program shortEnv sameLoad sameLoad_ok sameOrder sameOrder_permutes fileInv ⟨shortTiles, []⟩ _ short_starts
    hasm shortDesc_fits shortPart rfl (by unfold ShortAscii; decide) (by unfold ShortAscii; decide)
    (by
      intro all hs hall
      have hnd : (all.map (·.1)).Nodup := by
        rw [List.Nodup, List.pairwise_map]
        exact List.Pairwise.imp (fun h => Nat.ne_of_lt h) hs
      have h1 := nodup_subset_length (all.map (·.1)) (List.range 130) hnd (fun k hk => by
        rw [List.mem_range]
        rcases (hall k).1 hk with ⟨k', hk', e⟩ | ⟨a, ha, e⟩
        · have := (htouch k').1 hk'
          omega
        · have := (short_walk a).1 ha
          simp only [List.mem_cons, List.not_mem_nil, or_false] at this
          omega)
      rw [List.length_range, List.length_map] at h1
      have h2 := rowEnds_le shortPart all
      omega)
    true 3 ⟨3, (htouch 3).2 (by decide), by decide⟩ ((hforeign 3).2 (by decide))
    (fun k _ hf => by
      have := (hforeign (k % 2 ^ 32)).1 hf
      simp only [List.mem_cons, List.not_mem_nil, or_false] at this
      omega)
  refine ⟨fuel0, fun fuel hf => ?_⟩
  obtain ⟨o, c, h1, h2, _, h4⟩ := h fuel hf
  refine ⟨o, c, h1, h2, ?_, ?_⟩
  · refine (h4 128#32 hbehind.reached 3 (Or.inr ⟨hbehind, rfl⟩) 3 1).2 ((hframes.2.1 3 3 1).1 ((bitSet_iff hframes.1).2 ?_))
    cases hg : r.2.get? 3 with
    | none => rw [hg] at he'; cases he'
    | some f => rw [hg] at he'; exact ⟨f, f[3], rfl, by simp, he'⟩
  · intro tile call hl hc
    have := (htouch 128).1 ⟨tile, call, hl, Or.inl hc⟩
    omega

end Verif.Props
