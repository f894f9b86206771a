import Verif.Props.C116
import Verif.Props.C118
/-! # C116 for designs that set bits -/
namespace Verif.Props
open Verif.Xc7 Verif.Xc7.Packet Verif.Spec Verif.BitOps

theorem suffix_words : ∀ w ∈ emitted packageSuffix, ¬ FrameHeader w := by
  have h1 : ∀ r ∈ [regCMD, regFAR, regMASK, regCTL0], ¬ FrameHeader (wr r 0#32).header := by
    have e1 : (wr regCMD 0#32).header = 0x30008001#32 := by decide +kernel
    have e2 : (wr regFAR 0#32).header = 0x30002001#32 := by decide +kernel
    have e3 : (wr regMASK 0#32).header = 0x3000C001#32 := by decide +kernel
    have e4 : (wr regCTL0 0#32).header = 0x3000A001#32 := by decide +kernel
    intro r hr
    simp only [List.mem_cons, List.not_mem_nil, or_false] at hr
    rcases hr with rfl | rfl | rfl | rfl
    · rw [e1]; simp [FrameHeader, field]
    · rw [e2]; simp [FrameHeader, field]
    · rw [e3]; simp [FrameHeader, field]
    · rw [e4]; simp [FrameHeader, field]
  have h2 : ∀ w ∈ [0x7#32, 0xA#32, 0x3#32, 0x5#32, 0x3be0000#32, 0x501#32, 0xD#32], ¬ FrameHeader w := by
    simp [FrameHeader, field]
  have h3 : ¬ FrameHeader nop.header := by
    have e : nop.header = 0x20000000#32 := by decide +kernel
    rw [e]; simp [FrameHeader, field]
  have hn : ∀ n, ∀ x ∈ List.replicate n nop, x = nop := fun n x hx => (List.mem_replicate.mp hx).2
  have hx : ∀ x ∈ packageSuffix, x = nop ∨ ∃ r ∈ [regCMD, regFAR, regMASK, regCTL0],
      ∃ w ∈ [0x7#32, 0xA#32, 0x3#32, 0x5#32, 0x3be0000#32, 0x501#32, 0xD#32], x = wr r w := by
    intro x hx
    unfold packageSuffix at hx
    rw [List.mem_append, List.mem_append, List.mem_append] at hx
    rcases hx with ((hx | hx) | hx) | hx
    · simp only [List.mem_cons, List.not_mem_nil, or_false] at hx
      rcases hx with rfl | rfl | rfl | rfl | rfl | rfl <;> first | exact Or.inl rfl | exact Or.inr ⟨_, by decide, _, by decide, rfl⟩
    · exact Or.inl (hn _ x hx)
    · simp only [List.mem_cons, List.not_mem_nil, or_false] at hx
      rcases hx with rfl | rfl | rfl | rfl | rfl | rfl | rfl | rfl | rfl <;>
        first | exact Or.inl rfl | exact Or.inr ⟨_, by decide, _, by decide, rfl⟩
    · exact Or.inl (hn _ x hx)
  intro w hw
  obtain ⟨x, hxs, hwx⟩ := List.mem_flatMap.1 hw
  rcases hx x hxs with rfl | ⟨r, hr, v, hv, rfl⟩
  · rcases List.mem_cons.1 hwx with rfl | hwx
    · exact h3
    · cases hwx
  · rcases List.mem_cons.1 hwx with rfl | hwx
    · exact h1 r hr
    · rw [List.mem_singleton.1 (show w ∈ [v] from hwx)]
      exact h2 v hv

theorem payload_words (p : Part) : ∀ m : BMap (FrameWords frameWordsBase), (∀ k f, (k, f) ∈ m → ∀ w ∈ f.toList, ¬ FrameHeader w) →
    ∀ w ∈ type2Payload p m, ¬ FrameHeader w := by
  have hz : ∀ n, ∀ w ∈ List.replicate n (0#32 : Word), ¬ FrameHeader w := by
    intro n w hw
    rw [(List.mem_replicate.mp hw).2]
    simp [FrameHeader, field]
  intro m h
  induction m with
  | nil => intro w hw; exact hz _ w hw
  | cons kv m ih =>
    obtain ⟨k, f⟩ := kv
    intro w hw
    rw [type2Payload] at hw
    rcases List.mem_append.mp hw with hw | hw
    · unfold framePayload at hw
      rcases List.mem_append.mp hw with hw | hw
      · exact h k f List.mem_cons_self w hw
      · split at hw
        · split at hw
          · exact hz _ w hw
          · cases hw
        · cases hw
    · exact ih (fun k f hk => h k f (List.mem_cons_of_mem _ hk)) w hw

/-- What a reader makes of a cut file: the words behind the cut write nothing. -/
theorem cut_read (p : Part) (data : List Word) (hw : ∀ w ∈ data, ¬ FrameHeader w) (n : Nat) (prev : Option Packet) :
    initWithPackets frameWordsBase p (packagePrefix p.idcode ++ [⟨kTYPE2, opWrite, regFDRI, data.take (data.length % 2 ^ 27)⟩] ++
        packetsOf n prev (data.drop (data.length % 2 ^ 27) ++ emitted packageSuffix)) =
      initWithPackets frameWordsBase p (configurationPackage (data.take (data.length % 2 ^ 27)) p.idcode) := by
  have h1 := packetsOf_harmless n prev (data.drop (data.length % 2 ^ 27) ++ emitted packageSuffix) (fun w h => by
    rcases List.mem_append.1 h with h | h
    · exact hw w (List.mem_of_mem_drop h)
    · exact suffix_words w h)
  unfold initWithPackets configurationPackage
  rw [decodePackets_append frameWordsBase p (_ ++ _) (packetsOf _ _ _), decodePackets_append frameWordsBase p (_ ++ _) packageSuffix]
  cases decodePackets frameWordsBase p {} (packagePrefix p.idcode ++ [⟨kTYPE2, opWrite, regFDRI, data.take (data.length % 2 ^ 27)⟩]) with
  | none => rw [Option.bind_none, Option.bind_none]
  | some s =>
    obtain ⟨s1, e1, f1⟩ := decodePackets_harmless frameWordsBase p _ s h1
    obtain ⟨s2, e2, f2⟩ := decodePackets_other frameWordsBase p packageSuffix s suffix_other
    rw [Option.bind_some, Option.bind_some, e1, e2]
    simp only [Option.map_some, f1, f2]

/-- **The frames that are lost.**  The file of a part beyond the limit is cut, whatever the design (unless a word of a frame is itself
the header of a write of frames or of an ID): whoever reads it finds exactly the frames whose place begins before the cut, and some
frame of the part is not among them. -/
theorem C116_lost_design (d : Db.Part) (hd : DescFits d) (p : Part) (hp : Part.fromPart d = .ok p) (hbig : ¬ FitsPacket p)
    (partName source date time : Bytes) (seek : Bool)
    (hfree : SyncFree (headerBytes (source ++ (generatorMark ++ bytes!"fpga-assembler")) partName date time))
    (frames : BMap (FrameWords frameWordsBase)) (hs : frames.Sorted)
    (hk : ∀ k f, (k, f) ∈ frames → ∃ a, Reached p a ∧ a.toNat = k)
    (hw : ∀ k f, (k, f) ∈ frames → ∀ w ∈ f.toList, ¬ FrameHeader w) :
    ∃ c cut fuel0, cut < 2 ^ 27 ∧
      (∀ i a, walkAt p 0#32 i = some a → (c.frames.get? a.toNat ≠ none ↔ blockOffset 101 p 0#32 i < cut)) ∧
      (∃ a, Reached p a ∧ c.frames.get? a.toNat = none) ∧ ∀ fuel ≥ fuel0, ∃ o,
        encode d partName source date time frames ⟨[], 0, seek, false⟩ fuel = some (.ok o) ∧
        decodeFile p o.bytes fuel = some (.ok (some c)) := by
  have hfits := fits_fromPart d hd p hp
  obtain ⟨fuel1, m, hm, hmono⟩ := C08_fill_terminates p hfits (zeroFrame frameWordsBase) frames
  obtain ⟨hsm, hget⟩ := C07_fill_exact p _ _ _ _ hs hm
  have hwalk : WalkFrom p 0#32 m := (walk_of_completed p hfits _ _ _ _ hs hk hm).1
  have hconv : convertFrames [] frames = frames := convertFrames_id frames hs (by
    intro kf hkf
    obtain ⟨a, _, ha⟩ := hk kf.1 kf.2 hkf
    rw [← ha]; exact a.isLt)
  have hmw : ∀ k f, (k, f) ∈ m → ∀ w ∈ f.toList, ¬ FrameHeader w := by
    intro k f hkf w hwf
    rcases (hget k f).mp (BMap.get?_of_mem hsm hkf) with h | ⟨_, h, _⟩
    · exact hw k f (BMap.mem_of_get? h) w hwf
    · rw [h, zeroFrame, Vector.toList_replicate] at hwf
      rw [(List.mem_replicate.mp hwf).2]
      simp [FrameHeader, field]
  have hpw := payload_words p m hmw
  have hlen : 2 ^ 27 ≤ (type2Payload p m).length := by
    apply Classical.byContradiction
    intro hlt
    apply hbig
    intro walk hw
    have hkeys : walk.map (·.1) = m.map (·.1) := walk_unique p _ _ _ hw hwalk
    have e : (type2Payload p m).length = (m.length + 2 * rowEnds p m + 2) * 101 := type2Payload_length p m
    have e1 : walk.length = m.length := by simpa using congrArg List.length hkeys
    rw [e1, rowEnds_keys p walk m hkeys]
    omega
  have hmod := Nat.mod_lt (type2Payload p m).length (by decide : 0 < 2 ^ 27)
  have hle := Nat.div_add_mod (type2Payload p m).length (2 ^ 27)
  have hdiv : 1 ≤ (type2Payload p m).length / 2 ^ 27 := by
    rw [Nat.le_div_iff_mul_le (by decide)]; omega
  obtain ⟨i, b, hwi, hwn, hoff⟩ := walk_last p m 0#32 hwalk
  obtain ⟨c, hc1, hc2, hc3, hc4⟩ := decode_any (by decide : 0 < frameWordsBase) p hfits
    ((type2Payload p m).take ((type2Payload p m).length % 2 ^ 27))
  have hcut : ((type2Payload p m).take ((type2Payload p m).length % 2 ^ 27)).length = (type2Payload p m).length % 2 ^ 27 := by
    rw [List.length_take]; omega
  -- no address stands twice in the walk
  have honce : ∀ i j a, walkAt p 0#32 i = some a → walkAt p 0#32 j = some a → i = j := by
    have hend : ¬ WalkEndless d := fun h => h p hp (i + 1) (walkAt_after p i b hwi hwn _ (by omega))
    intro i' j' a h1 h2
    rcases Nat.lt_trichotomy i' j' with h | h | h
    · exact absurd ((C114_revisits d p hp).2 ⟨i', j', a, h, h1, h2⟩) hend
    · exact h
    · exact absurd ((C114_revisits d p hp).2 ⟨j', i', a, h, h2, h1⟩) hend
  have hfound : ∀ i a, walkAt p 0#32 i = some a → (c.frames.get? a.toNat ≠ none ↔
      blockOffset 101 p 0#32 i < (type2Payload p m).length % 2 ^ 27) := by
    intro i a hi
    constructor
    · intro hne
      obtain ⟨ws, hws⟩ := Option.ne_none_iff_exists'.1 hne
      obtain ⟨j, b', hj, hb', hlt, _⟩ := (hc4 _ _).mp hws
      have hbb : b' = a := BitVec.eq_of_toNat_eq hb'
      subst hbb
      rw [honce i j b' hi hj, ← hcut]
      exact hlt
    · intro hlt he
      rw [← hcut] at hlt
      have := (hc4 a.toNat _).mpr ⟨i, a, hi, rfl, hlt, rfl⟩
      rw [he] at this
      cases this
  refine ⟨c, (type2Payload p m).length % 2 ^ 27,
    fuel1 + (syncHeader .xc7 ++ emitted (configurationPackage (type2Payload p m) p.idcode)).length + 2, hmod, hfound,
    ⟨b, walkAt_reached p i b hwi, ?_⟩, fun fuel hfuel => ?_⟩
  · apply Classical.byContradiction
    intro hne
    have h1 := (hfound i b hwi).1 hne
    have hoff : blockOffset 101 p 0#32 i + 303 = (type2Payload p m).length := hoff
    omega
  · have hadd : addMissingFrames p (zeroFrame frameWordsBase) fuel frames = some m := by
      have := hmono (fuel - fuel1)
      rwa [show fuel1 + (fuel - fuel1) = fuel by omega] at this
    have hem : emitted (configurationPackage (type2Payload p m) p.idcode) =
        emitted (packagePrefix p.idcode ++ [⟨kTYPE2, opWrite, regFDRI, (type2Payload p m).take ((type2Payload p m).length % 2 ^ 27)⟩]) ++
          ((type2Payload p m).drop ((type2Payload p m).length % 2 ^ 27) ++ emitted packageSuffix) := by
      generalize type2Payload p m = data
      unfold configurationPackage
      simp only [emitted_append, List.append_assoc]
      congr 1
      rw [← List.append_assoc]
      congr 1
      simp only [emitted, List.flatMap_cons, List.flatMap_nil, List.append_nil]
      rw [header2_take opWrite regFDRI, List.cons_append, List.take_append_drop]
    generalize hxs : (type2Payload p m).drop ((type2Payload p m).length % 2 ^ 27) ++ emitted packageSuffix = xs at hem
    generalize hps : packagePrefix p.idcode ++
      [(⟨kTYPE2, opWrite, regFDRI, (type2Payload p m).take ((type2Payload p m).length % 2 ^ 27)⟩ : Packet)] = ps at hem
    have hrep : ∀ x ∈ ps, Representable x := by
      intro x hx
      refine cut_representable (type2Payload p m) p.idcode x ?_
      unfold cutPackage
      rw [hps]
      exact List.mem_append_left _ hx
    have hch : Chained none ps := by
      have hc := cut_chained (type2Payload p m) p.idcode
      unfold cutPackage at hc
      rw [hps] at hc
      have : ∀ (a b : List Packet) (prev : Option Packet), Chained prev (a ++ b) → Chained prev a := by
        intro a
        induction a with
        | nil => intro _ _ _; trivial
        | cons x xs ih => intro b prev h; exact ⟨h.1, ih b _ h.2⟩
      exact this _ _ _ hc
    have hfl : (syncHeader .xc7 ++ emitted (configurationPackage (type2Payload p m) p.idcode)).length < fuel := by omega
    obtain ⟨o, pre, h1, h2, h3⟩ := written_behind (configurationPackage (type2Payload p m) p.idcode) partName source date time hfree seek fuel hfl
    refine ⟨o, (encode_eq d p hp _ _ _ _ frames m _ _ hconv hadd).trans h1, ?_⟩
    have h3 := h3 []
    rw [List.append_nil, List.append_nil, beWords_bytesOfWords, hem] at h3
    obtain ⟨n, h4, _⟩ := packetStream_behind ps xs hrep hch
    rw [decodeFile, h3]
    simp only [Outcome.bind]
    rw [readPackets_eq _ _ (by rw [← hem]; rw [List.length_append] at hfuel; omega), h4]
    simp only [Option.map_some]
    rw [← hps, ← hxs, cut_read p _ hpw, hc1]

/-- The limit is exact, design by design. -/
theorem C116_exact_design (d : Db.Part) (hd : DescFits d) (p : Part) (hp : Part.fromPart d = .ok p)
    (partName source date time : Bytes) (seek : Bool)
    (hfree : SyncFree (headerBytes (source ++ (generatorMark ++ bytes!"fpga-assembler")) partName date time))
    (frames : BMap (FrameWords frameWordsBase)) (hs : frames.Sorted)
    (hk : ∀ k f, (k, f) ∈ frames → ∃ a, Reached p a ∧ a.toNat = k)
    (hw : ∀ k f, (k, f) ∈ frames → ∀ w ∈ f.toList, ¬ FrameHeader w) :
    FitsPacket p ↔ ∃ c fuel0, (∀ a, Reached p a → c.frames.get? a.toNat ≠ none) ∧ ∀ fuel ≥ fuel0, ∃ o,
      encode d partName source date time frames ⟨[], 0, seek, false⟩ fuel = some (.ok o) ∧
      decodeFile p o.bytes fuel = some (.ok (some c)) := by
  constructor
  · intro h
    obtain ⟨m, hsm, hget, fuel0, hf⟩ := C18_any_names d hd p hp h partName source date time seek hfree frames hs hk
    refine ⟨⟨p, sameFrames m⟩, fuel0, fun a ha he => ?_, hf⟩
    obtain ⟨f, h1⟩ : ∃ f, m.get? a.toNat = some f := by
      cases hg : frames.get? a.toNat with
      | some f => exact ⟨f, (hget _ _).mpr (Or.inl hg)⟩
      | none => exact ⟨_, (hget _ _).mpr (Or.inr ⟨hg, rfl, a, ha, rfl⟩)⟩
    have h2 := BMap.mem_of_get? h1
    have h3 : (a.toNat, f.toList) ∈ sameFrames m := List.mem_map.mpr ⟨_, h2, rfl⟩
    have hss : (sameFrames m).Sorted := by
      unfold BMap.Sorted sameFrames at *
      rw [List.pairwise_map]
      exact hsm
    rw [BMap.get?_of_mem hss h3] at he
    cases he
  · rintro ⟨c, fuel0, hall, hf⟩
    apply Classical.byContradiction
    intro hbig
    obtain ⟨c', _, fuel1, _, _, ⟨a, ha, hnone⟩, hf'⟩ := C116_lost_design d hd p hp hbig partName source date time seek hfree frames hs hk hw
    obtain ⟨o, h1, h2⟩ := hf (fuel0 + fuel1) (by omega)
    obtain ⟨o', h1', h2'⟩ := hf' (fuel0 + fuel1) (by omega)
    rw [h1] at h1'
    have := Outcome.ok.inj (Option.some.inj h1')
    subst this
    rw [h2] at h2'
    have := Option.some.inj (Outcome.ok.inj (Option.some.inj h2'))
    subst this
    exact hall a ha hnone

/-- Non-vacuity: one frame of the part beyond the limit, every word of it 7. -/
example : ∃ p c cut fuel0, Part.fromPart hugeDesc = .ok p ∧ cut < 2 ^ 27 ∧ (∃ a, Reached p a ∧ c.frames.get? a.toNat = none) ∧
    (c.frames.get? 0 ≠ none ↔ 0 < cut) ∧ ∀ fuel ≥ fuel0, ∃ o,
      encode hugeDesc bytes!"n" bytes!"s" bytes!"d" bytes!"t" [(0, Vector.replicate frameWordsBase 7#32)] ⟨[], 0, true, false⟩ fuel = some (.ok o) ∧
      decodeFile p o.bytes fuel = some (.ok (some c)) := by
  obtain ⟨hd, p, hp, hbig⟩ := C116_huge
  obtain ⟨c, cut, fuel0, h1, h2, h3, h4⟩ := C116_lost_design hugeDesc hd.fits p hp hbig bytes!"n" bytes!"s" bytes!"d" bytes!"t" true
    ((afterSync_none _).mp (by decide +kernel)) [(0, Vector.replicate frameWordsBase 7#32)] (List.pairwise_singleton _ _)
    (by intro k f h; cases List.mem_singleton.1 h; exact ⟨0#32, .start, rfl⟩)
    (by
      intro k f h w hw
      cases List.mem_singleton.1 h
      rw [Vector.toList_replicate] at hw
      rw [(List.mem_replicate.mp hw).2]
      simp [FrameHeader, field])
  exact ⟨p, c, cut, fuel0, hp, h1, h3, h2 0 0#32 rfl, h4⟩

section
open Verif.Asm
open Verif.Db (PartDatabase Env LoadOrder)

/-- The program on a part beyond the limit: whatever the design (in frames of the part, none of whose words is the header of a write of
frames or of an ID), it exits with status 0, and the bitstream lacks frames of the part. -/
theorem C116_program_design (env : Env) (load : LoadOrder) (hload : LoadOk load) (ord : HashOrder) (hord : Permutes ord) (inv : Invocation)
    (db : PartDatabase) (text : Bytes) (hstart : Starts env load inv db text) (hasm : Assembles db.tiles text)
    (hd : DescFits db.tiles.part) (p : Xc7.Part) (hp : Part.fromPart db.tiles.part = .ok p)
    (hbig : ¬ FitsPacket p) (hdate : ShortAscii inv.date) (htime : ShortAscii inv.time)
    (hframes : ∀ frames, FramesOf db.tiles (Design db.tiles text) frames → ∀ k f, (k, f) ∈ frames →
      (∃ a, Reached p a ∧ a.toNat = k) ∧ ∀ w ∈ f.toList, ¬ FrameHeader w) (seek : Bool) :
    ∃ c fuel0, (∃ a, Reached p a ∧ c.frames.get? a.toNat = none) ∧ ∀ fuel ≥ fuel0, ∃ o,
      main env load ord inv ⟨[], 0, seek, false⟩ fuel = some (.ok (0, o)) ∧
      decodeFile p o.bytes fuel = some (.ok (some c)) := by
  obtain ⟨_, _, _, path, _, _, _, hparse⟩ := id hstart
  obtain ⟨hok, hfresh⟩ := C45_loaded env load hload _ _ db hparse
  obtain ⟨db', frames, ha, hreach, hfr⟩ := assemble_ok hok ord hord text db hfresh hasm
  have hfr' := hframes frames hfr
  obtain ⟨c, _, fuel0, _, _, h1, h2⟩ := C116_lost_design db.tiles.part hd p hp hbig kFasm kSource inv.date inv.time seek (names_syncFree _ _ _ _ (by
    intro s hs
    simp only [List.mem_cons, List.not_mem_nil, or_false] at hs
    rcases hs with rfl | rfl | rfl | rfl
    · unfold ShortAscii; decide
    · unfold ShortAscii; decide
    · exact hdate
    · exact htime)) frames hfr.1 (fun k f h => (hfr' k f h).1) (fun k f h => (hfr' k f h).2)
  refine ⟨c, fuel0, h1, fun fuel hf => ?_⟩
  obtain ⟨o, h3, h4⟩ := h2 fuel hf
  have ht : db'.tiles = db.tiles := (Db.reachable_cache hreach).1
  exact ⟨o, main_started env load ord inv _ fuel db text hstart db' frames ha o (by rw [ht]; exact h3), h4⟩

theorem huge_frames : (assembleFrames sameOrder bytes!"T.F\n" ⟨descTiles hugeDesc, []⟩ [] >>= fun r =>
    .ok (r.2.map (·.1), r.2.all fun e => e.2.toList.all fun w => !w.getLsbD 28)) = .ok (List.range 36, true) := by
  decide +kernel

/-- A header of a write has bit 28 set. -/
theorem frameHeader_bit {w : Word} (h : FrameHeader w) : w.getLsbD 28 = true := by
  have h := h.1
  unfold field at h
  rw [BitVec.getLsbD, Nat.testBit_eq_decide_div_mod_eq]
  simp only [decide_eq_true_eq]
  omega

/-- Non-vacuity: the design `T.F` on that part. -/
example : ∃ p c fuel0, Part.fromPart hugeDesc = .ok p ∧ (∃ a, Reached p a ∧ c.frames.get? a.toNat = none) ∧ ∀ fuel ≥ fuel0, ∃ o,
      main (descEnv hugeDesc) sameLoad sameOrder fileInv ⟨[], 0, true, false⟩ fuel = some (.ok (0, o)) ∧
      decodeFile p o.bytes fuel = some (.ok (some c)) := by
  obtain ⟨hd, p, hp, hbig⟩ := C116_huge
  have hok := (C45_loaded _ _ sameLoad_ok _ _ _ (desc_database hugeDesc hugeDesc_valid)).1
  obtain ⟨⟨db', fr⟩, ha, he⟩ := Outcome.bind_eq_ok.1 huge_frames
  have he := Prod.mk.inj (Outcome.ok.inj he)
  have hfr := C50_frames hok sameOrder sameOrder_permutes _ ⟨descTiles hugeDesc, []⟩ Reachable.fresh _ _ ha
  obtain ⟨c, fuel0, h1, h2⟩ := C116_program_design (descEnv hugeDesc) sameLoad sameLoad_ok sameOrder sameOrder_permutes _ _ _
    (desc_starts hugeDesc hugeDesc_valid)
    ((C50_succeeds hok sameOrder sameOrder_permutes _ _ Reachable.fresh).1 ⟨_, ha⟩) hd.fits p hp hbig
    (by unfold ShortAscii; decide) (by unfold ShortAscii; decide)
    (by
      intro frames hframes k f hkf
      rw [framesOf_unique hframes hfr] at hkf
      have hk : k ∈ List.range 36 := by rw [← he.1]; exact List.mem_map.mpr ⟨_, hkf, rfl⟩
      have hk := List.mem_range.1 hk
      have hkn : (BitVec.ofNat 32 k).toNat = k := by rw [BitVec.toNat_ofNat]; exact Nat.mod_eq_of_lt (by omega)
      refine ⟨⟨BitVec.ofNat 32 k, reached_of_valid p (fits_fromPart _ hd.fits p hp) (dense_fromPart _ hd p hp) _ (by rw [hkn]; omega)
        (huge_valid p hp _ (by rw [hkn]; omega)), hkn⟩, fun w hw hh => ?_⟩
      have := List.all_eq_true.1 (List.all_eq_true.1 he.2 _ hkf) w hw
      rw [frameHeader_bit hh] at this
      cases this) true
  exact ⟨p, c, fuel0, hp, h1, h2⟩

end

end Verif.Props
