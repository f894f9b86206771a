import Verif.Model.Append
import Verif.Props.C18_C23
/-! # C113 output opened for appending -/
namespace Verif.Props
open Verif.Xc7 Verif.Xc7.Packet Verif.Spec Verif.BitOps

/-- The writer of `Model/Append.lean` is the writer of `Model/Writer.lean`. -/
theorem writeFile_on : writeFileOn plainKind = writeFile := rfl

theorem encode_on : encodeOn plainKind = encode := rfl

theorem append_bytes (bs : Bytes) : ∀ o : AppendFile, bs.foldl (fun o b => appendKind.write o [b]) o =
    ⟨o.bytes ++ bs, o.pos + bs.length⟩ := by
  induction bs with
  | nil => intro o; simp
  | cons b bs ih =>
    intro o
    rw [List.foldl_cons, ih]
    simp only [appendKind, AppendFile.mk.injEq, List.append_assoc, List.cons_append, List.nil_append, true_and, List.length_cons,
      List.length_nil]
    omega

theorem append_words (ws : List Word) : ∀ o : AppendFile,
    ws.foldl (fun o w => (bytesOfWord w).foldl (fun o b => appendKind.write o [b]) o) o =
      ⟨o.bytes ++ bytesOfWords ws, o.pos + 4 * ws.length⟩ := by
  induction ws with
  | nil => intro o; simp [bytesOfWords]
  | cons w ws ih =>
    intro o
    rw [List.foldl_cons, append_bytes, ih, bytesOfWords_cons, bytesOfWord_length]
    simp only [AppendFile.mk.injEq, List.append_assoc, List.length_cons, true_and]
    omega

/-- What ends up in the file. -/
theorem append_file (hdr : Bytes) (ws : List Word) (o : AppendFile) : (writeFileOn appendKind hdr ws o).bytes =
    o.bytes ++ (hdr ++ bytesOfWords ws ++ bytesOfWord (BitVec.ofNat 32 (4 * ws.length))) := by
  have e : BitVec.ofInt 32 (((o.pos + hdr.length + 4 * ws.length : Nat) : Int) - ((o.pos + hdr.length : Nat) : Int)) =
      BitVec.ofNat 32 (4 * ws.length) := by
    rw [show (((o.pos + hdr.length + 4 * ws.length : Nat) : Int) - ((o.pos + hdr.length : Nat) : Int)) =
      ((4 * ws.length : Nat) : Int) by omega, BitVec.ofInt_natCast]
  unfold writeFileOn
  dsimp only
  rw [append_words, append_bytes]
  simp only [appendKind, e, List.append_assoc]

/-- The words `Encode` writes do not depend on the stream. -/
theorem encode_words {d : Db.Part} {partName source date time : Bytes} {frames : BMap (FrameWords frameWordsBase)}
    {out o : OStream} {fuel : Nat} (h : encode d partName source date time frames out fuel = some (.ok o)) :
    ∃ ws, o = writeFile (createHeader partName source generatorName date time) ws out ∧
      ∀ {σ : Type} (k : StreamKind σ) (x : σ), encodeOn k d partName source date time frames x fuel =
        some (.ok (writeFileOn k (createHeader partName source generatorName date time) ws x)) := by
  unfold encode at h
  cases hp : Part.fromPart d with
  | err => rw [hp] at h; cases h
  | abort => rw [hp] at h; cases h
  | ub => rw [hp] at h; cases h
  | ok p =>
    rw [hp] at h
    simp only at h
    cases hm : addMissingFrames p (zeroFrame frameWordsBase) fuel (convertFrames [] frames) with
    | none => rw [hm] at h; cases h
    | some m =>
      rw [hm] at h
      simp only [writeBitstream] at h
      cases hw : writerWords .xc7 (configurationPackage (type2Payload p m) p.idcode) fuel with
      | none => rw [hw] at h; cases h
      | some r =>
        rw [hw] at h
        cases r with
        | err => cases h
        | abort => cases h
        | ub => cases h
        | ok ws =>
          refine ⟨ws, ?_, fun k x => ?_⟩
          · have := Option.some.inj h
            exact (Outcome.ok.inj this).symm
          · unfold encodeOn
            rw [hp]
            simp only [hm, writeBitstreamOn, hw, Option.map_some, Outcome.bind]

/-- Finding: written to a file opened for appending, the length field in the header stays 0, and the four bytes that were
meant for it — the length, as the same call writes it into the header of a plain file — end up behind the configuration
data.  What the file held before stays as it is. -/
theorem C113_append (d : Db.Part) (partName source date time : Bytes) (frames : BMap (FrameWords frameWordsBase)) (fuel : Nat)
    (plain : OStream) (hplain : encode d partName source date time frames ⟨[], 0, true, false⟩ fuel = some (.ok plain))
    (f : BitFile) (hf : readBitFile plain.bytes = some f)
    (h1 : source.length < 65500) (h2 : partName.length < 65535) (h3 : date.length < 65535) (h4 : time.length < 65535)
    (old : Bytes) (pos : Nat) :
    ∃ o file, encodeOn appendKind d partName source date time frames ⟨old, pos⟩ fuel = some (.ok o) ∧
      o.bytes = old ++ file ∧
      readBitFile file = some { f with length := 0, config := f.config ++ beBytes (BitVec.ofNat 32 f.length) } := by
  obtain ⟨ws, rfl, ha⟩ := encode_words hplain
  refine ⟨_, _, ha appendKind ⟨old, pos⟩, append_file _ _ _, ?_⟩
  have h1' : (source ++ (generatorInfix ++ generatorName)).length < 65535 := by
    rw [List.length_append, show (generatorInfix ++ generatorName).length = 25 from by decide]; omega
  rw [createHeader_eq] at hf ⊢
  have hwf := writeFile_seekable (headerPrefix partName source generatorName date time) ws ⟨[], 0, true, false⟩ ⟨rfl, rfl⟩ rfl
  rw [hwf] at hf
  simp only [List.nil_append] at hf
  rw [readBitFile_header _ _ _ _ _ _ _ h1' h2 h3 h4] at hf
  have hf := Option.some.inj hf
  subst hf
  have e := readBitFile_header partName source generatorName date time 0#32
    (bytesOfWords ws ++ bytesOfWord (BitVec.ofNat 32 (4 * ws.length))) h1' h2 h3 h4
  rw [show bytesOfWord 0#32 = [0, 0, 0, 0] from by decide] at e
  rw [← List.append_assoc] at e
  rw [e]
  simp only [BitVec.ofNat_toNat, BitVec.setWidth_eq, bytesOfWord_eq]
  rfl

/-- One word alone is a packet without data or no packet. -/
theorem packetsOf_single (w : Word) (n : Nat) (prev : Option Packet) :
    packetsOf n prev [w] = [] ∨ ∃ q, q.data = [] ∧ packetsOf n prev [w] = [q] := by
  cases n with
  | zero => exact Or.inl rfl
  | succ n =>
    have hs : ∀ c : Nat, ¬ ([] : List Word).length < c → c = 0 := by intro c h; simp at h; omega
    simp only [packetsOf]
    split
    · exact Or.inr ⟨_, rfl, by rw [packetsOf_nil]⟩
    · split
      · split
        · exact Or.inl rfl
        · exact Or.inr ⟨⟨1#32, BitVec.ofNat 32 (field w 27 2), BitVec.ofNat 32 (field w 13 14), []⟩, rfl,
            by rw [List.take_nil, List.drop_nil, packetsOf_nil]⟩
      · split
        · split
          · exact Or.inl rfl
          · cases prev with
            | none => exact Or.inl (by simp only [List.drop_nil, packetsOf_nil])
            | some q => exact Or.inr ⟨⟨2#32, BitVec.ofNat 32 (field w 27 2), q.address, []⟩, rfl,
                by simp only [List.take_nil, List.drop_nil, packetsOf_nil]⟩
        · exact Or.inl rfl

/-- One word more at the end, whatever it is, is a packet without data or ends the reading. -/
theorem packetsOf_trailing (ps : List Packet) (w : Word) : ∀ (n : Nat) (prev : Option Packet),
    (emitted ps).length + 1 ≤ n → (∀ p ∈ ps, Representable p) → Chained prev ps →
    packetsOf n prev (emitted ps ++ [w]) = ps ∨ ∃ q, q.data = [] ∧ packetsOf n prev (emitted ps ++ [w]) = ps ++ [q] := by
  induction ps with
  | nil =>
    intro n prev _ _ _
    simpa [emitted] using packetsOf_single w n prev
  | cons p ps ih =>
    intro n prev hn hr hc
    have e : emitted (p :: ps) ++ [w] = p.header :: (p.data ++ (emitted ps ++ [w])) := by simp [emitted]
    have e' : (emitted (p :: ps)).length = (emitted ps).length + p.data.length + 1 := by
      simp [emitted]; omega
    rw [e]
    rw [e'] at hn
    cases n with
    | zero => omega
    | succ n =>
      have hd := decode_encode p (representable_encodable (hr p List.mem_cons_self)) prev
        (fun h => hc.1 (by rw [h]; rfl)) (emitted ps ++ [w])
      rw [packetsOf_step]
      simp only [hd]
      rw [if_neg]
      · rcases ih n (some p) (by omega) (fun q hq => hr q (List.mem_cons_of_mem _ hq)) hc.2 with h | ⟨q, hq, h⟩
        · exact Or.inl (by rw [h])
        · exact Or.inr ⟨q, hq, by rw [h]; rfl⟩
      · intro h
        have := congrArg List.length h
        simp at this
        omega

/-- A packet without data changes no frame and is never refused. -/
theorem decodePacket_empty (n : Nat) (p : Part) (s : DecState) (q : Packet) (hq : q.data = []) :
    ∃ s', decodePacket n p s q = some s' ∧ s'.frames = s.frames := by
  unfold decodePacket
  rw [hq]
  simp only
  repeat' split
  all_goals exact ⟨_, rfl, rfl⟩

/-- Reading back with one more word at the end, whatever it is: the same configuration. -/
theorem decode_trailing (p : Part) (ps : List Packet) (hr : ∀ x ∈ ps, Representable x) (hc : Chained none ps)
    (hdr : Bytes) (hno : ∃ pre, hdr = pre ++ [0x65] ∧ SyncFree hdr) (w : Word) (fuel : Nat)
    (hf : (emitted ps).length + 2 < fuel) :
    decodeFile p (hdr ++ bytesOfWord (BitVec.ofNat 32 (4 * 0)) ++ (bytesOfWords (syncHeader .xc7 ++ emitted ps) ++ bytesOfWord w)) fuel =
      some (.ok (initWithPackets frameWordsBase p ps)) := by
  have hsync : afterSync (hdr ++ bytesOfWord (BitVec.ofNat 32 (4 * 0)) ++
      (bytesOfWords (syncHeader .xc7 ++ emitted ps) ++ bytesOfWord w)) = some (bytesOfWords (emitted ps ++ [w])) := by
    obtain ⟨pre, he, hfree⟩ := hno
    rw [List.append_assoc, he, afterSync_past 0x65 (by decide) _ pre (he ▸ hfree), bytesOfWords_append, bytesOfWord_eq]
    have h3 : UInt8.ofNat ((BitVec.ofNat 32 (4 * 0)).toNat % 256) ≠ 0x66 := by decide
    have hff : bytesOfWords (syncHeader .xc7) = 0xFF :: 0xFF :: 0xFF :: (bytesOfWords (syncHeader .xc7)).drop 3 := by
      decide +kernel
    rw [hff]
    simp only [List.cons_append, List.nil_append, List.append_assoc]
    rw [sync_skip_length _ _ _ _ _ h3, ← List.cons_append, ← List.cons_append, ← List.cons_append, ← hff]
    rw [show bytesOfWords (emitted ps) ++ bytesOfWord w = bytesOfWords (emitted ps ++ [w]) by
      rw [bytesOfWords_append]; simp [bytesOfWords]]
    exact afterSync_header .xc7 _
  have hb : beWords (bytesOfWords (emitted ps ++ [w])) = .ok (emitted ps ++ [w]) := beWords_bytesOfWords _
  rw [decodeFile, initWithBytes, hsync]
  simp only [hb, Outcome.bind_ok, Outcome.pure_eq]
  rw [readPackets_eq _ _ (by rw [List.length_append, List.length_singleton]; omega), packetStream]
  have hnone : ∀ q : Packet, q.data = [] →
      initWithPackets frameWordsBase p (ps ++ [q]) = initWithPackets frameWordsBase p ps := by
    intro q hq
    unfold initWithPackets
    rw [decodePackets_append]
    cases decodePackets frameWordsBase p {} ps with
    | none => rfl
    | some s =>
      obtain ⟨s', h1, h2⟩ := decodePacket_empty frameWordsBase p s q hq
      simp only [Option.bind_some, Option.map_some, decodePackets, h1, h2]
  rcases packetsOf_trailing ps w (emitted ps ++ [w]).length none
    (by rw [List.length_append, List.length_singleton]; exact Nat.le_refl _) hr hc with h | ⟨q, hq, h⟩
  · rw [h]
    simp only [Option.map_some, Outcome.bind]
  · rw [h]
    simp only [Option.map_some, Outcome.bind, hnone q hq]

/-- Still, such a file (made from an empty one) reads back as the plain file does, and to the part and frames encoded: the
bytes behind the data are taken for a packet without data, or for one that is cut off.  Hypotheses as for C18. -/
theorem C113_reads (d : Db.Part) (hd : DescFits d) (p : Part) (hp : Part.fromPart d = .ok p)
    (hsmall : FitsPacket p) (partName source date time : Bytes)
    (hfree : SyncFree (headerBytes (source ++ (generatorMark ++ bytes!"fpga-assembler")) partName date time))
    (frames : BMap (FrameWords frameWordsBase)) (hs : frames.Sorted)
    (hk : ∀ k f, (k, f) ∈ frames → ∃ a, Reached p a ∧ a.toNat = k) :
    ∃ c fuel0, ∀ fuel ≥ fuel0, ∃ plain o,
      encode d partName source date time frames ⟨[], 0, true, false⟩ fuel = some (.ok plain) ∧
      encodeOn appendKind d partName source date time frames ⟨[], 0⟩ fuel = some (.ok o) ∧
      decodeFile p plain.bytes fuel = some (.ok (some c)) ∧ decodeFile p o.bytes fuel = some (.ok (some c)) := by
  have hfits := fits_fromPart d hd p hp
  obtain ⟨fuel1, m, hm, hmono⟩ := C08_fill_terminates p hfits (zeroFrame frameWordsBase) frames
  obtain ⟨hsm, hget⟩ := C07_fill_exact p _ _ _ _ hs hm
  have hdata : (type2Payload p m).length < 2 ^ 27 := hsmall.payload (walk_of_completed p hfits _ _ _ _ hs hk hm).1
  have hconv : convertFrames [] frames = frames := convertFrames_id frames hs (by
    intro kf hkf
    obtain ⟨a, _, ha⟩ := hk kf.1 kf.2 hkf
    rw [← ha]; exact a.isLt)
  have hwit := decode_package (by decide : 0 < frameWordsBase) p m
    (walk_of_completed p hfits _ _ _ _ hs hk hm).1 hsm
  have hr := package_representable (type2Payload p m) p.idcode hdata
  have hc := package_chained (type2Payload p m) p.idcode
  generalize hps : configurationPackage (type2Payload p m) p.idcode = ps at hwit hr hc
  refine ⟨⟨p, sameFrames m⟩, fuel1 + (syncHeader .xc7 ++ emitted ps).length + 2, fun fuel hfuel => ?_⟩
  have hadd : addMissingFrames p (zeroFrame frameWordsBase) fuel frames = some m := by
    have := hmono (fuel - fuel1)
    rwa [show fuel1 + (fuel - fuel1) = fuel by omega] at this
  obtain ⟨plain, h1, h2⟩ := write_then_read p ps hr hc partName source date time hfree true fuel (by omega)
  have hw := writerWords_eq .xc7 ps fuel (by show (syncHeader .xc7 ++ emitted ps).length < fuel; omega)
  refine ⟨plain, writeFileOn appendKind (createHeader partName source generatorName date time) (syncHeader .xc7 ++ emitted ps)
    ⟨[], 0⟩, ?_, ?_, by rw [h2, hwit], ?_⟩
  · rw [encode_eq d p hp _ _ _ _ frames m _ _ hconv hadd, hps]
    exact h1
  · unfold encodeOn
    rw [hp]
    simp only [hconv, hadd, hps, writeBitstreamOn, hw, Option.map_some, Outcome.bind]
  · rw [append_file, List.nil_append, createHeader_eq, ← hwit]
    have e := decode_trailing p ps hr hc _ (header_syncFree partName source date time hfree)
      (BitVec.ofNat 32 (4 * (syncHeader .xc7 ++ emitted ps).length))
      fuel
      (by have : (syncHeader .xc7 ++ emitted ps).length = 13 + (emitted ps).length := by rw [List.length_append]; rfl
          omega)
    rw [show bytesOfWord (BitVec.ofNat 32 (4 * 0)) = [0, 0, 0, 0] from by decide] at e
    rw [List.append_assoc _ (bytesOfWords _)]
    exact e

/-- Non-vacuity: one packet appended to a file that holds two bytes, to which the stream's position is 0. -/
example : ∃ o file, writeBitstreamOn appendKind .ultraScale [wr regCMD 5#32] bytes!"f" bytes!"s" bytes!"g" bytes!"d" bytes!"t"
      ⟨[1, 2], 0⟩ 50 = some (.ok o) ∧ o.bytes = [1, 2] ++ file ∧
    (readBitFile file).map (fun f => (f.length, f.config.length, f.config.drop 32)) = some (0, 36, [0, 0, 0, 32]) :=
  ⟨_, _, rfl, rfl, by decide +kernel⟩

/-- Non-vacuity of the hypotheses: the small device. -/
example : ∃ p, Part.fromPart smallDesc = .ok p ∧ DescFits smallDesc ∧ FitsPacket p ∧
    SyncFree (headerBytes (bytes!"fpga-source" ++ (generatorMark ++ bytes!"fpga-assembler")) bytes!"fasm" bytes!"d" bytes!"t") ∧
    ∃ a, Reached p a ∧ a.toNat = 129 := by
  refine ⟨_, rfl, smallDesc_dense.fits, smallDesc_packet, (afterSync_none _).mp (by decide +kernel), ?_⟩
  exact ⟨_, reached_of_valid _ (fits_fromPart _ smallDesc_dense.fits _ rfl) (dense_fromPart _ smallDesc_dense _ rfl) 129#32
    (by decide) (by decide), rfl⟩

end Verif.Props
