import Verif.Spec.Behind
import Verif.Props.C64
import Verif.Props.C74
import Verif.Props.C113
/-! # C118 What stands behind a bitstream -/
namespace Verif.Props
open Verif.Xc7 Verif.Xc7.Packet Verif.Spec Verif.BitOps

/-- The last packet of a list, or the one before it. -/
def lastPacket (prev : Option Packet) (ps : List Packet) : Option Packet := ps.foldl (fun _ p => some p) prev

/-- Reading goes on behind what was written. -/
theorem packetsOf_behind (ps : List Packet) (xs : List Word) (n : Nat) : ∀ prev : Option Packet,
    (∀ p ∈ ps, Representable p) → Chained prev ps →
    packetsOf (ps.length + n) prev (emitted ps ++ xs) = ps ++ packetsOf n (lastPacket prev ps) xs := by
  induction ps with
  | nil => intro prev _ _; simp [emitted, lastPacket]
  | cons p ps ih =>
    intro prev hr hc
    have e : emitted (p :: ps) ++ xs = p.header :: (p.data ++ (emitted ps ++ xs)) := by simp [emitted]
    have hd := decode_encode p (representable_encodable (hr p List.mem_cons_self)) prev
      (fun h => hc.1 (by rw [h]; rfl)) (emitted ps ++ xs)
    rw [e, List.length_cons, show ps.length + 1 + n = (ps.length + n) + 1 by omega, packetsOf_step]
    simp only [hd]
    rw [if_neg, ih (some p) (fun q hq => hr q (List.mem_cons_of_mem _ hq)) hc.2]
    · rfl
    · intro h
      have := congrArg List.length h
      simp at this
      omega

theorem length_emitted (ps : List Packet) : ps.length ≤ (emitted ps).length := by
  induction ps with
  | nil => exact Nat.zero_le _
  | cons p ps ih =>
    have : (emitted (p :: ps)).length = (emitted ps).length + p.data.length + 1 := by simp [emitted]; omega
    rw [List.length_cons]
    omega

theorem packetStream_behind (ps : List Packet) (xs : List Word) (hr : ∀ p ∈ ps, Representable p) (hc : Chained none ps) :
    ∃ n, packetStream (emitted ps ++ xs) = ps ++ packetsOf n (lastPacket none ps) xs ∧ xs.length ≤ n := by
  have h := length_emitted ps
  refine ⟨(emitted ps).length - ps.length + xs.length, ?_, by omega⟩
  rw [packetStream, List.length_append, show (emitted ps).length + xs.length =
    ps.length + ((emitted ps).length - ps.length + xs.length) by omega]
  exact packetsOf_behind ps xs _ none hr hc

/-- Packets that write neither frames nor the ID leave the frames alone. -/
theorem decodePackets_harmless (n : Nat) (p : Part) (pkts : List Packet) : ∀ (s : DecState),
    (∀ x ∈ pkts, x.opcode = opWrite → x.address ≠ regFDRI ∧ x.address ≠ regIDCODE) →
    ∃ s', decodePackets n p s pkts = some s' ∧ s'.frames = s.frames := by
  induction pkts with
  | nil => intro s _; exact ⟨s, rfl, rfl⟩
  | cons x xs ih =>
    intro s h
    have h1 : ∃ s1, decodePacket n p s x = some s1 ∧ s1.frames = s.frames := by
      by_cases ho : x.opcode = opWrite
      · exact decodePacket_other n p s x (h x List.mem_cons_self ho).1 (h x List.mem_cons_self ho).2
      · exact ⟨s, by unfold decodePacket; rw [if_pos ho], rfl⟩
    obtain ⟨s1, e1, f1⟩ := h1
    obtain ⟨s2, e2, f2⟩ := ih s1 (fun y hy => h y (List.mem_cons_of_mem _ hy))
    exact ⟨s2, by simp [decodePackets, e1, e2], by rw [f2, f1]⟩

/-- Words none of which is such a header make no such packets. -/
theorem packetsOf_harmless : ∀ (n : Nat) (prev : Option Packet) (xs : List Word), (∀ w ∈ xs, ¬ FrameHeader w) →
    ∀ q ∈ packetsOf n prev xs, q.opcode = opWrite → q.address ≠ regFDRI ∧ q.address ≠ regIDCODE
  | 0, _, _, _, q, hq => by cases hq
  | n + 1, _, [], _, q, hq => by cases hq
  | n + 1, prev, w :: ws, h, q, hq => by
    have hw := h w List.mem_cons_self
    have hdrop : ∀ c, ∀ x ∈ ws.drop c, ¬ FrameHeader x := fun c x hx => h x (List.mem_cons_of_mem _ (List.mem_of_mem_drop hx))
    have hop : BitVec.ofNat 32 (field w 27 2) = opWrite → field w 27 2 = 2 := by
      intro hx
      have hlt : field w 27 2 < 4 := by unfold field; omega
      have hx := congrArg BitVec.toNat hx
      rw [BitVec.toNat_ofNat, Nat.mod_eq_of_lt (by omega)] at hx
      exact hx
    have had : ∀ r : BitVec 32, BitVec.ofNat 32 (field w 13 14) = r → field w 13 14 = r.toNat := by
      intro r hx
      have hlt : field w 13 14 < 2 ^ 14 := by unfold field; omega
      rw [← hx, BitVec.toNat_ofNat, Nat.mod_eq_of_lt (by omega)]
    unfold packetsOf at hq
    dsimp only at hq
    split at hq
    · rcases List.mem_cons.1 hq with rfl | hq
      · exact fun e => absurd e (by decide)
      · exact packetsOf_harmless n _ ws (fun x hx => h x (List.mem_cons_of_mem _ hx)) q hq
    · split at hq
      · rename_i h1
        split at hq
        · cases hq
        · rcases List.mem_cons.1 hq with rfl | hq
          · intro e
            exact ⟨fun e2 => hw ⟨hop e, Or.inr ⟨h1, Or.inl (had _ e2)⟩⟩, fun e2 => hw ⟨hop e, Or.inr ⟨h1, Or.inr (had _ e2)⟩⟩⟩
          · exact packetsOf_harmless n _ _ (hdrop _) q hq
      · split at hq
        · rename_i h2
          split at hq
          · cases hq
          · cases prev with
            | none => exact packetsOf_harmless n _ _ (hdrop _) q hq
            | some r =>
              rcases List.mem_cons.1 hq with rfl | hq
              · exact fun e => absurd ⟨hop e, Or.inl h2⟩ hw
              · exact packetsOf_harmless n _ _ (hdrop _) q hq
        · cases hq

theorem init_harmless (n : Nat) (p : Part) (ps qs : List Packet) (h : ∀ q ∈ qs, q.opcode = opWrite → q.address ≠ regFDRI ∧ q.address ≠ regIDCODE) :
    initWithPackets n p (ps ++ qs) = initWithPackets n p ps := by
  unfold initWithPackets
  rw [decodePackets_append]
  cases decodePackets n p {} ps with
  | none => rw [Option.bind_none]
  | some s =>
    obtain ⟨s1, e1, f1⟩ := decodePackets_harmless n p qs s h
    rw [Option.bind_some, e1]
    simp only [Option.map_some, f1]

/-- What the reader starts from, whatever stands behind the sync words. -/
theorem written_sync (hdr : Bytes) (n : Nat) (hno : ∃ pre, hdr = pre ++ [0x65] ∧ SyncFree hdr) (t : Bytes) :
    afterSync (hdr ++ bytesOfWord (BitVec.ofNat 32 (4 * n)) ++ (bytesOfWords (syncHeader .xc7) ++ t)) = some t := by
  obtain ⟨pre, he, hfree⟩ := hno
  rw [List.append_assoc, he, afterSync_past 0x65 (by decide) _ pre (he ▸ hfree), bytesOfWord_eq]
  have h3 : UInt8.ofNat ((BitVec.ofNat 32 (4 * n)).toNat % 256) ≠ 0x66 := by
    intro h
    have := congrArg UInt8.toNat h
    rw [UInt8.toNat_ofNat', BitVec.toNat_ofNat, show (0x66 : UInt8).toNat = 102 from rfl] at this
    omega
  have hff : bytesOfWords (syncHeader .xc7) = 0xFF :: 0xFF :: 0xFF :: (bytesOfWords (syncHeader .xc7)).drop 3 := by
    decide +kernel
  rw [hff]
  simp only [List.cons_append, List.nil_append]
  rw [sync_skip_length _ _ _ _ _ h3, ← List.cons_append, ← List.cons_append, ← List.cons_append, ← hff]
  exact afterSync_header .xc7 _

/-- A written file with more bytes behind it. -/
theorem written_behind (ps : List Packet) (partName source date time : Bytes)
    (hfree : SyncFree (headerBytes (source ++ (generatorMark ++ generatorName)) partName date time)) (seek : Bool) (fuel : Nat)
    (hf : (syncHeader .xc7 ++ emitted ps).length < fuel) :
    ∃ o pre, writeBitstream .xc7 ps partName source generatorName date time ⟨[], 0, seek, false⟩ fuel = some (.ok o) ∧
      o.bytes = pre ++ bytesOfWords (syncHeader .xc7 ++ emitted ps) ∧
      ∀ x, initWithBytes (o.bytes ++ x) = (beWords (bytesOfWords (emitted ps) ++ x)).bind fun ws => .ok (some ws) := by
  have hw := writerWords_eq .xc7 ps fuel hf
  have key : ∃ n, (writeFile (createHeader partName source generatorName date time) (syncHeader .xc7 ++ emitted ps)
      ⟨[], 0, seek, false⟩).bytes = headerPrefix partName source generatorName date time ++ bytesOfWord (BitVec.ofNat 32 (4 * n)) ++
        bytesOfWords (syncHeader .xc7 ++ emitted ps) := by
    cases seek with
    | true =>
      have hwf := writeFile_seekable (headerPrefix partName source generatorName date time)
        (syncHeader .xc7 ++ emitted ps) ⟨[], 0, true, false⟩ ⟨rfl, rfl⟩ rfl
      rw [← createHeader_eq] at hwf
      rw [hwf]
      simp only [List.nil_append]
      exact ⟨_, rfl⟩
    | false =>
      have hwf := (writeFile_pipe (createHeader partName source generatorName date time)
        (syncHeader .xc7 ++ emitted ps) ⟨[], 0, false, false⟩ ⟨rfl, rfl⟩ rfl).1
      rw [hwf, createHeader_eq, List.nil_append]
      exact ⟨0, rfl⟩
  obtain ⟨n, hn⟩ := key
  refine ⟨_, _, by simp only [writeBitstream, hw, Option.map_some, Outcome.bind], hn, fun x => ?_⟩
  rw [hn, bytesOfWords_append, List.append_assoc, List.append_assoc (bytesOfWords (syncHeader .xc7)), initWithBytes,
    written_sync _ n (header_syncFree _ _ _ _ hfree)]
  rfl

/-- What `Encode` prints, with anything behind it, as the reader sees it. -/
theorem encoded_behind (d : Db.Part) (hd : DescFits d) (p : Part) (hp : Part.fromPart d = .ok p)
    (hsmall : FitsPacket p) (partName source date time : Bytes) (seek : Bool)
    (hfree : SyncFree (headerBytes (source ++ (generatorMark ++ bytes!"fpga-assembler")) partName date time))
    (frames : BMap (FrameWords frameWordsBase)) (hs : frames.Sorted)
    (hk : ∀ k f, (k, f) ∈ frames → ∃ a, Reached p a ∧ a.toNat = k) :
    ∃ ps c fuel0, (∀ x ∈ ps, Representable x) ∧ Chained none ps ∧ initWithPackets frameWordsBase p ps = some c ∧
      (∃ data, ps = configurationPackage data p.idcode) ∧ c.part = p ∧
      (emitted ps).length + 2 ≤ fuel0 ∧
      ∀ fuel ≥ fuel0, ∃ o pre,
        encode d partName source date time frames ⟨[], 0, seek, false⟩ fuel = some (.ok o) ∧
        o.bytes = pre ++ bytesOfWords (syncHeader .xc7 ++ emitted ps) ∧
        ∀ x, initWithBytes (o.bytes ++ x) = (beWords (bytesOfWords (emitted ps) ++ x)).bind fun ws => .ok (some ws) := by
  have hfits := fits_fromPart d hd p hp
  obtain ⟨fuel1, m, hm, hmono⟩ := C08_fill_terminates p hfits (zeroFrame frameWordsBase) frames
  obtain ⟨hsm, hget⟩ := C07_fill_exact p _ _ _ _ hs hm
  have hdata : (type2Payload p m).length < 2 ^ 27 := hsmall.payload (walk_of_completed p hfits _ _ _ _ hs hk hm).1
  have hconv : convertFrames [] frames = frames := convertFrames_id frames hs (by
    intro kf hkf
    obtain ⟨a, _, ha⟩ := hk kf.1 kf.2 hkf
    rw [← ha]; exact a.isLt)
  have hwit := decode_package (by decide : 0 < frameWordsBase) p m
    (walk_of_completed p hfits _ _ _ _ hs hk hm).1 hsm
  have hr := package_representable (type2Payload p m) p.idcode hdata
  have hc := package_chained (type2Payload p m) p.idcode
  refine ⟨configurationPackage (type2Payload p m) p.idcode, _,
    fuel1 + (syncHeader .xc7 ++ emitted (configurationPackage (type2Payload p m) p.idcode)).length + 2, hr, hc, hwit, ⟨_, rfl⟩, rfl,
    by rw [List.length_append]; omega, fun fuel hfuel => ?_⟩
  have hadd : addMissingFrames p (zeroFrame frameWordsBase) fuel frames = some m := by
    have := hmono (fuel - fuel1)
    rwa [show fuel1 + (fuel - fuel1) = fuel by omega] at this
  obtain ⟨o, pre, h1, h2, h3⟩ := written_behind (configurationPackage (type2Payload p m) p.idcode) partName source date time hfree seek fuel (by omega)
  exact ⟨o, pre, (encode_eq d p hp _ _ _ _ frames m _ _ hconv hadd).trans h1, h2, h3⟩

/-- Reading the words behind. -/
theorem decode_behind (p : Part) (bytes : Bytes) (ps : List Packet) (hr : ∀ x ∈ ps, Representable x) (hc : Chained none ps)
    (h : ∀ x, initWithBytes (bytes ++ x) = (beWords (bytesOfWords (emitted ps) ++ x)).bind fun ws => .ok (some ws)) :
    (∀ x, x.length % 4 ≠ 0 → ∀ fuel, decodeFile p (bytes ++ x) fuel = some .ub) ∧
    ∀ xs, ∃ n, xs.length ≤ n ∧ ∀ fuel, (emitted ps).length + xs.length + 1 < fuel →
      decodeFile p (bytes ++ fileBytes xs) fuel =
        some (.ok (initWithPackets frameWordsBase p (ps ++ packetsOf n (lastPacket none ps) xs))) := by
  constructor
  · intro x hx fuel
    have : (bytesOfWords (emitted ps) ++ x).length % 4 ≠ 0 := by
      rw [List.length_append, show bytesOfWords (emitted ps) = fileBytes (emitted ps) from C13_serialise _, fileBytes_length]; omega
    rw [decodeFile, h, C13_ragged_reads_outside _ this]
    rfl
  · intro xs
    obtain ⟨n, h1, h2⟩ := packetStream_behind ps xs hr hc
    refine ⟨n, h2, fun fuel hf => ?_⟩
    rw [decodeFile, h, ← C13_serialise xs, show xs.flatMap bytesOfWord = bytesOfWords xs from rfl, ← bytesOfWords_append,
      beWords_bytesOfWords]
    simp only [Outcome.bind]
    rw [readPackets_eq _ _ (by rw [List.length_append]; omega), h1]
    rfl

/-- **The part that holds**: words behind the bitstream none of which is the header of a write of frames or of an ID (zeros, ones, NOPs,
commands, writes to other registers), any number of them, do not change what is read back. -/
theorem C118_idle_partial (d : Db.Part) (hd : DescFits d) (p : Part) (hp : Part.fromPart d = .ok p)
    (hsmall : FitsPacket p) (partName source date time : Bytes) (seek : Bool)
    (hfree : SyncFree (headerBytes (source ++ (generatorMark ++ bytes!"fpga-assembler")) partName date time))
    (frames : BMap (FrameWords frameWordsBase)) (hs : frames.Sorted)
    (hk : ∀ k f, (k, f) ∈ frames → ∃ a, Reached p a ∧ a.toNat = k) :
    ∃ c fuel0, ∀ fuel ≥ fuel0, ∃ o,
      encode d partName source date time frames ⟨[], 0, seek, false⟩ fuel = some (.ok o) ∧
      decodeFile p o.bytes fuel = some (.ok (some c)) ∧
      ∀ words : List Word, (∀ w ∈ words, ¬ FrameHeader w) → fuel0 + words.length ≤ fuel →
        decodeFile p (o.bytes ++ fileBytes words) fuel = some (.ok (some c)) := by
  obtain ⟨ps, c, fuel0, hr, hc, hi, _, _, hfu, h⟩ :=
    encoded_behind d hd p hp hsmall partName source date time seek hfree frames hs hk
  refine ⟨c, fuel0, fun fuel hf => ?_⟩
  obtain ⟨o, _, h1, _, h2⟩ := h fuel hf
  have key : ∀ words : List Word, (∀ w ∈ words, ¬ FrameHeader w) → fuel0 + words.length ≤ fuel →
      decodeFile p (o.bytes ++ fileBytes words) fuel = some (.ok (some c)) := by
    intro words hw hl
    obtain ⟨n, _, h3⟩ := (decode_behind p o.bytes ps hr hc h2).2 words
    rw [h3 fuel (by omega), init_harmless _ _ _ _ (packetsOf_harmless n _ words hw), hi]
  refine ⟨o, h1, ?_, key⟩
  have := key [] (fun _ h => by cases h) (by simpa using hf)
  rwa [show fileBytes [] = [] from rfl, List.append_nil] at this

/-- Reading ends at a word of an unknown type. -/
theorem packetsOf_stop (w : Word) (hw : 3 ≤ field w 29 3) (rest : List Word) : ∀ (a : List Word) (n : Nat) (prev : Option Packet),
    (∀ x ∈ a, field x 29 3 = 0) → ∀ q ∈ packetsOf n prev (a ++ w :: rest), q.opcode.toNat ≠ 2
  | _, 0, _, _, q, hq => by cases hq
  | [], n + 1, prev, _, q, hq => by
    rw [List.nil_append, packetsOf, if_neg (by omega), if_neg (by omega), if_neg (by omega)] at hq
    cases hq
  | x :: a, n + 1, prev, h, q, hq => by
    rw [List.cons_append, packetsOf, if_pos (h x List.mem_cons_self)] at hq
    rcases List.mem_cons.1 hq with rfl | hq
    · exact (by decide)
    · exact packetsOf_stop w hw rest a n _ (fun y hy => h y (List.mem_cons_of_mem _ hy)) q hq

/-- **The part that holds, more**: a word of a type packets do not have (3 to 7, for instance 0xFFFFFFFF), with nothing but words of type 0 before
it, ends the reading: anything may stand behind. -/
theorem C118_stop_partial (d : Db.Part) (hd : DescFits d) (p : Part) (hp : Part.fromPart d = .ok p)
    (hsmall : FitsPacket p) (partName source date time : Bytes) (seek : Bool)
    (hfree : SyncFree (headerBytes (source ++ (generatorMark ++ bytes!"fpga-assembler")) partName date time))
    (frames : BMap (FrameWords frameWordsBase)) (hs : frames.Sorted)
    (hk : ∀ k f, (k, f) ∈ frames → ∃ a, Reached p a ∧ a.toNat = k) :
    ∃ c fuel0, ∀ fuel ≥ fuel0, ∃ o,
      encode d partName source date time frames ⟨[], 0, seek, false⟩ fuel = some (.ok o) ∧
      decodeFile p o.bytes fuel = some (.ok (some c)) ∧
      ∀ (zeros : List Word) (w : Word) (rest : List Word), (∀ x ∈ zeros, field x 29 3 = 0) → 3 ≤ field w 29 3 →
        fuel0 + (zeros ++ w :: rest).length ≤ fuel →
        decodeFile p (o.bytes ++ fileBytes (zeros ++ w :: rest)) fuel = some (.ok (some c)) := by
  obtain ⟨ps, c, fuel0, hr, hc, hi, _, _, hfu, h⟩ :=
    encoded_behind d hd p hp hsmall partName source date time seek hfree frames hs hk
  refine ⟨c, fuel0, fun fuel hf => ?_⟩
  obtain ⟨o, _, h1, _, h2⟩ := h fuel hf
  refine ⟨o, h1, ?_, ?_⟩
  · obtain ⟨n, _, h5⟩ := (decode_behind p o.bytes ps hr hc h2).2 []
    have h6 := h5 fuel (by rw [List.length_nil]; omega)
    rw [packetsOf_nil, List.append_nil, hi, show fileBytes [] = [] from rfl, List.append_nil] at h6
    exact h6
  · intro zeros w rest hz hw hl
    obtain ⟨n, _, h3⟩ := (decode_behind p o.bytes ps hr hc h2).2 (zeros ++ w :: rest)
    rw [h3 fuel (by omega), init_harmless _ _ _ _ (fun q hq e => absurd (congrArg BitVec.toNat e) (packetsOf_stop w hw rest zeros n _ hz q hq)), hi]

/-- A file the program prints begins with four words of type 0 and one of type 3. -/
theorem printed_words (d : Db.Part) (date time : Bytes) (frames : BMap (FrameWords frameWordsBase)) (seek : Bool) (fuel : Nat) (o : OStream)
    (h : encode d bytes!"fasm" bytes!"fpga-source" date time frames ⟨[], 0, seek, false⟩ fuel = some (.ok o))
    (hl : (date.length + time.length) % 4 = 2) :
    ∃ zeros w rest, o.bytes = fileBytes (zeros ++ w :: rest) ∧ (∀ x ∈ zeros, field x 29 3 = 0) ∧ 3 ≤ field w 29 3 := by
  obtain ⟨ws, rfl, _⟩ := encode_words h
  have key : ∃ n, (writeFile (createHeader bytes!"fasm" bytes!"fpga-source" generatorName date time) ws ⟨[], 0, seek, false⟩).bytes =
      headerPrefix bytes!"fasm" bytes!"fpga-source" generatorName date time ++ bytesOfWord n ++ bytesOfWords ws := by
    cases seek with
    | true =>
      have hwf := writeFile_seekable (headerPrefix bytes!"fasm" bytes!"fpga-source" generatorName date time)
        ws ⟨[], 0, true, false⟩ ⟨rfl, rfl⟩ rfl
      rw [← createHeader_eq] at hwf
      rw [hwf]
      simp only [List.nil_append]
      exact ⟨_, rfl⟩
    | false =>
      have hwf := (writeFile_pipe (createHeader bytes!"fasm" bytes!"fpga-source" generatorName date time)
        ws ⟨[], 0, false, false⟩ ⟨rfl, rfl⟩ rfl).1
      rw [hwf, createHeader_eq, List.nil_append]
      exact ⟨0#32, rfl⟩
  obtain ⟨n, hn⟩ := key
  rw [hn]
  obtain ⟨t, ht, hlen⟩ : ∃ t, headerPrefix bytes!"fasm" bytes!"fpga-source" generatorName date time =
      fileBytes [0x00090ff0#32, 0x0ff00ff0#32, 0x0ff00000#32, 0x01610025#32, 0x66706761#32] ++ t ∧ t.length % 4 = 0 := by
    refine ⟨(headerPrefix bytes!"fasm" bytes!"fpga-source" generatorName date time).drop 20, ?_, ?_⟩
    · have e : (headerPrefix bytes!"fasm" bytes!"fpga-source" generatorName date time).take 20 =
          fileBytes [0x00090ff0#32, 0x0ff00ff0#32, 0x0ff00000#32, 0x01610025#32, 0x66706761#32] := by
        rfl
      rw [← e, List.take_append_drop]
    · rw [List.length_drop]
      simp only [headerPrefix, List.length_append, tlv, List.length_cons, List.length_nil]
      simp [fileMagic, generatorInfix, generatorName]
      omega
  obtain ⟨ts, _, hts⟩ := C13_serialise_read t hlen
  refine ⟨[0x00090ff0#32, 0x0ff00ff0#32, 0x0ff00000#32, 0x01610025#32], 0x66706761#32, ts ++ (n :: ws), ?_, ?_, ?_⟩
  · rw [ht, ← hts, ← C13_serialise, ← C13_serialise, ← C13_serialise]
    simp [bytesOfWords]
  · intro x hx
    simp only [List.mem_cons, List.not_mem_nil, or_false] at hx
    rcases hx with rfl | rfl | rfl | rfl <;> (unfold field; decide +kernel)
  · unfold field; decide +kernel

/-- Two files the program printed, one behind the other (`cat a.bit b.bit`), are read back as the first: the reading ends in the header of the
second.  (Date and time have ten and eight characters.) -/
theorem C118_two_files (d : Db.Part) (hd : DescFits d) (p : Part) (hp : Part.fromPart d = .ok p)
    (hsmall : FitsPacket p) (partName source date time : Bytes) (seek : Bool)
    (hfree : SyncFree (headerBytes (source ++ (generatorMark ++ bytes!"fpga-assembler")) partName date time))
    (frames : BMap (FrameWords frameWordsBase)) (hs : frames.Sorted)
    (hk : ∀ k f, (k, f) ∈ frames → ∃ a, Reached p a ∧ a.toNat = k)
    (d' : Db.Part) (date' time' : Bytes) (frames' : BMap (FrameWords frameWordsBase)) (seek' : Bool) (fuel' : Nat) (o' : OStream)
    (h' : encode d' bytes!"fasm" bytes!"fpga-source" date' time' frames' ⟨[], 0, seek', false⟩ fuel' = some (.ok o'))
    (hl' : date'.length = 10 ∧ time'.length = 8) :
    ∃ c fuel0, ∀ fuel ≥ fuel0, ∃ o,
      encode d partName source date time frames ⟨[], 0, seek, false⟩ fuel = some (.ok o) ∧
      decodeFile p o.bytes fuel = some (.ok (some c)) ∧ decodeFile p (o.bytes ++ o'.bytes) fuel = some (.ok (some c)) := by
  obtain ⟨zeros, w, rest, e, hz, hw⟩ := printed_words d' date' time' frames' seek' fuel' o' h' (by rw [hl'.1, hl'.2])
  obtain ⟨c, fuel0, h⟩ := C118_stop_partial d hd p hp hsmall partName source date time seek hfree frames hs hk
  refine ⟨c, fuel0 + (zeros ++ w :: rest).length, fun fuel hf => ?_⟩
  obtain ⟨o, h1, h2, h3⟩ := h fuel (by omega)
  exact ⟨o, h1, h2, by rw [e]; exact h3 zeros w rest hz hw hf⟩

/-- A number of bytes that is no multiple of four: the reader reads outside the file. -/
theorem C118_ragged (d : Db.Part) (hd : DescFits d) (p : Part) (hp : Part.fromPart d = .ok p)
    (hsmall : FitsPacket p) (partName source date time : Bytes) (seek : Bool)
    (hfree : SyncFree (headerBytes (source ++ (generatorMark ++ bytes!"fpga-assembler")) partName date time))
    (frames : BMap (FrameWords frameWordsBase)) (hs : frames.Sorted)
    (hk : ∀ k f, (k, f) ∈ frames → ∃ a, Reached p a ∧ a.toNat = k) (x : Bytes) (hx : x.length % 4 ≠ 0) :
    ∃ fuel0, ∀ fuel ≥ fuel0, ∃ o,
      encode d partName source date time frames ⟨[], 0, seek, false⟩ fuel = some (.ok o) ∧
      decodeFile p (o.bytes ++ x) fuel = some .ub := by
  obtain ⟨ps, c, fuel0, hr, hc, hi, _, _, hfu, h⟩ :=
    encoded_behind d hd p hp hsmall partName source date time seek hfree frames hs hk
  refine ⟨fuel0, fun fuel hf => ?_⟩
  obtain ⟨o, _, h1, _, h2⟩ := h fuel hf
  exact ⟨o, h1, (decode_behind p o.bytes ps hr hc h2).1 x hx fuel⟩

/-- A device that has left the configuration mode ignores everything. -/
theorem desynced_stays (id : Word) (l : List Packet) (s : Device) (hs : s.desynced = true) : l.foldl (Device.packet id) s = s := by
  induction l with
  | nil => rfl
  | cons q l ih =>
    have : Device.packet id s q = s := by unfold Device.packet; rw [if_pos (Or.inl hs)]
    rw [List.foldl_cons, this, ih]

theorem desync_fold (id : Word) (l : List Packet) (s : Device) (h : wr regCMD 0xD#32 ∈ l) :
    (l.foldl (Device.packet id) s).desynced = true := by
  obtain ⟨a, b, rfl⟩ := List.append_of_mem h
  rw [List.foldl_append, List.foldl_cons]
  generalize List.foldl (Device.packet id) s a = s'
  have : (Device.packet id s' (wr regCMD 0xD#32)).desynced = true := by
    by_cases hs : s'.desynced = true
    · unfold Device.packet; rw [if_pos (Or.inl hs)]; exact hs
    · unfold Device.packet
      rw [if_neg (by rintro (h | h); exact hs h; exact h rfl)]
      simp [wr, payload1, regCMD, Device.write, Device.command]
  rw [desynced_stays id b _ this]
  exact this

/-- A device takes nothing in behind the bitstream: it has left the configuration mode.  (The device of `Spec/Device.lean` does not come back; a real
one would at another sync word.) -/
theorem C118_device (d : Db.Part) (hd : DescFits d) (p : Part) (hp : Part.fromPart d = .ok p)
    (hsmall : FitsPacket p) (partName source date time : Bytes) (seek : Bool)
    (hfree : SyncFree (headerBytes (source ++ (generatorMark ++ bytes!"fpga-assembler")) partName date time))
    (frames : BMap (FrameWords frameWordsBase)) (hs : frames.Sorted)
    (hk : ∀ k f, (k, f) ∈ frames → ∃ a, Reached p a ∧ a.toNat = k) :
    ∃ fuel0, ∀ fuel ≥ fuel0, ∃ o pre words,
      encode d partName source date time frames ⟨[], 0, seek, false⟩ fuel = some (.ok o) ∧
      o.bytes = pre ++ fileBytes (List.replicate 8 0xFFFFFFFF#32 ++ [0x000000BB#32, 0x11220044#32] ++
        List.replicate 2 0xFFFFFFFF#32 ++ [0xAA995566#32] ++ words) ∧
      ∀ id more, Device.run id (words ++ more) = Device.run id words := by
  obtain ⟨ps, c, fuel0, hr, hc, hi, ⟨data, hdata⟩, _, hfu, h⟩ :=
    encoded_behind d hd p hp hsmall partName source date time seek hfree frames hs hk
  refine ⟨fuel0, fun fuel hf => ?_⟩
  obtain ⟨o, pre, h1, h2, _⟩ := h fuel hf
  refine ⟨o, pre, emitted ps, h1, ?_, ?_⟩
  · rw [h2, ← C13_serialise]; rfl
  · intro id more
    have hdes : ∀ s : Device, (ps.foldl (Device.packet id) s).desynced = true := fun s =>
      desync_fold id ps s (by
        rw [hdata, configurationPackage]
        exact List.mem_append_right _ (List.mem_append_left _ (List.mem_append_right _ (by simp))))
    obtain ⟨n, e1, _⟩ := packetStream_behind ps more hr hc
    have e2 : packetStream (emitted ps) = ps := packetsOf_emitted ps _ none (Nat.le_refl _) hr hc
    rw [Device.run, Device.run, e1, e2, List.foldl_append, desynced_stays id _ _ (hdes _)]

/-! ## The reader goes on -/

theorem frameWrite_emitted (a : FrameAddress) (ws : List Word) (hl : ws.length = 101) :
    frameWrite a ws = emitted [writes 1#32 4 [1#32], writes 1#32 1 [a], writes 1#32 2 ws] := by
  have h : (writes 1#32 2 ws).header = 0x30004065#32 := by
    unfold writes Packet.header
    simp only [hl]
    decide
  have h1 : (writes 1#32 1 [a]).header = 0x30002001#32 := by
    unfold writes Packet.header
    simp only [List.length_singleton]
    decide
  simp only [emitted, List.flatMap_cons, List.flatMap_nil, h, h1]
  simp [frameWrite, writes, Packet.header]
  decide

/-- One frame of words goes to the frame where the block begins. -/
theorem placed_one (p : Part) (a : FrameAddress) (ws : List Word) (hl : ws.length = 101) (k : Nat) (x : List Word) :
    Placed frameWordsBase p a ws k x ↔ a.toNat = k ∧ x = ws := by
  have h0 : ∀ i, blockOffset frameWordsBase p a i < 101 → i = 0 := by
    intro i hi
    cases i with
    | zero => rfl
    | succ i => unfold blockOffset at hi; have e : frameWordsBase = 101 := rfl; omega
  constructor
  · rintro ⟨i, b, hw, hb, ho, hx⟩
    have := h0 i (hl ▸ ho)
    subst this
    cases hw
    refine ⟨hb, ?_⟩
    rw [hx]
    show (ws.drop 0).take 101 = ws
    rw [List.drop_zero, List.take_of_length_le (by omega)]
  · rintro ⟨hk, rfl⟩
    refine ⟨0, a, rfl, hk, ?_, ?_⟩
    · show 0 < x.length; omega
    · show x = (x.drop 0).take 101
      rw [List.drop_zero, List.take_of_length_le (by omega)]

/-- **False of the code**: the reader does not stop where the device does.  Behind any file the program prints, 106 words are read as one more
frame: whatever the file holds for frame `a`, it is read back as these words say. -/
theorem C118_defect (d : Db.Part) (hd : DescFits d) (p : Part) (hp : Part.fromPart d = .ok p)
    (hsmall : FitsPacket p) (partName source date time : Bytes) (seek : Bool)
    (hfree : SyncFree (headerBytes (source ++ (generatorMark ++ bytes!"fpga-assembler")) partName date time))
    (frames : BMap (FrameWords frameWordsBase)) (hs : frames.Sorted)
    (hk : ∀ k f, (k, f) ∈ frames → ∃ a, Reached p a ∧ a.toNat = k)
    (a : FrameAddress) (ha : a.toNat < 2 ^ 26) (words : List Word) (hw : words.length = 101) :
    ∃ c c' fuel0, ∀ fuel ≥ fuel0, ∃ o,
      encode d partName source date time frames ⟨[], 0, seek, false⟩ fuel = some (.ok o) ∧
      decodeFile p o.bytes fuel = some (.ok (some c)) ∧
      decodeFile p (o.bytes ++ fileBytes (frameWrite a words)) fuel = some (.ok (some c')) ∧
      ∀ k, c'.frames.get? k = if k = a.toNat then some words else c.frames.get? k := by
  obtain ⟨ps, c, fuel0, hr, hc, hi, _, _, hfu, h⟩ :=
    encoded_behind d hd p hp hsmall partName source date time seek hfree frames hs hk
  have hfits := fits_fromPart d hd p hp
  obtain ⟨c', h3, h4⟩ := C64_block (by decide : 0 < frameWordsBase) p hfits ps c hi a ha 1#32 1#32 1#32 words
  have hlen : (frameWrite a words).length = 106 := by rw [frameWrite, List.length_append, hw]; rfl
  refine ⟨c, c', fuel0 + 200, fun fuel hf => ?_⟩
  obtain ⟨o, _, h1, _, h2⟩ := h fuel (by omega)
  obtain ⟨_, hread⟩ := decode_behind p o.bytes ps hr hc h2
  refine ⟨o, h1, ?_, ?_, ?_⟩
  · obtain ⟨n, _, h5⟩ := hread []
    have h6 := h5 fuel (by rw [List.length_nil]; omega)
    rw [packetsOf_nil, List.append_nil, hi, show fileBytes [] = [] from rfl, List.append_nil] at h6
    exact h6
  · obtain ⟨n, hn, h5⟩ := hread (frameWrite a words)
    have h6 := h5 fuel (by omega)
    have e : packetsOf n (lastPacket none ps) (frameWrite a words) = [writes 1#32 4 [1#32], writes 1#32 1 [a], writes 1#32 2 words] := by
      rw [frameWrite_emitted a words hw]
      refine packetsOf_emitted _ n _ (by rw [← frameWrite_emitted a words hw]; exact hn) ?_ ?_
      · intro q hq
        simp only [List.mem_cons, List.not_mem_nil, or_false] at hq
        rcases hq with rfl | rfl | rfl
        · exact Or.inr (Or.inl (by decide))
        · exact Or.inr (Or.inl ⟨rfl, (by decide : 2 < 2 ^ 2), by simp [writes], by simp [writes]⟩)
        · exact Or.inr (Or.inl ⟨rfl, (by decide : 2 < 2 ^ 2), by simp [writes], by simp [writes, hw]⟩)
      · exact ⟨(fun h => by simp [writes] at h), (fun h => by simp [writes] at h), (fun h => by simp [writes] at h), trivial⟩
    rw [e, h3] at h6
    exact h6
  · intro k
    by_cases hka : k = a.toNat
    · rw [if_pos hka]
      exact (h4 k words).2 (Or.inl ((placed_one p a words hw k words).2 ⟨hka.symm, rfl⟩))
    · rw [if_neg hka]
      have hno : ∀ x, ¬ Placed frameWordsBase p a words k x := fun x hx => hka ((placed_one p a words hw k x).1 hx).1.symm
      apply Option.ext
      intro x
      constructor
      · intro hx
        rcases (h4 k x).1 hx with h | ⟨_, h⟩
        · exact absurd h (hno x)
        · exact h
      · intro hx
        exact (h4 k x).2 (Or.inr ⟨hno, hx⟩)

/-- Another: two words behind the file, the header of a write to the ID register and an ID that is not the part's, and nothing is read
at all. -/
theorem C118_defect_id (d : Db.Part) (hd : DescFits d) (p : Part) (hp : Part.fromPart d = .ok p)
    (hsmall : FitsPacket p) (partName source date time : Bytes) (seek : Bool)
    (hfree : SyncFree (headerBytes (source ++ (generatorMark ++ bytes!"fpga-assembler")) partName date time))
    (frames : BMap (FrameWords frameWordsBase)) (hs : frames.Sorted)
    (hk : ∀ k f, (k, f) ∈ frames → ∃ a, Reached p a ∧ a.toNat = k) (id : Word) (hid : id ≠ p.idcode) :
    ∃ fuel0, ∀ fuel ≥ fuel0, ∃ o,
      encode d partName source date time frames ⟨[], 0, seek, false⟩ fuel = some (.ok o) ∧
      decodeFile p (o.bytes ++ fileBytes [0x30018001#32, id]) fuel = some (.ok none) := by
  obtain ⟨ps, c, fuel0, hr, hc, hi, _, _, hfu, h⟩ :=
    encoded_behind d hd p hp hsmall partName source date time seek hfree frames hs hk
  refine ⟨fuel0 + 2, fun fuel hf => ?_⟩
  obtain ⟨o, _, h1, _, h2⟩ := h fuel (by omega)
  refine ⟨o, h1, ?_⟩
  obtain ⟨n, hn, h3⟩ := (decode_behind p o.bytes ps hr hc h2).2 [0x30018001#32, id]
  rw [h3 fuel (by simp only [List.length_cons, List.length_nil]; omega),
    packetsOf_fuel [0x30018001#32, id] 2 _ n 2 (Nat.le_refl _) hn (Nat.le_refl _)]
  have e : packetsOf 2 (lastPacket none ps) [0x30018001#32, id] = [⟨1#32, 2#32, 12#32, [id]⟩] := by
    simp [packetsOf, field]
  rw [e]
  congr 2
  unfold initWithPackets at hi ⊢
  rw [decodePackets_append]
  cases hd : decodePackets frameWordsBase p {} ps with
  | none => rfl
  | some s =>
    rw [Option.bind_some]
    have : decodePacket frameWordsBase p s ⟨1#32, 2#32, 12#32, [id]⟩ = none := by
      unfold decodePacket
      dsimp only
      rw [if_neg (by decide), if_neg (by decide), if_neg (by decide), if_neg (by decide), if_pos (by decide)]
      rw [if_pos hid]
    rw [decodePackets, this]
    rfl

/-! ## Examples -/

/-- The usual padding, commands and addresses are no header of a write of frames. -/
example : ¬ FrameHeader 0#32 ∧ ¬ FrameHeader 0xFFFFFFFF#32 ∧ ¬ FrameHeader 0x20000000#32 ∧ ¬ FrameHeader 0x0000FFFF#32 ∧
    ¬ FrameHeader 0x30008001#32 ∧ ¬ FrameHeader 0x30002001#32 ∧ FrameHeader 0x30004065#32 ∧ FrameHeader 0x30018001#32 ∧
    FrameHeader 0x50000010#32 := by
  simp [FrameHeader, field]

/-- The hypotheses hold for the small device, and frame 129 can be written over. -/
example : ∃ p, Part.fromPart smallDesc = .ok p ∧ DescFits smallDesc ∧ FitsPacket p ∧
    SyncFree (headerBytes (bytes!"fpga-source" ++ (generatorMark ++ bytes!"fpga-assembler")) bytes!"fasm" bytes!"d" bytes!"t") ∧
    (∃ a, Reached p a ∧ a.toNat = 129) ∧ (129#32).toNat < 2 ^ 26 ∧ (List.replicate 101 7#32).length = 101 := by
  refine ⟨_, rfl, smallDesc_dense.fits, smallDesc_packet, (afterSync_none _).mp (by decide +kernel), ?_, by decide, by decide⟩
  exact ⟨_, reached_of_valid _ (fits_fromPart _ smallDesc_dense.fits _ rfl) (dense_fromPart _ smallDesc_dense _ rfl) 129#32
    (by decide) (by decide), rfl⟩

end Verif.Props
