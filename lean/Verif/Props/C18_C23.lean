import Verif.Props.C15_C17
import Verif.Props.C20_C22
import Verif.Proofs.Count
/-! # C18, C19 the bitstream file; C23 ECC in the output -/
namespace Verif.Props
open Verif.Xc7 Verif.Xc7.Packet Verif.Spec Verif.BitOps

/-! ## C19 -/

/-- The file written to a seekable stream (from the current end of the stream): the documented
header with the given strings zero-terminated, then the configuration bytes; the length field is
their number. -/
theorem C19_seekable_file (arch : Arch) (ps : List Packet) (partName source generator date time : Bytes)
    (out : OStream) (fuel : Nat)
    (hgood : out.failed = false) (hend : out.pos = out.bytes.length) (hseek : out.seekable = true)
    (hf : (syncHeader arch ++ ps.flatMap fun p => p.header :: p.data).length < fuel)
    (hsize : 4 * (syncHeader arch ++ ps.flatMap fun p => p.header :: p.data).length < 2^32)
    (h1 : (source ++ (generatorMark ++ generator)).length < 65535) (h2 : partName.length < 65535)
    (h3 : date.length < 65535) (h4 : time.length < 65535) :
    ∃ o file, writeBitstream arch ps partName source generator date time out fuel = some (.ok o) ∧
      o.bytes = out.bytes ++ file ∧ o.failed = false ∧
      readBitFile file = some
        { design := source ++ (generatorMark ++ generator) ++ [0], part := partName ++ [0],
          date := date ++ [0], time := time ++ [0],
          length := (fileBytes (syncHeader arch ++ ps.flatMap fun p => p.header :: p.data)).length,
          config := fileBytes (syncHeader arch ++ ps.flatMap fun p => p.header :: p.data) } := by
  have hw := writerWords_eq arch ps fuel hf
  have hwf := writeFile_seekable (headerPrefix partName source generator date time)
    (syncHeader arch ++ emitted ps) out ⟨hgood, hend⟩ hseek
  rw [← createHeader_eq] at hwf
  refine ⟨_, _, by rw [writeBitstream, hw]; rfl, by rw [hwf], by rw [hwf]; exact hgood, ?_⟩
  rw [readBitFile_header _ _ _ _ _ _ _ h1 h2 h3 h4, ← C13_serialise]
  have hl := bytesOfWords_length (syncHeader arch ++ emitted ps)
  have : (BitVec.ofNat 32 (4 * (syncHeader arch ++ emitted ps).length)).toNat =
      4 * (syncHeader arch ++ emitted ps).length := by
    rw [BitVec.toNat_ofNat]; exact Nat.mod_eq_of_lt hsize
  simp only [this]
  rw [← hl]
  rfl

/-- Finding: on a stream that cannot seek (a pipe) all bytes are written but the length field stays
0 and the stream is left failed, while the function still returns success. -/
theorem C19_pipe_length_zero (arch : Arch) (ps : List Packet) (partName source generator date time : Bytes)
    (out : OStream) (fuel : Nat)
    (hgood : out.failed = false) (hend : out.pos = out.bytes.length) (hseek : out.seekable = false)
    (hf : (syncHeader arch ++ ps.flatMap fun p => p.header :: p.data).length < fuel)
    (h1 : (source ++ (generatorMark ++ generator)).length < 65535) (h2 : partName.length < 65535)
    (h3 : date.length < 65535) (h4 : time.length < 65535) :
    ∃ o file, writeBitstream arch ps partName source generator date time out fuel = some (.ok o) ∧
      o.bytes = out.bytes ++ file ∧ o.failed = true ∧
      readBitFile file = some
        { design := source ++ (generatorMark ++ generator) ++ [0], part := partName ++ [0],
          date := date ++ [0], time := time ++ [0], length := 0,
          config := fileBytes (syncHeader arch ++ ps.flatMap fun p => p.header :: p.data) } := by
  have hw := writerWords_eq arch ps fuel hf
  obtain ⟨e1, e2⟩ := writeFile_pipe (createHeader partName source generator date time)
    (syncHeader arch ++ emitted ps) out ⟨hgood, hend⟩ hseek
  refine ⟨_, _, by rw [writeBitstream, hw]; rfl, by rw [e1, List.append_assoc], e2, ?_⟩
  have hz : bytesOfWord 0#32 = [0, 0, 0, 0] := by decide
  rw [createHeader_eq, ← hz, readBitFile_header _ _ _ _ _ _ _ h1 h2 h3 h4, ← C13_serialise]
  rfl

/-- Finding: a 65535-byte part name wraps the 16-bit field length to 0. -/
theorem C19_long_name_wraps (s rest : Bytes) (h : s.length = 65535) :
    readField (tlv 0x62 s ++ rest) = some (0x62, [], s ++ [0] ++ rest) := by
  have e1 : UInt8.ofNat ((s.length + 1) >>> 8) = 0 := by rw [h]; decide
  have e2 : UInt8.ofNat (s.length + 1) = 0 := by rw [h]; decide
  simp only [tlv, e1, e2, List.cons_append, List.nil_append, readField]
  rw [show (0 : UInt8).toNat * 256 + (0 : UInt8).toNat = 0 from rfl, if_pos (Nat.zero_le _), List.take_zero, List.drop_zero]

/-- Non-vacuity: a file with one packet, appended to an empty seekable stream. -/
example : ∃ o, writeBitstream .ultraScale [wr regCMD 5#32] bytes!"f" bytes!"s" bytes!"g" bytes!"d" bytes!"t" ⟨[], 0, true, false⟩ 50 =
      some (.ok o) ∧
    (readBitFile o.bytes).map (fun f => (f.part, f.length, f.config.length)) = some ([0x66, 0], 32, 32) :=
  ⟨_, rfl, by decide +kernel⟩

/-! ## C18 -/

theorem convertFrames_append {n : Nat} : ∀ (frames acc : BMap (FrameWords n)),
    (acc ++ frames).Sorted → (∀ kf ∈ frames, kf.1 < 2^32) → convertFrames acc frames = acc ++ frames := by
  intro frames
  induction frames with
  | nil => intro acc _ _; simp [convertFrames]
  | cons kf rest ih =>
    obtain ⟨k, f⟩ := kf
    intro acc hs hk
    have hk' : k % 2^32 = k := Nat.mod_eq_of_lt (hk (k, f) List.mem_cons_self)
    have hlt : ∀ x ∈ acc, x.1 < k := by
      intro x hx
      exact (List.pairwise_append.mp hs).2.2 x hx (k, f) List.mem_cons_self
    have hemp : acc.emplace k f = acc ++ [(k, f)] := by
      clear ih hs
      induction acc with
      | nil => rfl
      | cons y ys ih2 =>
        obtain ⟨k', v'⟩ := y
        have : k' < k := hlt (k', v') List.mem_cons_self
        rw [BMap.emplace, if_pos this, ih2 (fun x hx => hlt x (List.mem_cons_of_mem _ hx))]
        rfl
    rw [convertFrames, hk', hemp, ih (acc ++ [(k, f)]) (by simpa using hs)
      (fun x hx => hk x (List.mem_cons_of_mem _ hx))]
    simp

theorem convertFrames_id {n : Nat} (frames : BMap (FrameWords n)) (hs : frames.Sorted)
    (hk : ∀ kf ∈ frames, kf.1 < 2^32) : convertFrames [] frames = frames := by
  simpa using convertFrames_append frames [] (by simpa using hs) hk

theorem rowEnds_le {β : Type} (p : Part) (m : BMap β) : rowEnds p m ≤ m.length := by
  unfold rowEnds; exact List.length_filter_le _ _

/-- A part of the file without a sync word that ends in a byte the sync word does not have is skipped. -/
theorem afterSync_past (x : UInt8) (hx : x ∉ [(0xAA : UInt8), 0x99, 0x55, 0x66]) (t : Bytes) : ∀ pre : Bytes, SyncFree (pre ++ [x]) →
    afterSync (pre ++ [x] ++ t) = afterSync t := by
  have hx' : x ≠ 0xAA ∧ x ≠ 0x99 ∧ x ≠ 0x55 ∧ x ≠ 0x66 := by simpa using hx
  obtain ⟨x0, x1, x2, x3⟩ := hx'
  intro pre
  induction pre with
  | nil =>
    intro _
    exact afterSync_append [x] t (by intro b hb; simp only [List.mem_singleton] at hb; rw [hb]; exact x0)
  | cons b pre ih =>
    intro h
    have hs : SyncFree (pre ++ [x]) := fun i hi => h (i + 1) (by simpa using hi)
    have hcons : b :: pre ++ [x] ++ t = b :: (pre ++ [x] ++ t) := rfl
    rw [hcons, afterSync, if_neg, ih hs]
    intro hp
    obtain ⟨u, hu⟩ := (isPrefixOf_sync _).mp hp
    match pre, hu with
    | [], hu => simp [syncWord] at hu; exact x1 hu.2.1
    | [_], hu => simp [syncWord] at hu; exact x2 hu.2.2.1
    | [_, _], hu => simp [syncWord] at hu; exact x3 hu.2.2.2.1
    | b1 :: b2 :: b3 :: r, hu =>
      simp [syncWord] at hu
      refine h 0 ⟨r ++ [x], ?_⟩
      simp [hu.1, hu.2.1, hu.2.2.1, hu.2.2.2.1]

/-- The header of the model is the documented one. -/
theorem headerPrefix_bytes (partName source generator date time : Bytes) : headerPrefix partName source generator date time =
    headerBytes (source ++ (generatorMark ++ generator)) partName date time := by
  have ht : ∀ t s, tlv t s = fieldBytes t s := by
    intro t s
    have e : UInt8.ofNat ((s.length + 1) % 256) = UInt8.ofNat (s.length + 1) := by
      apply UInt8.toNat.inj
      simp [UInt8.toNat_ofNat']
    simp only [tlv, fieldBytes, e, Nat.shiftRight_eq_div_pow]
  simp only [headerPrefix, headerBytes, ht]
  rfl

theorem syncFree_of_noAA (b : Bytes) (h : ∀ x ∈ b, x ≠ (0xAA : UInt8)) : SyncFree b := by
  rintro i ⟨u, hu⟩
  have : (0xAA : UInt8) ∈ b.drop i := by rw [hu]; simp
  exact h _ (List.mem_of_mem_drop this) rfl

/-- Reading back a written file, whatever multiple of four the length field says. -/
theorem decode_written (p : Part) (ps : List Packet) (hr : ∀ x ∈ ps, Representable x) (hc : Chained none ps)
    (hdr : Bytes) (n : Nat) (hno : ∃ pre, hdr = pre ++ [0x65] ∧ SyncFree hdr) (fuel : Nat)
    (hf : (emitted ps).length + 1 < fuel) :
    decodeFile p (hdr ++ bytesOfWord (BitVec.ofNat 32 (4 * n)) ++
      bytesOfWords (syncHeader .xc7 ++ emitted ps)) fuel = some (.ok (initWithPackets frameWordsBase p ps)) := by
  have hsync : afterSync (hdr ++ bytesOfWord (BitVec.ofNat 32 (4 * n)) ++
      bytesOfWords (syncHeader .xc7 ++ emitted ps)) = some (bytesOfWords (emitted ps)) := by
    obtain ⟨pre, he, hfree⟩ := hno
    rw [List.append_assoc, he, afterSync_past 0x65 (by decide) _ pre (he ▸ hfree), bytesOfWords_append, bytesOfWord_eq]
    have h3 : UInt8.ofNat ((BitVec.ofNat 32 (4 * n)).toNat % 256) ≠ 0x66 := by
      intro h
      have := congrArg UInt8.toNat h
      rw [UInt8.toNat_ofNat', BitVec.toNat_ofNat, show (0x66 : UInt8).toNat = 102 from rfl] at this
      omega
    have hff : bytesOfWords (syncHeader .xc7) = 0xFF :: 0xFF :: 0xFF :: (bytesOfWords (syncHeader .xc7)).drop 3 := by
      decide +kernel
    rw [hff]
    simp only [List.cons_append, List.nil_append]
    rw [sync_skip_length _ _ _ _ _ h3, ← List.cons_append, ← List.cons_append, ← List.cons_append, ← hff]
    exact afterSync_header .xc7 _
  have hb : beWords (bytesOfWords (emitted ps)) = .ok (emitted ps) := beWords_bytesOfWords _
  rw [decodeFile, initWithBytes, hsync]
  simp only [hb, Outcome.bind_ok, Outcome.pure_eq]
  rw [readPackets_eq _ _ hf, packetStream, packetsOf_emitted ps _ none (Nat.le_refl _) hr hc]
  rfl

/-- The header ends in the tag of the length field. -/
theorem header_syncFree (partName source date time : Bytes)
    (h : SyncFree (headerBytes (source ++ (generatorMark ++ generatorName)) partName date time)) :
    ∃ pre, headerPrefix partName source generatorName date time = pre ++ [0x65] ∧
      SyncFree (headerPrefix partName source generatorName date time) :=
  ⟨_, rfl, by rw [headerPrefix_bytes]; exact h⟩

/-- The header with ASCII names does not contain the first sync byte. -/
theorem header_noAA (partName source date time : Bytes)
    (hnames : ∀ s ∈ [partName, source, date, time], ShortAscii s) :
    ∀ b ∈ headerPrefix partName source generatorName date time, b ≠ (0xAA : UInt8) := by
  apply headerPrefix_noAA
  intro s hsm'
  simp only [List.mem_cons, List.not_mem_nil, or_false] at hsm'
  rcases hsm' with rfl | rfl | rfl | rfl
  · have := hnames s (by simp); exact ⟨by have := this.1; omega, this.2⟩
  · have h := hnames source (by simp)
    have hg : ∀ b ∈ generatorInfix ++ generatorName, b < (0x80 : UInt8) := by decide
    refine ⟨?_, ?_⟩
    · have : (generatorInfix ++ generatorName).length = 25 := by decide
      rw [List.length_append, this]; have := h.1; omega
    · intro b hb
      rcases List.mem_append.mp hb with hb | hb
      · exact h.2 b hb
      · exact hg b hb
  · have := hnames s (by simp); exact ⟨by have := this.1; omega, this.2⟩
  · have := hnames s (by simp); exact ⟨by have := this.1; omega, this.2⟩

theorem encode_eq (d : Db.Part) (p : Part) (hp : Part.fromPart d = .ok p)
    (partName source date time : Bytes) (frames m : BMap (FrameWords frameWordsBase)) (out : OStream) (fuel : Nat)
    (hconv : convertFrames [] frames = frames)
    (hadd : addMissingFrames p (zeroFrame frameWordsBase) fuel frames = some m) :
    encode d partName source date time frames out fuel =
      writeBitstream .xc7 (configurationPackage (type2Payload p m) p.idcode) partName source
        generatorName date time out fuel := by
  unfold encode
  rw [hp]
  simp only [hconv, hadd]

theorem write_then_read (p : Part) (ps : List Packet) (hr : ∀ x ∈ ps, Representable x) (hc : Chained none ps)
    (partName source date time : Bytes)
    (hfree : SyncFree (headerBytes (source ++ (generatorMark ++ generatorName)) partName date time)) (seek : Bool) (fuel : Nat)
    (hf : (syncHeader .xc7 ++ emitted ps).length < fuel) :
    ∃ o, writeBitstream .xc7 ps partName source generatorName date time ⟨[], 0, seek, false⟩ fuel = some (.ok o) ∧
      decodeFile p o.bytes fuel = some (.ok (initWithPackets frameWordsBase p ps)) := by
  have hw := writerWords_eq .xc7 ps fuel hf
  refine ⟨writeFile (createHeader partName source generatorName date time) (syncHeader .xc7 ++ emitted ps)
    ⟨[], 0, seek, false⟩, by simp only [writeBitstream, hw, Option.map_some, Outcome.bind], ?_⟩
  rw [List.length_append, show (syncHeader .xc7).length = 13 from rfl] at hf
  cases seek with
  | true =>
    have hwf := writeFile_seekable (headerPrefix partName source generatorName date time)
      (syncHeader .xc7 ++ emitted ps) ⟨[], 0, true, false⟩ ⟨rfl, rfl⟩ rfl
    rw [← createHeader_eq] at hwf
    rw [hwf]
    simp only [List.nil_append]
    exact decode_written p ps hr hc _ _ (header_syncFree _ _ _ _ hfree) fuel (by omega)
  | false =>
    have hwf := (writeFile_pipe (createHeader partName source generatorName date time)
      (syncHeader .xc7 ++ emitted ps) ⟨[], 0, false, false⟩ ⟨rfl, rfl⟩ rfl).1
    rw [hwf, createHeader_eq, List.nil_append]
    exact decode_written p ps hr hc _ 0 (header_syncFree _ _ _ _ hfree) fuel (by omega)

theorem walkFrom_keys {β γ : Type} (p : Part) : ∀ (m : BMap β) (m' : BMap γ) (a : FrameAddress), m.map (·.1) = m'.map (·.1) →
    WalkFrom p a m → WalkFrom p a m'
  | [], _, _, _, h => h.elim
  | (k, v) :: m, [], _, e, _ => by cases e
  | (k, v) :: m, (k', v') :: m', a, e, h => by
    obtain ⟨hk, e'⟩ := List.cons.inj e
    have hk : k = k' := hk
    subst hk
    refine ⟨h.1, ?_⟩
    have h2 := h.2
    cases hn : p.next a with
    | none =>
      rw [hn] at h2
      have h2 : m = [] := h2
      subst h2
      cases m' with
      | nil => rfl
      | cons _ _ => cases e'
    | some nx =>
      rw [hn] at h2
      exact walkFrom_keys p m m' nx e' h2

theorem rowEnds_keys {β γ : Type} (p : Part) (m : BMap β) (m' : BMap γ) (e : m.map (·.1) = m'.map (·.1)) : rowEnds p m = rowEnds p m' := by
  have h : ∀ {δ : Type} (l : BMap δ), rowEnds p l = ((l.map (·.1)).filter fun k => endsRow p (BitVec.ofNat 32 k)).length := by
    intro δ l
    unfold rowEnds
    rw [List.filter_map, List.length_map]
    rfl
  rw [h, h, e]

/-- The frame data of a part that fits, whatever the frames are. -/
theorem _root_.Verif.Spec.FitsPacket.payload {p : Part} (h : FitsPacket p) {m : BMap (FrameWords frameWordsBase)} (hw : WalkFrom p 0#32 m) :
    (type2Payload p m).length < 2 ^ 27 := by
  have e : m.map (·.1) = ((m.map fun x => (x.1, ())) : BMap Unit).map (·.1) := by
    rw [List.map_map]
    rfl
  have := h _ (walkFrom_keys p m _ _ e hw)
  rw [← rowEnds_keys p m _ e, List.length_map] at this
  rw [type2Payload_length]
  exact this

theorem sorted_of_walk {β : Type} (p : Part) (hp : Fits p) : ∀ (m : BMap β) (a : FrameAddress), a.toNat < 2 ^ 26 → Reached p a → WalkFrom p a m →
    m.Sorted ∧ ∀ e ∈ m, a.toNat ≤ e.1 ∧ ∃ b, Reached p b ∧ b.toNat = e.1
  | [], _, _, _, h => h.elim
  | (k, v) :: m, a, ha, hr, h => by
    obtain ⟨rfl, h2⟩ := h
    cases hn : p.next a with
    | none =>
      rw [hn] at h2
      have h2 : m = [] := h2
      subst h2
      refine ⟨List.pairwise_cons.2 ⟨(fun _ h => by cases h), List.Pairwise.nil⟩, ?_⟩
      intro e he
      rw [List.mem_singleton.1 he]
      exact ⟨Nat.le_refl _, a, hr, rfl⟩
    | some nx =>
      rw [hn] at h2
      obtain ⟨_, hlt, h26⟩ := C04_next_sound p hp _ _ ha hn
      have hlt : a.toNat < nx.toNat := hlt
      obtain ⟨h3, h4⟩ := sorted_of_walk p hp m nx h26 (hr.step hn) h2
      refine ⟨List.pairwise_cons.2 ⟨fun e he => Nat.lt_of_lt_of_le hlt (h4 e he).1, h3⟩, ?_⟩
      intro e he
      rcases List.mem_cons.1 he with rfl | he
      · exact ⟨Nat.le_refl _, a, hr, rfl⟩
      · exact ⟨Nat.le_trans (Nat.le_of_lt hlt) (h4 e he).1, (h4 e he).2⟩

/-- A part of fewer than 400000 frames fits. -/
theorem fitsPacket_of_small {p : Part} (hp : Fits p) (h : totalFrames p < 400000) : FitsPacket p := by
  intro walk hw
  obtain ⟨hs, hk⟩ := sorted_of_walk p hp walk 0#32 (by decide) Reached.start hw
  have hlen := completed_length p hp walk hs (fun k v hv => (hk (k, v) hv).2)
  have h1 := rowEnds_le p walk
  omega

/-- Encoding a frame map for a part and reading the file back yields the part (with its IDCODE) and
exactly the completed frames: those given, and a zero frame at every other address of the part's
walk.  The description may have gaps; coordinates fit the address fields; the frame data fit the
27-bit count of a packet; the file header made from the given strings does not contain the sync word; the output is a fresh stream, seekable (a file) or not (a pipe). -/
theorem C18_any_names (d : Db.Part) (hd : DescFits d) (p : Part) (hp : Part.fromPart d = .ok p)
    (hsmall : FitsPacket p) (partName source date time : Bytes) (seek : Bool)
    (hfree : SyncFree (headerBytes (source ++ (generatorMark ++ bytes!"fpga-assembler")) partName date time))
    (frames : BMap (FrameWords frameWordsBase)) (hs : frames.Sorted)
    (hk : ∀ k f, (k, f) ∈ frames → ∃ a, Reached p a ∧ a.toNat = k) :
    ∃ m, m.Sorted ∧ (∀ k f, m.get? k = some f ↔ (frames.get? k = some f ∨
          (frames.get? k = none ∧ f = zeroFrame frameWordsBase ∧ ∃ a, Reached p a ∧ a.toNat = k))) ∧
      ∃ fuel0, ∀ fuel ≥ fuel0, ∃ o,
        encode d partName source date time frames ⟨[], 0, seek, false⟩ fuel = some (.ok o) ∧
        decodeFile p o.bytes fuel = some (.ok (some ⟨p, sameFrames m⟩)) := by
  have hfits := fits_fromPart d hd p hp
  obtain ⟨fuel1, m, hm, hmono⟩ := C08_fill_terminates p hfits (zeroFrame frameWordsBase) frames
  obtain ⟨hsm, hget⟩ := C07_fill_exact p _ _ _ _ hs hm
  have hmk : ∀ k v, (k, v) ∈ m → ∃ a, Reached p a ∧ a.toNat = k := by
    intro k v hv
    rcases (hget k v).mp (BMap.get?_of_mem hsm hv) with h | ⟨_, _, h⟩
    · exact hk k v (BMap.mem_of_get? h)
    · exact h
  have hdata : (type2Payload p m).length < 2^27 := hsmall.payload (walk_of_completed p hfits _ _ _ _ hs hk hm).1
  have hconv : convertFrames [] frames = frames := convertFrames_id frames hs (by
    intro kf hkf
    obtain ⟨a, _, ha⟩ := hk kf.1 kf.2 hkf
    rw [← ha]; exact a.isLt)
  have hwit := decode_package (by decide : 0 < frameWordsBase) p m
    (walk_of_completed p hfits _ _ _ _ hs hk hm).1 hsm
  have hr := package_representable (type2Payload p m) p.idcode hdata
  have hc := package_chained (type2Payload p m) p.idcode
  generalize hps : configurationPackage (type2Payload p m) p.idcode = ps at hwit hr hc
  refine ⟨m, hsm, hget, fuel1 + (syncHeader .xc7 ++ emitted ps).length + 2, fun fuel hfuel => ?_⟩
  have hadd : addMissingFrames p (zeroFrame frameWordsBase) fuel frames = some m := by
    have := hmono (fuel - fuel1)
    rwa [show fuel1 + (fuel - fuel1) = fuel by omega] at this
  obtain ⟨o, h1, h2⟩ := write_then_read p ps hr hc partName source date time hfree seek fuel (by omega)
  refine ⟨o, ?_, by rw [h2, hwit]⟩
  rw [encode_eq d p hp _ _ _ _ frames m _ _ hconv hadd, hps]
  exact h1

/-- Non-vacuity of the hypothesis on the header: a part name with bytes above 127, even most of a sync word. -/
example : SyncFree (headerBytes (bytes!"fpga-source" ++ (generatorMark ++ bytes!"fpga-assembler"))
    [0xC3, 0xA9, 0xAA, 0x99, 0x55] bytes!"date" bytes!"time") :=
  (afterSync_none _).mp (by decide +kernel)

/-- Short ASCII strings make a header without a sync word. -/
theorem names_syncFree (partName source date time : Bytes)
    (hnames : ∀ s ∈ [partName, source, date, time], ShortAscii s) :
    SyncFree (headerBytes (source ++ (generatorMark ++ generatorName)) partName date time) := by
  rw [← headerPrefix_bytes]
  exact syncFree_of_noAA _ (header_noAA _ _ _ _ hnames)

/-- Encoding a frame map for a part and reading the file back yields the part (with its IDCODE) and
exactly the completed frames: those given, and a zero frame at every other address of the part's
walk.  The description may have gaps; coordinates fit the address fields; the frame data fit the
27-bit count of a packet; file names are short ASCII strings (so they cannot contain the
sync bytes); the output is a fresh stream, seekable (a file) or not (a pipe). -/
theorem C18_bitstream_round_trip (d : Db.Part) (hd : DescFits d) (p : Part) (hp : Part.fromPart d = .ok p)
    (hsmall : FitsPacket p) (partName source date time : Bytes) (seek : Bool)
    (hnames : ∀ s ∈ [partName, source, date, time], ShortAscii s)
    (frames : BMap (FrameWords frameWordsBase)) (hs : frames.Sorted)
    (hk : ∀ k f, (k, f) ∈ frames → ∃ a, Reached p a ∧ a.toNat = k) :
    ∃ m, m.Sorted ∧ (∀ k f, m.get? k = some f ↔ (frames.get? k = some f ∨
          (frames.get? k = none ∧ f = zeroFrame frameWordsBase ∧ ∃ a, Reached p a ∧ a.toNat = k))) ∧
      ∃ fuel0, ∀ fuel ≥ fuel0, ∃ o,
        encode d partName source date time frames ⟨[], 0, seek, false⟩ fuel = some (.ok o) ∧
        decodeFile p o.bytes fuel = some (.ok (some ⟨p, sameFrames m⟩)) :=
  C18_any_names d hd p hp hsmall partName source date time seek (names_syncFree _ _ _ _ hnames) frames hs hk

theorem sameFrames_get {n : Nat} (m : BMap (FrameWords n)) (k : Nat) : (sameFrames m).get? k = (m.get? k).map (·.toList) := by
  induction m with
  | nil => rfl
  | cons x xs ih =>
    obtain ⟨k', v⟩ := x
    by_cases hkk : k' = k
    · simp [sameFrames, BMap.get?, BMap.find, hkk]
    · simp only [sameFrames, BMap.get?, List.map_cons, BMap.find, hkk, if_false] at ih ⊢
      exact ih

/-- For a hole-free description: any frames at valid addresses come back, and all other valid
addresses come back zero. -/
theorem C18_bitstream_round_trip_dense (d : Db.Part) (hd : DescDense d) (p : Part)
    (hp : Part.fromPart d = .ok p) (hsmall : FitsPacket p) (partName source date time : Bytes) (seek : Bool)
    (hnames : ∀ s ∈ [partName, source, date, time], ShortAscii s)
    (frames : BMap (FrameWords frameWordsBase)) (hs : frames.Sorted)
    (hk : ∀ k f, (k, f) ∈ frames → k < 2^26 ∧ p.isValid (BitVec.ofNat 32 k) = true) :
    ∃ fuel0, ∀ fuel ≥ fuel0, ∃ o c,
      encode d partName source date time frames ⟨[], 0, seek, false⟩ fuel = some (.ok o) ∧
      decodeFile p o.bytes fuel = some (.ok (some c)) ∧ c.part = p ∧
      (∀ k f, (k, f) ∈ frames → c.frames.get? k = some f.toList) ∧
      ∀ a : FrameAddress, a.toNat < 2^26 → p.isValid a = true → frames.get? a.toNat = none →
        c.frames.get? a.toNat = some (List.replicate frameWordsBase 0#32) := by
  have hfits := fits_fromPart d hd.fits p hp
  have hdense := dense_fromPart d hd p hp
  obtain ⟨m, _, hget, fuel0, h⟩ := C18_bitstream_round_trip d hd.fits p hp hsmall partName source date time seek hnames
    frames hs (fun k f hkf => by
      obtain ⟨h1, h2⟩ := hk k f hkf
      have e : (BitVec.ofNat 32 k).toNat = k := by rw [BitVec.toNat_ofNat]; exact Nat.mod_eq_of_lt (by omega)
      exact ⟨_, reached_of_valid p hfits hdense _ (by rw [e]; exact h1) h2, e⟩)
  refine ⟨fuel0, fun fuel hf => ?_⟩
  obtain ⟨o, h1, h2⟩ := h fuel hf
  refine ⟨o, _, h1, h2, rfl, ?_, ?_⟩
  · intro k f hkf
    show (sameFrames m).get? k = _
    rw [sameFrames_get, (hget k f).mpr (Or.inl (BMap.get?_of_mem hs hkf))]
    rfl
  · intro a ha hv hn
    show (sameFrames m).get? a.toNat = _
    rw [sameFrames_get, (hget a.toNat (zeroFrame frameWordsBase)).mpr
      (Or.inr ⟨hn, rfl, a, reached_of_valid p hfits hdense a ha hv, rfl⟩)]
    simp [zeroFrame, Vector.toList_replicate]

/-- Finding: a part name containing the sync bytes makes the reader synchronise inside the header. -/
theorem C18_sync_bytes_in_name (source generator date time rest : Bytes)
    (hs : ∀ b ∈ source ++ (generatorInfix ++ generator), b < (0x80 : UInt8))
    (hl : (source ++ (generatorInfix ++ generator)).length < 0xA9) :
    afterSync (createHeader [0xAA, 0x99, 0x55, 0x66] source generator date time ++ rest) =
      some ([0] ++ tlv 0x63 date ++ tlv 0x64 time ++ [0x65, 0, 0, 0, 0] ++ rest) := by
  have e : createHeader [0xAA, 0x99, 0x55, 0x66] source generator date time ++ rest =
      ((fileMagic ++ tlv 0x61 (source ++ (generatorInfix ++ generator))) ++ [0x62, 0, 5]) ++
        ([0xAA, 0x99, 0x55, 0x66] ++ ([0] ++ tlv 0x63 date ++ tlv 0x64 time ++ [0x65, 0, 0, 0, 0] ++ rest)) := by
    simp [createHeader, tlv]
  rw [e, afterSync_append]
  · simp [afterSync, syncWord]
  · intro b hb
    rcases List.mem_append.mp hb with hb | hb
    · have := headerPrefix_noAA [] source generator [] [] (by
        intro s hsm
        simp only [List.mem_cons, List.not_mem_nil, or_false] at hsm
        rcases hsm with rfl | rfl | rfl | rfl
        · simp
        · exact ⟨hl, hs⟩
        · simp
        · simp) b (by
          simp only [headerPrefix, List.mem_append] at hb ⊢
          exact Or.inl (Or.inl (Or.inl (Or.inl hb))))
      exact this
    · simp only [List.mem_cons, List.not_mem_nil, or_false] at hb
      rcases hb with rfl | rfl | rfl <;> decide

theorem smallDesc_packet : FitsPacket ⟨smallDesc.idcode, regionFrom 0 [] smallDesc.topRows, regionFrom 0 [] smallDesc.bottomRows⟩ :=
  fitsPacket_of_small (fits_fromPart _ smallDesc_dense.fits _ rfl) (by decide)

/-- Non-vacuity of C18: the small device (all hypotheses), with the names the program uses. -/
example : ∃ p, Part.fromPart smallDesc = .ok p ∧ DescDense smallDesc ∧ FitsPacket p ∧
    (∀ s ∈ [bytes!"fasm", bytes!"fpga", bytes!"20", bytes!"12"], ShortAscii s) ∧
    p.isValid (BitVec.ofNat 32 129) = true ∧ BMap.Sorted [(129, Vector.replicate 101 5#32)] :=
  ⟨_, rfl, smallDesc_dense, smallDesc_packet, by unfold ShortAscii; decide, by decide, by simp [BMap.Sorted]⟩

/-! ## C23 -/

theorem mem_sameFrames {n : Nat} (m : BMap (FrameWords n)) (k : Nat) (g : List Word) :
    (k, g) ∈ sameFrames m ↔ ∃ f, (k, f) ∈ m ∧ g = f.toList := by
  simp only [sameFrames, List.mem_map]
  constructor
  · rintro ⟨⟨k', f⟩, h, e⟩
    simp only [Prod.mk.injEq] at e
    obtain ⟨rfl, rfl⟩ := e
    exact ⟨f, h, rfl⟩
  · rintro ⟨f, h, rfl⟩; exact ⟨(k, f), h, rfl⟩

/-- What holds of C23: when every given frame carries a consistent ECC, so does every frame of the
file (added frames are zero, hence consistent).  Missing: the program never computes the ECC itself —
see `C23_ecc_not_updated`. -/
theorem C23_consistent_in_consistent_out_partial (d : Db.Part) (hd : DescFits d) (p : Part)
    (hp : Part.fromPart d = .ok p) (hsmall : FitsPacket p) (partName source date time : Bytes) (seek : Bool)
    (hnames : ∀ s ∈ [partName, source, date, time], ShortAscii s)
    (frames : BMap (FrameWords frameWordsBase)) (hs : frames.Sorted)
    (hk : ∀ k f, (k, f) ∈ frames → ∃ a, Reached p a ∧ a.toNat = k)
    (hecc : ∀ k f, (k, f) ∈ frames → EccConsistent f.toList) :
    ∃ fuel0, ∀ fuel ≥ fuel0, ∃ o c,
      encode d partName source date time frames ⟨[], 0, seek, false⟩ fuel = some (.ok o) ∧
      decodeFile p o.bytes fuel = some (.ok (some c)) ∧
      ∀ k f, (k, f) ∈ c.frames → EccConsistent f := by
  obtain ⟨m, hsm, hget, fuel0, h⟩ := C18_bitstream_round_trip d hd p hp hsmall partName source date time seek hnames frames hs hk
  have hz : EccConsistent (zeroFrame frameWordsBase).toList := by
    rw [zeroFrame, Vector.toList_replicate]; decide +kernel
  refine ⟨fuel0, fun fuel hf => ?_⟩
  obtain ⟨o, h1, h2⟩ := h fuel hf
  refine ⟨o, _, h1, h2, ?_⟩
  intro k g hkg
  obtain ⟨f, hf, rfl⟩ := (mem_sameFrames m k g).mp hkg
  rcases (hget k f).mp (BMap.get?_of_mem hsm hf) with h3 | ⟨_, rfl, _⟩
  · exact hecc k f (BMap.mem_of_get? h3)
  · exact hz

/-- Negation of C23: a frame given without a consistent ECC is emitted exactly as given, so the
file contains a frame whose ECC field is wrong. -/
theorem C23_ecc_not_updated (d : Db.Part) (hd : DescFits d) (p : Part)
    (hp : Part.fromPart d = .ok p) (hsmall : FitsPacket p) (partName source date time : Bytes) (seek : Bool)
    (hnames : ∀ s ∈ [partName, source, date, time], ShortAscii s)
    (frames : BMap (FrameWords frameWordsBase)) (hs : frames.Sorted)
    (hk : ∀ k f, (k, f) ∈ frames → ∃ a, Reached p a ∧ a.toNat = k)
    (k : Nat) (f : FrameWords frameWordsBase) (hf : (k, f) ∈ frames) (hecc : ¬ EccConsistent f.toList) :
    ∃ fuel0, ∀ fuel ≥ fuel0, ∃ o c,
      encode d partName source date time frames ⟨[], 0, seek, false⟩ fuel = some (.ok o) ∧
      decodeFile p o.bytes fuel = some (.ok (some c)) ∧
      ∃ g, (k, g) ∈ c.frames ∧ ¬ EccConsistent g := by
  obtain ⟨m, _, hget, fuel0, h⟩ := C18_bitstream_round_trip d hd p hp hsmall partName source date time seek hnames frames hs hk
  refine ⟨fuel0, fun fuel hfu => ?_⟩
  obtain ⟨o, h1, h2⟩ := h fuel hfu
  refine ⟨o, _, h1, h2, f.toList, ?_, hecc⟩
  exact (mem_sameFrames m k _).mpr ⟨f, BMap.mem_of_get? ((hget k f).mpr (Or.inl (BMap.get?_of_mem hs hf))), rfl⟩

/-- Non-vacuity: there is a frame with an inconsistent ECC, and address 0 is reached on every part. -/
example : ¬ EccConsistent (Vector.replicate frameWordsBase 0xDEADBEEF#32).toList ∧
    ∀ p, ∃ a, Reached p a ∧ a.toNat = 0 :=
  ⟨by rw [Vector.toList_replicate]; decide +kernel, fun _ => ⟨_, .start, rfl⟩⟩

end Verif.Props
