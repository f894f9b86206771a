import Verif.Proofs.File
/-! # C09–C14 packets, writer, reader, byte view -/
namespace Verif.Props
open Verif.Xc7 Verif.Xc7.Packet Verif.Spec Verif.BitOps

/-! ## C09 -/

/-- The header word of a packet has exactly the documented field layout. -/
theorem C09_header_layout (p : Packet) (h : Representable p) : p.header.toNat = headerValue p :=
  header_value p h

/-- Decoding header and data words returns the same packet and exactly the remaining words. -/
theorem C09_round_trip (p : Packet) (h : Representable p) (prev : Option Packet)
    (hprev : p.headerType.toNat = 2 → ∃ q, prev = some q ∧ q.address = p.address) (rest : List Word) :
    initWithWords (p.header :: (p.data ++ rest)) prev = (rest, some p) :=
  decode_encode p (representable_encodable h) prev
    (fun e => hprev (by rw [e]; rfl)) rest

/-- Whole sequences: the reader returns the packets whose words it is given. -/
theorem C09_stream_round_trip (ps : List Packet) (h : ∀ p ∈ ps, Representable p) (hc : Chained none ps)
    (fuel : Nat) (hf : (wireWords ps).length + 1 < fuel) :
    readPackets fuel (wireWords ps) = some (.ok ps) := by
  rw [readPackets_eq _ _ hf, packetStream, ← emitted_eq_wire ps h,
    packetsOf_emitted ps _ none (Nat.le_refl _) h hc]

/-- Finding: a type-1 packet with 2048 data words (accepted by the packet type) is written with
count 0, so it does not survive. -/
theorem C09_long_type1_truncated (op reg : Word) (data rest : List Word) (hd : data.length = 2048)
    (prev : Option Packet) :
    initWithWords ((⟨kTYPE1, op, reg, data⟩ : Packet).header :: (data ++ rest)) prev ≠
      (rest, some ⟨kTYPE1, op, reg, data⟩) := by
  have hh : (⟨kTYPE1, op, reg, data⟩ : Packet).header = (⟨kTYPE1, op, reg, []⟩ : Packet).header := by
    simp only [Packet.header, if_true, hd]
    show BitOps.bitFieldSet _ 10 0 2048#32 = BitOps.bitFieldSet _ 10 0 0#32
    apply BitVec.eq_of_getLsbD_eq
    intro i hi
    simp only [BitOps.getLsbD_bitFieldSet _ _ _ _ _ (by omega : 0 ≤ 10) (by omega : 10 < 32)]
    by_cases h : i ≤ 10
    · have : (2048#32 : Word).getLsbD i = false := by revert h; revert i; decide
      simp [this, h]
    · simp [h]
  intro h
  have hne : data ≠ [] := by intro e; rw [e] at hd; simp at hd
  have h2 : (initWithWords ((⟨kTYPE1, op, reg, []⟩ : Packet).header :: (data ++ rest)) prev).1.length =
      (data ++ rest).length := by
    have t1 : BitOps.bitFieldGet (⟨kTYPE1, op, reg, []⟩ : Packet).header 31 29 = kTYPE1 := by
      simp only [Packet.header, if_true]
      rw [get_set_other _ _ _ _ _ _ (by omega) (by omega) (by omega) (by omega) (by omega),
        get_set_other _ _ _ _ _ _ (by omega) (by omega) (by omega) (by omega) (by omega),
        get_set_other _ _ _ _ _ _ (by omega) (by omega) (by omega) (by omega) (by omega)]
      decide
    have t2 : BitOps.bitFieldGet (⟨kTYPE1, op, reg, []⟩ : Packet).header 10 0 = 0#32 := by
      simp only [Packet.header, if_true]
      exact get_set_same _ _ _ _ (by omega) (by omega) (by decide)
    simp only [initWithWords, t1, t2]
    rfl
  rw [← hh, h] at h2
  simp only [List.length_append] at h2
  omega

/-- Non-vacuity: a type-1 register write and a type-2 data packet following it. -/
example : Representable ⟨1#32, 2#32, 2#32, []⟩ ∧ Representable ⟨2#32, 2#32, 2#32, [7#32, 8#32, 9#32]⟩ ∧
    Chained none [⟨1#32, 2#32, 2#32, []⟩, ⟨2#32, 2#32, 2#32, [7#32, 8#32, 9#32]⟩] ∧
    wireWords [⟨1#32, 2#32, 2#32, []⟩, ⟨2#32, 2#32, 2#32, [7#32, 8#32, 9#32]⟩] =
      [0x30004000#32, 0x50000003#32, 7#32, 8#32, 9#32] := by
  refine ⟨by decide, by decide, ⟨fun h => absurd h (by decide), fun _ => ⟨_, rfl, rfl⟩, trivial⟩, by decide⟩

/-! ## C10 -/

/-- The writer yields the sync header, then for each packet its header word and its data words. -/
theorem C10_writer_words (arch : Arch) (ps : List Packet) (fuel : Nat)
    (hf : (syncHeader arch ++ ps.flatMap fun p => p.header :: p.data).length < fuel) :
    writerWords arch ps fuel = some (.ok (syncHeader arch ++ ps.flatMap fun p => p.header :: p.data)) :=
  writerWords_eq arch ps fuel hf

/-- The same in terms of the wire format. -/
theorem C10_writer_wire_format (arch : Arch) (ps : List Packet) (h : ∀ p ∈ ps, Representable p)
    (fuel : Nat) (hf : (syncHeader arch ++ wireWords ps).length < fuel) :
    writerWords arch ps fuel = some (.ok (syncHeader arch ++ wireWords ps)) := by
  rw [← emitted_eq_wire ps h] at hf ⊢
  exact writerWords_eq arch ps fuel hf

/-- The sync header ends with the sync word, which occurs nowhere else in it. -/
theorem C10_sync_header (arch : Arch) : ∃ pre, syncHeader arch = pre ++ [0xAA995566#32] ∧
    0xAA995566#32 ∉ pre :=
  ⟨(syncHeader arch).dropLast, by cases arch <;> decide, by cases arch <;> decide⟩

/-- Non-vacuity: an empty package and one with a two-word packet. -/
example : writerWords .ultraScale [] 100 = some (.ok (syncHeader .ultraScale)) ∧
    writerWords .ultraScale [⟨1#32, 2#32, 4#32, [7#32, 8#32]⟩, nop] 100 =
      some (.ok (syncHeader .ultraScale ++ [0x30008002#32, 7#32, 8#32, 0x20000000#32])) := by
  constructor <;> decide +kernel

/-! ## C11 -/

/-- Iterating packets terminates on every word sequence (fuel linear in the length suffices), never
dereferences an empty packet, yields the packets of the wire format, and the payloads are
consecutive non-overlapping slices of the input. -/
theorem C11_reader_terminates_slices (words : List Word) (fuel : Nat) (hf : words.length + 1 < fuel) :
    readPackets fuel words = some (.ok (packetStream words)) ∧ Slices words (packetStream words) := by
  refine ⟨readPackets_eq words fuel hf, ?_⟩
  have := slices_packetsOf words.length none words []
  rw [List.nil_append] at this; exact this

/-- The payloads together are not longer than the input. -/
theorem C11_slices_bounded (words : List Word) (ps : List Packet) (h : Slices words ps) :
    (ps.map fun p => p.data.length + 1).sum ≤ words.length := by
  induction h with
  | nil => simp
  | cons skipped hd p ps rest _ _ ih => simp; omega

/-- Non-vacuity: garbage, a type-1 packet, a type-2 packet and a truncated one. -/
example : packetStream [0x00000000#32, 0x30008001#32, 5#32, 0x50000002#32, 6#32, 7#32, 0x30008003#32, 1#32] =
    [⟨0#32, 0#32, 0#32, []⟩, ⟨1#32, 2#32, 4#32, [5#32]⟩, ⟨2#32, 2#32, 4#32, [6#32, 7#32]⟩] := by decide

/-! ## C12 -/

/-- A type-2 packet is delivered with the register of the packet immediately before it. -/
theorem C12_type2_inherits (w : Word) (ws : List Word) (q : Packet) (ht : field w 29 3 = 2)
    (hc : field w 0 27 ≤ ws.length) :
    initWithWords (w :: ws) (some q) = (ws.drop (field w 0 27),
      some ⟨2#32, BitVec.ofNat 32 (field w 27 2), q.address, ws.take (field w 0 27)⟩) := by
  have h1 : BitOps.bitFieldGet w 31 29 = kTYPE2 := by
    rw [← field_eq_bv w 31 29 (by omega) (by omega)]; exact congrArg _ ht
  have h2 := field_eq w 26 0 (by omega) (by omega)
  have h3 := field_eq_bv w 28 27 (by omega) (by omega)
  simp only [initWithWords, h1, h2, ← h3]
  rw [if_neg (by decide), if_neg (by decide), if_pos True.intro, if_neg (by simpa using hc)]
  rfl

/-- Without a predecessor its words are consumed and no packet is produced. -/
theorem C12_type2_no_predecessor (w : Word) (ws : List Word) (ht : field w 29 3 = 2)
    (hc : field w 0 27 ≤ ws.length) :
    initWithWords (w :: ws) none = (ws.drop (field w 0 27), none) := by
  have h1 : BitOps.bitFieldGet w 31 29 = kTYPE2 := by
    rw [← field_eq_bv w 31 29 (by omega) (by omega)]; exact congrArg _ ht
  have h2 := field_eq w 26 0 (by omega) (by omega)
  simp only [initWithWords, h1, h2]
  rw [if_neg (by decide), if_neg (by decide), if_pos True.intro, if_neg (by simpa using hc)]
  rfl

/-- A payload longer than the remaining words yields no packet and consumes nothing. -/
theorem C12_short_payload (w : Word) (ws : List Word) (prev : Option Packet)
    (h : (field w 29 3 = 1 ∧ ws.length < field w 0 11) ∨ (field w 29 3 = 2 ∧ ws.length < field w 0 27)) :
    initWithWords (w :: ws) prev = (w :: ws, none) := by
  have h2 := field_eq w 26 0 (by omega) (by omega)
  have h3 := field_eq w 10 0 (by omega) (by omega)
  have ht := field_eq_bv w 31 29 (by omega) (by omega)
  rcases h with ⟨h4, h5⟩ | ⟨h4, h5⟩
  · have h1 : BitOps.bitFieldGet w 31 29 = kTYPE1 := by rw [← ht]; exact congrArg _ h4
    simp only [initWithWords, h1, h3]
    rw [if_neg (by decide), if_pos True.intro, if_pos (by simpa using h5)]
  · have h1 : BitOps.bitFieldGet w 31 29 = kTYPE2 := by rw [← ht]; exact congrArg _ h4
    simp only [initWithWords, h1, h2]
    rw [if_neg (by decide), if_neg (by decide), if_pos True.intro, if_pos (by simpa using h5)]

/-- In a whole stream: every type-2 packet has the register of the packet delivered before it. -/
theorem C12_stream_inherits (words : List Word) : Chained none (packetStream words) := by
  have key : ∀ n prev ws, Chained prev (packetsOf n prev ws) := by
    intro n
    induction n with
    | zero => intro prev ws; simp [packetsOf, Chained]
    | succ n ih =>
      intro prev ws
      cases ws with
      | nil => simp [packetsOf, Chained]
      | cons w ws =>
        simp only [packetsOf]
        split
        · exact ⟨fun h => absurd h (by decide), ih _ _⟩
        · split
          · split
            · trivial
            · exact ⟨fun h => absurd (show (1#32 : Word).toNat = 2 from h) (by decide), ih _ _⟩
          · split
            · split
              · trivial
              · cases prev with
                | none => exact ih _ _
                | some q => exact ⟨fun _ => ⟨q, rfl, rfl⟩, ih _ _⟩
            · trivial
  exact key _ _ _

/-- Non-vacuity. -/
example : field 0x50000002#32 29 3 = 2 ∧ field 0x50000002#32 0 27 = 2 ∧
    initWithWords [0x50000002#32, 6#32, 7#32, 8#32] (some ⟨1#32, 2#32, 4#32, [5#32]⟩) =
      ([8#32], some ⟨2#32, 2#32, 4#32, [6#32, 7#32]⟩) := by decide

/-! ## C13 -/

/-- The view of four bytes is their big-endian value. -/
theorem C13_word_value (b0 b1 b2 b3 : UInt8) : (wordOfBytes b0 b1 b2 b3).toNat =
    b0.toNat * 2^24 + b1.toNat * 2^16 + b2.toNat * 2^8 + b3.toNat := toNat_wordOfBytes b0 b1 b2 b3

/-- The serialised bytes of words are their big-endian bytes. -/
theorem C13_serialise (ws : List Word) : ws.flatMap bytesOfWord = fileBytes ws := by
  have : bytesOfWord = beBytes := funext bytesOfWord_eq
  rw [this]; rfl

/-- Reading serialised words gives the same words. -/
theorem C13_read_serialised (ws : List Word) : beWords (fileBytes ws) = .ok ws := by
  rw [← C13_serialise]; exact beWords_bytesOfWords ws

/-- Every byte sequence of length a multiple of four reads to words that serialise to it. -/
theorem C13_serialise_read (bytes : Bytes) (h : bytes.length % 4 = 0) :
    ∃ ws, beWords bytes = .ok ws ∧ fileBytes ws = bytes := by
  obtain ⟨ws, h1, h2⟩ := beWords_ok bytes.length bytes (Nat.le_refl _) h
  exact ⟨ws, h1, by rw [← C13_serialise]; exact h2⟩

/-- Random access: the view has a quarter as many words as the buffer has bytes (a ragged rest is not addressable);
every word is the big-endian value of its four bytes, and any other position fails the assertion — no access reads
outside the buffer. -/
theorem C13_random_access (bytes : Bytes) (pos : Nat) : beSize bytes = bytes.length / 4 ∧
    (∀ b0 b1 b2 b3, bytes[4 * pos]? = some b0 → bytes[4 * pos + 1]? = some b1 → bytes[4 * pos + 2]? = some b2 →
      bytes[4 * pos + 3]? = some b3 → ∃ w, beGet bytes pos = .ok w ∧
        w.toNat = b0.toNat * 2^24 + b1.toNat * 2^16 + b2.toNat * 2^8 + b3.toNat) ∧
    (bytes.length < 4 * pos + 4 → beGet bytes pos = .abort) := by
  refine ⟨rfl, ?_, ?_⟩
  · intro b0 b1 b2 b3 h0 h1 h2 h3
    have hl : 4 * pos + 3 < bytes.length := (List.getElem?_eq_some_iff.1 h3).1
    have hd : ∃ rest, bytes.drop (pos * 4) = b0 :: b1 :: b2 :: b3 :: rest := by
      rw [Nat.mul_comm pos 4]
      refine ⟨bytes.drop (4 * pos + 4), ?_⟩
      rw [List.drop_eq_getElem_cons (by omega), List.drop_eq_getElem_cons (by omega : 4 * pos + 1 < _),
        List.drop_eq_getElem_cons (by omega : 4 * pos + 1 + 1 < _), List.drop_eq_getElem_cons (by omega : 4 * pos + 1 + 1 + 1 < _)]
      rw [List.getElem?_eq_some_iff] at h0 h1 h2 h3
      obtain ⟨_, e0⟩ := h0
      obtain ⟨_, e1⟩ := h1
      obtain ⟨_, e2⟩ := h2
      obtain ⟨_, e3⟩ := h3
      simp only [← e0, ← e1, ← e2, ← e3]
    obtain ⟨rest, hd⟩ := hd
    refine ⟨wordOfBytes b0 b1 b2 b3, ?_, C13_word_value b0 b1 b2 b3⟩
    unfold beGet
    rw [if_pos (by unfold beSize; omega), hd]
  · intro h
    unfold beGet
    rw [if_neg (by unfold beSize; omega)]

example : beGet [0x12, 0x34, 0x56, 0x78, 0, 0, 1, 0, 9] 1 = .ok 0x100#32 ∧
    beGet [0x12, 0x34, 0x56, 0x78, 0, 0, 1, 0, 9] 2 = .abort := by decide

/-- For any other length the loop reads outside the buffer. -/
theorem C13_ragged_reads_outside (bytes : Bytes) (h : bytes.length % 4 ≠ 0) : beWords bytes = .ub :=
  beWords_ub bytes.length bytes (Nat.le_refl _) h

/-- Non-vacuity. -/
example : beWords [0x12, 0x34, 0x56, 0x78, 0, 0, 1, 0] = .ok [0x12345678#32, 0x100#32] ∧
    beWords [0x12, 0x34, 0x56, 0x78, 0] = .ub := by decide

/-! ## C14 -/

/-- The bytes AA 99 55 66. -/
def syncBytes : Bytes := [0xAA, 0x99, 0x55, 0x66]

/-- The reader's words are exactly the words after the first occurrence of the sync bytes, for every
prefix in which they do not occur. -/
theorem C14_words_after_first_sync (pre t : Bytes) (ws : List Word)
    (hfirst : ∀ i < pre.length, ¬ ∃ u, (pre ++ syncBytes ++ t).drop i = syncBytes ++ u)
    (ht : t = fileBytes ws) : initWithBytes (pre ++ syncBytes ++ t) = .ok (some ws) := by
  have : afterSync (pre ++ syncBytes ++ t) = some t :=
    (afterSync_some _ _).mpr ⟨pre, rfl, hfirst⟩
  rw [initWithBytes, this, ht]
  simp only
  rw [C13_read_serialised]
  rfl

/-- Without the sync bytes the reader returns nothing. -/
theorem C14_no_sync (bytes : Bytes) :
    initWithBytes bytes = .ok none ↔ ∀ i, ¬ ∃ u, bytes.drop i = syncBytes ++ u := by
  refine Iff.trans ?_ (afterSync_none bytes)
  rw [initWithBytes]
  cases h : afterSync bytes with
  | none => simp
  | some t =>
    simp only [reduceCtorEq, iff_false]
    cases beWords t <;> simp

/-- The result depends only on the bytes after the first sync word. -/
theorem C14_prefix_ignored (a b t : Bytes)
    (ha : ∀ i < a.length, ¬ ∃ u, (a ++ syncBytes ++ t).drop i = syncBytes ++ u)
    (hb : ∀ i < b.length, ¬ ∃ u, (b ++ syncBytes ++ t).drop i = syncBytes ++ u) :
    initWithBytes (a ++ syncBytes ++ t) = initWithBytes (b ++ syncBytes ++ t) := by
  have h1 : afterSync (a ++ syncBytes ++ t) = some t := (afterSync_some _ _).mpr ⟨a, rfl, ha⟩
  have h2 : afterSync (b ++ syncBytes ++ t) = some t := (afterSync_some _ _).mpr ⟨b, rfl, hb⟩
  rw [initWithBytes, initWithBytes, h1, h2]

/-- Non-vacuity: a prefix with a false start. -/
example : initWithBytes ([0xFF, 0xAA, 0x99] ++ syncBytes ++ [0, 0, 0, 5]) = .ok (some [5#32]) := by decide

end Verif.Props
