import Verif.Props.C09_C14
import Verif.Props.C04_C08
import Verif.Props.C20_C22
import Verif.Proofs.Count
/-! # C15–C17 frame payload and decoding -/
namespace Verif.Props
open Verif.Xc7 Verif.Xc7.Packet Verif.Spec Verif.BitOps

/-! ## C16 -/

/-- Payload length: one slot per frame, two more per row boundary, two at the end. -/
theorem C16_length {n : Nat} (p : Part) (m : BMap (FrameWords n)) :
    (type2Payload p m).length = (m.length + 2 * rowEnds p m + 2) * n := type2Payload_length p m

/-- Frame number `i` occupies its slot unchanged. -/
theorem C16_slot {n : Nat} (p : Part) (m : BMap (FrameWords n)) (i k : Nat) (f : FrameWords n)
    (h : m[i]? = some (k, f)) : ((type2Payload p m).drop (slot n p m i)).take n = f.toList :=
  payload_slot p m i k f h

/-- The number of words per frame of each architecture. -/
theorem C16_frame_sizes : Arch.frameWords .xc7 = 101 ∧ Arch.frameWords .ultraScale = 123 ∧
    Arch.frameWords .ultraScalePlus = 93 := ⟨rfl, rfl, rfl⟩

/-- Slots do not overlap: between consecutive ones there is no gap, or exactly two frames' worth of
padding when the earlier frame ends a row. -/
theorem C16_slots_spaced {β : Type} (n : Nat) (p : Part) (m : BMap β) (i : Nat) (kv : Nat × β)
    (h : m[i]? = some kv) : slot n p m (i + 1) =
      slot n p m i + n + (if endsRow p (BitVec.ofNat 32 kv.1) then n * 2 else 0) := by
  have hi : i < m.length := (List.getElem?_eq_some_iff.mp h).1
  have : m.take (i + 1) = m.take i ++ [kv] := by
    rw [List.take_add_one, h]; rfl
  simp only [slot, this, rowEnds, List.filter_append, List.length_append, List.filter_cons, List.filter_nil]
  split <;> simp only [List.length_cons, List.length_nil, Nat.mul_add, Nat.mul_one, Nat.mul_zero, Nat.add_zero] <;> omega

/-- Every word outside the frame slots is zero. -/
theorem C16_padding_zero {n : Nat} (p : Part) (m : BMap (FrameWords n)) (j : Nat) (w : Word)
    (h : (type2Payload p m)[j]? = some w)
    (hout : ∀ i < m.length, j < slot n p m i ∨ slot n p m i + n ≤ j) : w = 0#32 := by
  rcases payload_padding p m j w h with ⟨i, hi, h1, h2⟩ | h1
  · have := hout i hi; omega
  · exact h1

/-- A part with two rows of one column, two and one frames. -/
def tinyDesc : Db.Part :=
  { bottomRows := [], topRows := [[(.clbIoClk, [2, 2])], [(.clbIoClk, [1])]], idcode := 0x13631093#32, iobanks := [] }

/-- Non-vacuity: a row boundary after frame number 1. -/
example : ∃ p, Part.fromPart tinyDesc = .ok p ∧
    type2Payload (n := 2) p [(0, #v[1#32, 2#32]), (129, #v[3#32, 4#32]), (2^17, #v[5#32, 6#32])] =
      [1#32, 2#32, 3#32, 4#32, 0#32, 0#32, 0#32, 0#32, 5#32, 6#32, 0#32, 0#32, 0#32, 0#32] :=
  ⟨_, rfl, by decide⟩

/-! ## C15 -/

/-- Decoding the programming sequence generated for a completed frame map returns exactly those
frames at their addresses (`Fits`: coordinates fit the address fields; the caller's frames lie on
the walk of the part).  Any number `n` of words per frame. -/
theorem C15_payload_round_trip {n : Nat} (hn : 0 < n) (p : Part) (hp : Fits p) (fuel : Nat)
    (frames m : BMap (FrameWords n)) (hs : frames.Sorted)
    (hk : ∀ k f, (k, f) ∈ frames → ∃ a, Reached p a ∧ a.toNat = k)
    (h : addMissingFrames p (zeroFrame n) fuel frames = some m) :
    initWithPackets n p (configurationPackage (type2Payload p m) p.idcode) = some ⟨p, sameFrames m⟩ := by
  obtain ⟨hw, hsm⟩ := walk_of_completed p hp (zeroFrame n) fuel frames m hs hk h
  exact decode_package hn p m hw hsm

/-- On a dense part the condition on the frames is just that their addresses are valid. -/
theorem C15_payload_round_trip_dense {n : Nat} (hn : 0 < n) (p : Part) (hp : Fits p) (hd : Dense p)
    (fuel : Nat) (frames m : BMap (FrameWords n)) (hs : frames.Sorted)
    (hk : ∀ k f, (k, f) ∈ frames → k < 2^26 ∧ p.isValid (BitVec.ofNat 32 k) = true)
    (h : addMissingFrames p (zeroFrame n) fuel frames = some m) :
    initWithPackets n p (configurationPackage (type2Payload p m) p.idcode) = some ⟨p, sameFrames m⟩ := by
  refine C15_payload_round_trip hn p hp fuel frames m hs (fun k f hkf => ?_) h
  obtain ⟨h1, h2⟩ := hk k f hkf
  have e : (BitVec.ofNat 32 k).toNat = k := by rw [BitVec.toNat_ofNat]; exact Nat.mod_eq_of_lt (by omega)
  exact ⟨_, reached_of_valid p hp hd _ (by rw [e]; exact h1) h2, e⟩

/-- Finding: a frame at an address outside the part shifts all later frames, so they are read back
at wrong addresses (here frame 128 reads back as the frame given for the non-existing address 5). -/
theorem C15_foreign_address_shifts : ∃ p, Part.fromPart tinyDesc = .ok p ∧
    p.isValid 5#32 = false ∧
    addMissingFrames p (zeroFrame 1) 100 [(5, #v[7#32]), (128, #v[9#32])] =
      some [(0, #v[0#32]), (1, #v[0#32]), (5, #v[7#32]), (128, #v[9#32]), (129, #v[0#32]), (2^17, #v[0#32])] ∧
    (initWithPackets 1 p (configurationPackage (type2Payload p
      [(0, #v[0#32]), (1, #v[0#32]), (5, #v[7#32]), (128, #v[9#32]), (129, #v[0#32]), (2^17, #v[0#32])]) p.idcode)).map
        (fun c => c.frames.get? 128) = some (some [7#32]) := by
  refine ⟨_, rfl, by decide, by decide +kernel, by decide +kernel⟩

/-- Non-vacuity: the small device with frames of 101 words in two rows. -/
example : ∃ p fuel m, Part.fromPart smallDesc = .ok p ∧ Fits p ∧ Dense p ∧
    addMissingFrames p (zeroFrame 101) fuel [(129, Vector.replicate 101 5#32), (0x20003, Vector.replicate 101 6#32)] = some m ∧
    p.isValid 129#32 = true ∧ p.isValid 0x20003#32 = true := by
  obtain ⟨fuel, r, h, _⟩ := C08_fill_terminates _ (fits_fromPart _ smallDesc_dense.fits _ rfl) (zeroFrame 101)
    [(129, Vector.replicate 101 5#32), (0x20003, Vector.replicate 101 6#32)]
  exact ⟨_, fuel, r, rfl, fits_fromPart _ smallDesc_dense.fits _ rfl, dense_fromPart _ smallDesc_dense _ rfl, h,
    by decide, by decide⟩

/-! ## C17 -/

theorem decodePacket_none (n : Nat) (p : Part) (s : DecState) (pkt : Packet) :
    decodePacket n p s pkt = none ↔
      pkt.opcode = opWrite ∧ pkt.address = regIDCODE ∧ ∃ w, pkt.data.head? = some w ∧ w ≠ p.idcode := by
  unfold decodePacket
  by_cases ho : pkt.opcode = opWrite
  · rw [if_neg (by simpa using ho)]
    by_cases ha : pkt.address = regIDCODE
    · rw [ha, if_neg (by decide), if_neg (by decide), if_neg (by decide), if_pos rfl]
      cases hd : pkt.data with
      | nil => simp
      | cons d ds => simp [ho]
    · have hno : ¬ (pkt.opcode = opWrite ∧ pkt.address = regIDCODE ∧
          ∃ w, pkt.data.head? = some w ∧ w ≠ p.idcode) := fun h => ha h.2.1
      simp only [hno, iff_false]
      rw [if_neg ha]
      cases pkt.data <;> (repeat' split) <;> simp
  · rw [if_pos ho]; simp [ho]

theorem decodePackets_none (n : Nat) (p : Part) (pkts : List Packet) : ∀ s,
    decodePackets n p s pkts = none ↔ ∃ pkt ∈ pkts,
      pkt.opcode = opWrite ∧ pkt.address = regIDCODE ∧ ∃ w, pkt.data.head? = some w ∧ w ≠ p.idcode := by
  induction pkts with
  | nil => intro s; simp [decodePackets]
  | cons x xs ih =>
    intro s
    rw [decodePackets]
    cases hx : decodePacket n p s x with
    | none => simp only [true_iff]; exact ⟨x, List.mem_cons_self, (decodePacket_none n p s x).mp hx⟩
    | some s' =>
      simp only
      rw [ih s']
      constructor
      · rintro ⟨y, hy, h⟩; exact ⟨y, List.mem_cons_of_mem _ hy, h⟩
      · rintro ⟨y, hy, h⟩
        rcases List.mem_cons.mp hy with rfl | hy
        · rw [(decodePacket_none n p s y).mpr h] at hx; simp at hx
        · exact ⟨y, hy, h⟩

/-- A packet stream yields no configuration exactly when some packet writes a different value to the
IDCODE register (register 12, opcode 2); otherwise it yields one for the given part. -/
theorem C17_idcode_mismatch_iff (n : Nat) (p : Part) (pkts : List Packet) :
    initWithPackets n p pkts = none ↔ ∃ pkt ∈ pkts,
      pkt.opcode.toNat = 2 ∧ pkt.address.toNat = 12 ∧ ∃ w, pkt.data.head? = some w ∧ w ≠ p.idcode := by
  rw [initWithPackets, Option.map_eq_none_iff, decodePackets_none]
  have e : ∀ (x : Word) (k : Nat), k < 2^32 → (x = BitVec.ofNat 32 k ↔ x.toNat = k) := by
    intro x k hk
    constructor
    · rintro rfl; rw [BitVec.toNat_ofNat]; exact Nat.mod_eq_of_lt hk
    · rintro rfl; simp
  constructor
  · rintro ⟨x, h1, h2, h3, h4⟩
    exact ⟨x, h1, (e _ 2 (by decide)).mp h2, (e _ 12 (by decide)).mp h3, h4⟩
  · rintro ⟨x, h1, h2, h3, h4⟩
    exact ⟨x, h1, (e _ 2 (by decide)).mpr h2, (e _ 12 (by decide)).mpr h3, h4⟩

/-- The configuration returned is for the given part. -/
theorem C17_part_kept (n : Nat) (p : Part) (pkts : List Packet) (c : Configuration)
    (h : initWithPackets n p pkts = some c) : c.part = p := by
  simp only [initWithPackets, Option.map_eq_some_iff] at h
  obtain ⟨s, _, rfl⟩ := h
  rfl

/-- A sequence generated for another IDCODE is rejected. -/
theorem C17_other_part_rejected (n : Nat) (p : Part) (data : List Word) (idcode : Word)
    (h : idcode ≠ p.idcode) : initWithPackets n p (configurationPackage data idcode) = none := by
  rw [C17_idcode_mismatch_iff]
  exact ⟨wr regIDCODE idcode, by simp [configurationPackage, packagePrefix], rfl, rfl, idcode, rfl, h⟩

/-- Non-vacuity: a matching and a mismatching IDCODE packet. -/
example : initWithPackets 2 ⟨7#32, [], []⟩ [wr regIDCODE 7#32] = some ⟨⟨7#32, [], []⟩, []⟩ ∧
    initWithPackets 2 ⟨7#32, [], []⟩ [nop, wr regIDCODE 8#32] = none := by decide

end Verif.Props
