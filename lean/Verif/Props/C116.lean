import Verif.Props.C18_C23
import Verif.Proofs.Foreign
import Verif.Props.C114
/-! # C116 more frame data than a packet can announce -/
namespace Verif.Props
open Verif.Xc7 Verif.Xc7.Packet Verif.Spec Verif.BitOps

/-! ## Packets -/

/-- Only the bits that have room in the field are stored. -/
theorem set_low {w : Nat} (r f g : BitVec w) (t b : Nat) (hbt : b ≤ t) (ht : t < w)
    (h : f.toNat % 2 ^ (t - b + 1) = g.toNat % 2 ^ (t - b + 1)) : bitFieldSet r t b f = bitFieldSet r t b g := by
  apply BitVec.eq_of_getLsbD_eq
  intro i hi
  rw [getLsbD_bitFieldSet _ _ _ _ _ hbt ht, getLsbD_bitFieldSet _ _ _ _ _ hbt ht]
  by_cases hc : b ≤ i ∧ i ≤ t
  · rw [if_pos hc, if_pos hc]
    have h1 := Nat.testBit_mod_two_pow f.toNat (t - b + 1) (i - b)
    have h2 := Nat.testBit_mod_two_pow g.toNat (t - b + 1) (i - b)
    rw [show decide (i - b < t - b + 1) = true from decide_eq_true (by omega), Bool.true_and] at h1 h2
    show f.toNat.testBit (i - b) = g.toNat.testBit (i - b)
    rw [← h1, ← h2, h]
  · rw [if_neg hc, if_neg hc]

/-- The header of a type 2 packet is that of one with the words its count has room for. -/
theorem header2_take (op reg : Word) (data : List Word) :
    (⟨kTYPE2, op, reg, data⟩ : Packet).header = (⟨kTYPE2, op, reg, data.take (data.length % 2 ^ 27)⟩ : Packet).header := by
  have h1 : ¬ (kTYPE2 = kTYPE1) := by decide
  simp only [Packet.header, h1, if_true, if_false]
  apply set_low _ _ _ _ _ (by decide) (by decide)
  rw [List.length_take, Nat.min_eq_left (Nat.mod_le _ _)]
  simp only [BitVec.toNat_ofNat]
  omega

/-- The header of a type 1 packet likewise. -/
theorem header1_take (op reg : Word) (data : List Word) :
    (⟨kTYPE1, op, reg, data⟩ : Packet).header = (⟨kTYPE1, op, reg, data.take (data.length % 2 ^ 11)⟩ : Packet).header := by
  simp only [Packet.header, if_true]
  apply set_low _ _ _ _ _ (by decide) (by decide)
  rw [List.length_take, Nat.min_eq_left (Nat.mod_le _ _)]
  simp only [BitVec.toNat_ofNat]
  omega

/-- A type 2 packet of any length: a reader takes as its data the number of words modulo 2^27, and goes on with the rest of the
data as if packets stood there. -/
theorem C116_type2 (op reg : Word) (hop : op.toNat < 4) (data rest : List Word) (q : Packet) (hq : q.address = reg) :
    initWithWords ((⟨2#32, op, reg, data⟩ : Packet).header :: (data ++ rest)) (some q) =
      (data.drop (data.length % 2 ^ 27) ++ rest, some ⟨2#32, op, reg, data.take (data.length % 2 ^ 27)⟩) := by
  rw [header2_take op reg data]
  have e : data ++ rest = data.take (data.length % 2 ^ 27) ++ (data.drop (data.length % 2 ^ 27) ++ rest) := by
    rw [← List.append_assoc, List.take_append_drop]
  rw [e]
  refine decode_encode ⟨2#32, op, reg, data.take (data.length % 2 ^ 27)⟩ (Or.inr (Or.inr ⟨rfl, hop, ?_⟩)) (some q)
    (fun _ => ⟨q, rfl, hq⟩) _
  rw [List.length_take]
  have := Nat.mod_lt data.length (by decide : 0 < 2 ^ 27)
  omega

/-- A type 1 packet of any length: the number of words modulo 2^11. -/
theorem C116_type1 (op reg : Word) (hop : op.toNat < 4) (hreg : reg.toNat < 2 ^ 14) (data rest : List Word) (prev : Option Packet) :
    initWithWords ((⟨1#32, op, reg, data⟩ : Packet).header :: (data ++ rest)) prev =
      (data.drop (data.length % 2 ^ 11) ++ rest, some ⟨1#32, op, reg, data.take (data.length % 2 ^ 11)⟩) := by
  rw [header1_take op reg data]
  have e : data ++ rest = data.take (data.length % 2 ^ 11) ++ (data.drop (data.length % 2 ^ 11) ++ rest) := by
    rw [← List.append_assoc, List.take_append_drop]
  rw [e]
  refine decode_encode ⟨1#32, op, reg, data.take (data.length % 2 ^ 11)⟩ (Or.inr (Or.inl ⟨rfl, hop, hreg, ?_⟩)) prev
    (fun h => absurd (show (1#32 : Word) = 2#32 from h) (by decide)) _
  rw [List.length_take]
  have := Nat.mod_lt data.length (by decide : 0 < 2 ^ 11)
  omega

/-- Non-vacuity: 2050 words to the frame data register in a type 1 packet; two of them arrive. -/
example : (2#32 : Word).toNat < 4 ∧ (2#32 : Word).toNat < 2 ^ 14 ∧ (List.replicate 2050 (7#32 : Word)).length % 2 ^ 11 = 2 := by
  refine ⟨by decide, by decide, ?_⟩
  rw [List.length_replicate]

/-! ## The file of a part with too many frames -/

/-- The last frame of a walk stands three frames before the end of the data. -/
theorem walk_last {n : Nat} (p : Part) : ∀ (m : BMap (FrameWords n)) (a : FrameAddress), WalkFrom p a m →
    ∃ i b, walkAt p a i = some b ∧ p.next b = none ∧ blockOffset n p a i + 3 * n = (type2Payload p m).length
  | [], _, h => h.elim
  | (k, f) :: rest, a, ⟨hk, h⟩ => by
    have hka : BitVec.ofNat 32 k = a := by rw [hk]; simp
    cases hn : p.next a with
    | none =>
      rw [hn] at h
      have h : rest = [] := h
      subst h
      refine ⟨0, a, rfl, hn, ?_⟩
      have he : endsRow p (BitVec.ofNat 32 k) = false := by rw [hka]; simp [endsRow, hn]
      rw [type2Payload_length, rowEnds, List.filter_cons, if_neg (by simpa using he)]
      simp only [blockOffset, List.length_cons, List.filter_nil, List.length_nil]
      omega
    | some nx =>
      rw [hn] at h
      obtain ⟨i, b, h1, h2, h3⟩ := walk_last p rest nx h
      refine ⟨i + 1, b, by rw [walkAt_succ p a nx hn, h1], h2, ?_⟩
      rw [blockOffset_succ n p a nx hn, type2Payload, List.length_append, ← h3, framePayload_length, hka]
      split <;> omega

theorem walkAt_reached (p : Part) : ∀ i b, walkAt p 0#32 i = some b → Reached p b
  | 0, b, h => by cases h; exact .start
  | i + 1, b, h => by
    obtain ⟨c, hc, hn⟩ := Option.bind_eq_some_iff.1 h
    exact .step (walkAt_reached p i c hc) hn

/-- Nothing is behind the last frame. -/
theorem walkAt_after (p : Part) {a : FrameAddress} (j : Nat) (b : FrameAddress) (hj : walkAt p a j = some b) (hn : p.next b = none) :
    ∀ i, j < i → walkAt p a i = none
  | 0, h => absurd h (Nat.not_lt_zero _)
  | i + 1, h => by
    rw [walkAt]
    by_cases hij : j = i
    · subst hij
      rw [hj, Option.bind_some, hn]
    · rw [walkAt_after p j b hj hn i (by omega)]
      rfl

/-- Two walks from the same address have the same keys. -/
theorem walk_unique {β γ : Type} (p : Part) : ∀ (m : BMap β) (m' : BMap γ) (a : FrameAddress), WalkFrom p a m → WalkFrom p a m' →
    m.map (·.1) = m'.map (·.1)
  | [], _, _, h, _ => h.elim
  | _ :: _, [], _, _, h => h.elim
  | (k, v) :: m, (k', v') :: m', a, ⟨h1, h2⟩, ⟨h1', h2'⟩ => by
    simp only [List.map_cons, h1, h1']
    cases hn : p.next a with
    | none =>
      rw [hn] at h2 h2'
      have h2 : m = [] := h2
      have h2' : m' = [] := h2'
      rw [h2, h2']
      rfl
    | some nx =>
      rw [hn] at h2 h2'
      rw [walk_unique p m m' nx h2 h2']

/-- A packet of type 0. -/
def noPacket : Packet := ⟨0#32, 0#32, 0#32, []⟩

/-- What a reader finds in the file of an all-zero design: the frame data the count has room for, then a packet of type 0 for every
word behind. -/
def cutPackage (data : List Word) (idcode : Word) : List Packet :=
  packagePrefix idcode ++ [⟨kTYPE2, opWrite, regFDRI, data.take (data.length % 2 ^ 27)⟩] ++
    (List.replicate (data.length - data.length % 2 ^ 27) noPacket ++ packageSuffix)

theorem emitted_append (a b : List Packet) : emitted (a ++ b) = emitted a ++ emitted b := by
  simp [emitted]

theorem emitted_zeros : ∀ k, emitted (List.replicate k noPacket) = List.replicate k 0#32
  | 0 => rfl
  | k + 1 => by
    rw [List.replicate_succ, List.replicate_succ, ← emitted_zeros k]
    have : noPacket.header = 0#32 := by decide
    simp [emitted, this]
    rfl

theorem emitted_cut (k : Nat) (idcode : Word) :
    emitted (configurationPackage (List.replicate k 0#32) idcode) = emitted (cutPackage (List.replicate k 0#32) idcode) := by
  unfold configurationPackage cutPackage
  simp only [emitted_append, emitted_zeros, List.append_assoc]
  congr 1
  rw [← List.append_assoc]
  congr 1
  simp only [emitted, List.flatMap_cons, List.flatMap_nil, List.append_nil]
  rw [header2_take opWrite regFDRI]
  simp only [List.length_replicate, List.take_replicate, List.cons_append, List.replicate_append_replicate]
  congr 2
  have := Nat.mod_le k (2 ^ 27)
  omega

theorem cut_representable (data : List Word) (idcode : Word) : ∀ x ∈ cutPackage data idcode, Representable x := by
  intro x hx
  simp only [cutPackage, List.mem_append, List.mem_singleton] at hx
  have hlt := Nat.mod_lt data.length (by decide : 0 < 2 ^ 27)
  rcases hx with (hx | rfl) | hx | hx
  · exact prefix_representable idcode x hx
  · refine Or.inr (Or.inr ⟨rfl, (by decide : opWrite.toNat < 2^2), ?_⟩)
    show (data.take _).length < 2 ^ 27
    rw [List.length_take]
    omega
  · rw [(List.mem_replicate.mp hx).2]; decide
  · exact suffix_representable x hx

theorem cut_chained (data : List Word) (idcode : Word) : Chained none (cutPackage data idcode) := by
  unfold cutPackage
  apply chained_append
  · have hc := package_chained (data.take (data.length % 2 ^ 27)) idcode
    have : ∀ (a b : List Packet) (prev : Option Packet), Chained prev (a ++ b) → Chained prev a := by
      intro a
      induction a with
      | nil => intro _ _ _; trivial
      | cons x xs ih => intro b prev h; exact ⟨h.1, ih b _ h.2⟩
    exact this _ _ _ hc
  · apply chained_nil_of_not2
    intro x hx
    rcases List.mem_append.mp hx with hx | hx
    · rw [(List.mem_replicate.mp hx).2]; decide
    · exact suffix_not2 x hx

/-- Words behind the frame data that are packets of type 0 change nothing. -/
theorem cut_decodes (p : Part) (data : List Word) :
    initWithPackets frameWordsBase p (cutPackage data p.idcode) =
      initWithPackets frameWordsBase p (configurationPackage (data.take (data.length % 2 ^ 27)) p.idcode) := by
  have hz : ∀ k s, decodePackets frameWordsBase p s (List.replicate k noPacket) = some s := by
    intro k
    induction k with
    | zero => intro s; rfl
    | succ k ih =>
      intro s
      rw [List.replicate_succ]
      show (match decodePacket frameWordsBase p s noPacket with
        | none => none
        | some s => decodePackets frameWordsBase p s (List.replicate k noPacket)) = _
      have : decodePacket frameWordsBase p s noPacket = some s := by
        unfold decodePacket
        rw [if_pos (by decide)]
      rw [this]
      exact ih s
  have hmid : ∀ (a b : List Packet) (k : Nat) (s : DecState), decodePackets frameWordsBase p s (a ++ (List.replicate k noPacket ++ b)) =
      decodePackets frameWordsBase p s (a ++ b) := by
    intro a b k s
    rw [decodePackets_append, decodePackets_append frameWordsBase p a b]
    cases decodePackets frameWordsBase p s a with
    | none => rfl
    | some s' => rw [Option.bind_some, Option.bind_some, decodePackets_append, hz, Option.bind_some]
  exact congrArg (Option.map fun s : DecState => (⟨p, s.frames⟩ : Configuration)) (hmid _ _ _ _)

/-- Zero frames make zero words. -/
theorem zero_payload (p : Part) : ∀ m : BMap (FrameWords frameWordsBase), (∀ k f, (k, f) ∈ m → f = zeroFrame frameWordsBase) →
    type2Payload p m = List.replicate (type2Payload p m).length 0#32 := by
  intro m h
  rw [List.eq_replicate_iff]
  refine ⟨rfl, ?_⟩
  induction m with
  | nil => intro w hw; exact (List.mem_replicate.mp hw).2
  | cons kv m ih =>
    obtain ⟨k, f⟩ := kv
    intro w hw
    rw [type2Payload] at hw
    rcases List.mem_append.mp hw with hw | hw
    · rw [h k f List.mem_cons_self] at hw
      unfold framePayload at hw
      rcases List.mem_append.mp hw with hw | hw
      · rw [zeroFrame, Vector.toList_replicate] at hw
        exact (List.mem_replicate.mp hw).2
      · split at hw
        · split at hw
          · exact (List.mem_replicate.mp hw).2
          · cases hw
        · cases hw
    · exact ih (fun k f hk => h k f (List.mem_cons_of_mem _ hk)) w hw

/-- Finding: the frame data of a part beyond the limit is cut.  Assembling for it, even an empty design, ends well, but whoever reads
the file finds some frame of the part missing. -/
theorem C116_lost (d : Db.Part) (hd : DescFits d) (p : Part) (hp : Part.fromPart d = .ok p) (hbig : ¬ FitsPacket p)
    (partName source date time : Bytes) (seek : Bool)
    (hfree : SyncFree (headerBytes (source ++ (generatorMark ++ bytes!"fpga-assembler")) partName date time)) :
    ∃ c fuel0, (∃ a, Reached p a ∧ c.frames.get? a.toNat = none) ∧ ∀ fuel ≥ fuel0, ∃ o,
      encode d partName source date time [] ⟨[], 0, seek, false⟩ fuel = some (.ok o) ∧
      decodeFile p o.bytes fuel = some (.ok (some c)) := by
  have hfits := fits_fromPart d hd p hp
  obtain ⟨fuel1, m, hm, hmono⟩ := C08_fill_terminates p hfits (zeroFrame frameWordsBase) []
  obtain ⟨hsm, hget⟩ := C07_fill_exact p _ _ _ _ List.Pairwise.nil hm
  have hwalk : WalkFrom p 0#32 m := (walk_of_completed p hfits _ _ _ _ List.Pairwise.nil (by intro k f h; cases h) hm).1
  have hzero : ∀ k f, (k, f) ∈ m → f = zeroFrame frameWordsBase := by
    intro k f hkf
    rcases (hget k f).mp (BMap.get?_of_mem hsm hkf) with h | ⟨_, h, _⟩
    · cases h
    · exact h
  have hlen : 2 ^ 27 ≤ (type2Payload p m).length := by
    apply Classical.byContradiction
    intro hlt
    apply hbig
    intro walk hw
    have hkeys : walk.map (·.1) = m.map (·.1) := walk_unique p _ _ _ hw hwalk
    have e : (type2Payload p m).length = (m.length + 2 * rowEnds p m + 2) * 101 := type2Payload_length p m
    have e1 : walk.length = m.length := by simpa using congrArg List.length hkeys
    rw [e1, rowEnds_keys p walk m hkeys]
    omega
  have hz := zero_payload p m hzero
  have hmod := Nat.mod_lt (type2Payload p m).length (by decide : 0 < 2 ^ 27)
  have hle := Nat.div_add_mod (type2Payload p m).length (2 ^ 27)
  have hdiv : 1 ≤ (type2Payload p m).length / 2 ^ 27 := by
    rw [Nat.le_div_iff_mul_le (by decide)]; omega
  obtain ⟨i, b, hwi, hwn, hoff⟩ := walk_last p m 0#32 hwalk
  obtain ⟨c, hc1, hc2, hc3, hc4⟩ := decode_any (by decide : 0 < frameWordsBase) p hfits
    ((type2Payload p m).take ((type2Payload p m).length % 2 ^ 27))
  refine ⟨c, fuel1 + (syncHeader .xc7 ++ emitted (configurationPackage (type2Payload p m) p.idcode)).length + 2,
    ⟨b, walkAt_reached p i b hwi, ?_⟩, fun fuel hfuel => ?_⟩
  · cases hg : c.frames.get? b.toNat with
    | none => rfl
    | some ws =>
      obtain ⟨j, b', hj, hb', hlt, _⟩ := (hc4 _ _).mp hg
      have hbb : b' = b := BitVec.eq_of_toNat_eq hb'
      subst hbb
      have hij : j = i := by
        rcases Nat.lt_trichotomy j i with h | h | h
        · exact absurd (walkAt_after p j b' hj hwn i h) (by rw [hwi]; exact fun e => nomatch e)
        · exact h
        · exact absurd (walkAt_after p i b' hwi hwn j h) (by rw [hj]; exact fun e => nomatch e)
      subst hij
      rw [List.length_take] at hlt
      have hoff : blockOffset frameWordsBase p 0#32 j + 303 = (type2Payload p m).length := hoff
      omega
  · have hadd : addMissingFrames p (zeroFrame frameWordsBase) fuel [] = some m := by
      have := hmono (fuel - fuel1)
      rwa [show fuel1 + (fuel - fuel1) = fuel by omega] at this
    have hem : emitted (configurationPackage (type2Payload p m) p.idcode) = emitted (cutPackage (type2Payload p m) p.idcode) := by
      rw [hz]; exact emitted_cut _ _
    obtain ⟨o, h1, h2⟩ := write_then_read p _ (cut_representable (type2Payload p m) p.idcode) (cut_chained _ _) partName source date time
      hfree seek fuel (by rw [← hem]; omega)
    refine ⟨o, ?_, by rw [h2, cut_decodes, hc1]⟩
    rw [encode_eq d p hp _ _ _ _ [] m _ _ rfl hadd, ← h1]
    have w1 := writerWords_eq .xc7 (configurationPackage (type2Payload p m) p.idcode) fuel (by omega)
    have w2 := writerWords_eq .xc7 (cutPackage (type2Payload p m) p.idcode) fuel (by rw [← hem]; omega)
    simp only [writeBitstream, w1, w2, hem]

/-- The limit is exact: the file of an empty design gives back every frame of the part just when the frame data fits a packet (then
that of every design does: C18). -/
theorem C116_exact (d : Db.Part) (hd : DescFits d) (p : Part) (hp : Part.fromPart d = .ok p)
    (partName source date time : Bytes) (seek : Bool)
    (hfree : SyncFree (headerBytes (source ++ (generatorMark ++ bytes!"fpga-assembler")) partName date time)) :
    FitsPacket p ↔ ∃ c fuel0, (∀ a, Reached p a → c.frames.get? a.toNat ≠ none) ∧ ∀ fuel ≥ fuel0, ∃ o,
      encode d partName source date time [] ⟨[], 0, seek, false⟩ fuel = some (.ok o) ∧
      decodeFile p o.bytes fuel = some (.ok (some c)) := by
  constructor
  · intro h
    obtain ⟨m, hs, hget, fuel0, hf⟩ := C18_any_names d hd p hp h partName source date time seek hfree [] List.Pairwise.nil
      (by intro k f h; cases h)
    refine ⟨⟨p, sameFrames m⟩, fuel0, fun a ha he => ?_, hf⟩
    have h1 := (hget a.toNat (zeroFrame frameWordsBase)).mpr (Or.inr ⟨rfl, rfl, a, ha, rfl⟩)
    have h2 := BMap.mem_of_get? h1
    have h3 : (a.toNat, (zeroFrame frameWordsBase).toList) ∈ sameFrames m := List.mem_map.mpr ⟨_, h2, rfl⟩
    have hss : (sameFrames m).Sorted := by
      unfold BMap.Sorted sameFrames at *
      rw [List.pairwise_map]
      exact hs
    rw [BMap.get?_of_mem hss h3] at he
    cases he
  · rintro ⟨c, fuel0, hall, hf⟩
    apply Classical.byContradiction
    intro hbig
    obtain ⟨c', fuel1, ⟨a, ha, hnone⟩, hf'⟩ := C116_lost d hd p hp hbig partName source date time seek hfree
    obtain ⟨o, h1, h2⟩ := hf (fuel0 + fuel1) (by omega)
    obtain ⟨o', h1', h2'⟩ := hf' (fuel0 + fuel1) (by omega)
    rw [h1] at h1'
    have := Outcome.ok.inj (Option.some.inj h1')
    subst this
    rw [h2] at h2'
    have := Option.some.inj (Outcome.ok.inj (Option.some.inj h2'))
    subst this
    exact hall a ha hnone

/-! ## A part beyond the limit -/

/-- Eleven rows of 1024 columns with 128 frames each. -/
def hugeDesc : Db.Part :=
  { bottomRows := [], topRows := List.replicate 11 [(.clbIoClk, List.replicate 1024 128)], idcode := 0x0362D093#32, iobanks := [] }

theorem lookup_one (bus : Db.ConfigBusType) (l : List Nat) (f : List Nat → Option Nat) (n : Nat) :
    (List.lookup bus [(.clbIoClk, l)]).bind f = some n ↔ bus = .clbIoClk ∧ f l = some n := by
  cases bus <;> simp [List.lookup] <;> (intro h; cases h)

theorem huge_count (row : Nat) (bus : Db.ConfigBusType) (column n : Nat) (bottom : Bool) :
    describedCount hugeDesc bottom row bus column = some n ↔ bottom = false ∧ row < 11 ∧ bus = .clbIoClk ∧ column < 1024 ∧ n = 128 := by
  unfold describedCount hugeDesc
  cases bottom with
  | true => simp
  | false =>
    simp only [Bool.false_eq_true, if_false, List.getElem?_replicate, true_and]
    by_cases hr : row < 11
    · rw [if_pos hr, Option.bind_some, lookup_one, List.getElem?_replicate]
      by_cases hc : column < 1024
      · simp only [hc, hr, if_true, Option.some.injEq, true_and, eq_comm]
      · simp only [hc, hr, if_false, reduceCtorEq, and_false, false_and]
    · simp only [hr, if_false, Option.bind_none, reduceCtorEq, false_and]

theorem hugeDesc_dense : DescDense hugeDesc where
  fits := by
    intro half h
    rcases h with rfl | rfl
    · refine ⟨by decide, fun row hrow => ?_⟩
      rw [(List.mem_replicate.mp hrow).2]
      refine ⟨by decide, fun bus hbus => ?_⟩
      rw [List.mem_singleton.mp hbus]
      refine ⟨by rw [List.length_replicate]; decide, fun n hn => by rw [(List.mem_replicate.mp hn).2]; decide⟩
    · exact ⟨by decide, by intro row h; cases h⟩
  noCfg := by
    intro half h row hrow bus hbus he
    rcases h with rfl | rfl
    · rw [(List.mem_replicate.mp hrow).2] at hbus
      rw [List.mem_singleton.mp hbus] at he
      cases he
    · cases hrow
  positive := by
    intro half h row hrow bus hbus n hn
    rcases h with rfl | rfl
    · rw [(List.mem_replicate.mp hrow).2] at hbus
      rw [List.mem_singleton.mp hbus] at hn
      rw [(List.mem_replicate.mp hn).2]; decide
    · cases hrow
  rows := by
    intro b r t n h r' hr'
    obtain ⟨h1, h2, h3, h4, h5⟩ := (huge_count ..).mp h
    exact ⟨128, (huge_count ..).mpr ⟨h1, by omega, h3, h4, rfl⟩⟩
  halves := by
    intro r t n h
    obtain ⟨h1, _⟩ := (huge_count ..).mp h
    cases h1

theorem huge_valid (p : Part) (hp : Part.fromPart hugeDesc = .ok p) (a : FrameAddress) (ha : a.toNat < 11 * 2 ^ 17) :
    p.isValid a = true := by
  have hw : WellFormedDesc hugeDesc := by
    intro half h
    obtain ⟨h1, h2⟩ := hugeDesc_dense.fits half h
    refine ⟨by omega, fun row hrow => ⟨(h2 row hrow).1, fun bus hbus => ?_⟩⟩
    have := ((h2 row hrow).2 bus hbus).1
    omega
  rw [C06_valid_iff_described_partial hugeDesc hw hugeDesc_dense.noCfg p hp]
  refine ⟨.clbIoClk, 128, ?_, (huge_count ..).mpr ⟨?_, ?_, rfl, ?_, rfl⟩, ?_⟩ <;>
    simp only [coordOf, FrameAddress.toNat_blockType, FrameAddress.toNat_row, FrameAddress.toNat_column, FrameAddress.toNat_minor,
      FrameAddress.isBottom_eq, busNumber, decide_eq_false_iff_not] <;> omega

theorem huge_length (p : Part) (hp : Part.fromPart hugeDesc = .ok p) : ¬ FitsPacket p := by
  intro h
  have hfits := fits_fromPart hugeDesc hugeDesc_dense.fits p hp
  have hdense := dense_fromPart hugeDesc hugeDesc_dense p hp
  obtain ⟨fuel, m, hm, _⟩ := C08_fill_terminates (β := FrameWords frameWordsBase) p hfits (zeroFrame _) []
  obtain ⟨hsm, hget⟩ := C07_fill_exact p _ _ _ _ List.Pairwise.nil hm
  have hwalk : WalkFrom p 0#32 m := (walk_of_completed p hfits _ _ _ _ List.Pairwise.nil (by intro k f h; cases h) hm).1
  have hpay := h.payload hwalk
  have e : (type2Payload p m).length = (m.length + 2 * rowEnds p m + 2) * 101 := type2Payload_length p m
  have hl := nodup_subset_length (List.range (11 * 2 ^ 17)) (m.map (·.1)) List.nodup_range (by
    intro k hk
    have hk := List.mem_range.mp hk
    have hkn : (BitVec.ofNat 32 k).toNat = k := by rw [BitVec.toNat_ofNat]; exact Nat.mod_eq_of_lt (by omega)
    have hr : Reached p (BitVec.ofNat 32 k) := reached_of_valid p hfits hdense _ (by rw [hkn]; omega)
      (huge_valid p hp _ (by rw [hkn]; exact hk))
    have := BMap.mem_of_get? ((hget k (zeroFrame _)).mpr (Or.inr ⟨rfl, rfl, _, hr, hkn⟩))
    exact List.mem_map.mpr ⟨_, this, rfl⟩)
  rw [List.length_range, List.length_map] at hl
  omega

/-- Such a part can be described, without holes and with all coordinates in range, and it is beyond the limit: 1441792 frames. -/
theorem C116_huge : DescDense hugeDesc ∧ ∃ p, Part.fromPart hugeDesc = .ok p ∧ ¬ FitsPacket p :=
  ⟨hugeDesc_dense, (C06_fromPart_total hugeDesc).elim fun p hp => ⟨p, hp.1, huge_length p hp.1⟩⟩

/-- Non-vacuity: C116_lost applies to it. -/
example : ∃ p c fuel0, (∃ a, Reached p a ∧ c.frames.get? a.toNat = none) ∧ ∀ fuel ≥ fuel0, ∃ o,
      encode hugeDesc bytes!"fasm" bytes!"fpga-source" bytes!"d" bytes!"t" [] ⟨[], 0, true, false⟩ fuel = some (.ok o) ∧
      decodeFile p o.bytes fuel = some (.ok (some c)) := by
  obtain ⟨hd, p, hp, hbig⟩ := C116_huge
  exact ⟨p, C116_lost hugeDesc hd.fits p hp hbig _ _ _ _ true ((afterSync_none _).mp (by decide +kernel))⟩

/-- Non-vacuity: both sides of C116_exact are met by the small device. -/
example : ∃ p, Part.fromPart smallDesc = .ok p ∧ DescFits smallDesc ∧ FitsPacket p :=
  ⟨_, rfl, smallDesc_dense.fits, smallDesc_packet⟩

/-! ## The program -/

section
open Verif.Asm
open Verif.Db (PartDatabase Env LoadOrder)

/-- The program on a part beyond the limit: for a design that lists no bits (an empty file, say) it exits with status 0, and the
bitstream lacks frames of the part. -/
theorem C116_program (env : Env) (load : LoadOrder) (hload : LoadOk load) (ord : HashOrder) (hord : Permutes ord) (inv : Invocation)
    (db : PartDatabase) (text : Bytes) (hstart : Starts env load inv db text)
    (hasm : Assembles db.tiles text)
    (hd : DescFits db.tiles.part) (p : Xc7.Part) (hp : Part.fromPart db.tiles.part = .ok p)
    (hbig : ¬ FitsPacket p) (hdate : ShortAscii inv.date) (htime : ShortAscii inv.time)
    (hnone : ∀ tile call, ¬ Lists db.tiles (Design db.tiles text) tile call) (seek : Bool) :
    ∃ c fuel0, (∃ a, Reached p a ∧ c.frames.get? a.toNat = none) ∧ ∀ fuel ≥ fuel0, ∃ o,
      main env load ord inv ⟨[], 0, seek, false⟩ fuel = some (.ok (0, o)) ∧
      decodeFile p o.bytes fuel = some (.ok (some c)) := by
  obtain ⟨_, _, _, path, _, _, _, hparse⟩ := id hstart
  obtain ⟨hok, hfresh⟩ := C45_loaded env load hload _ _ db hparse
  obtain ⟨db', frames, ha, hreach, _, _, hframes⟩ := assemble_ok hok ord hord text db hfresh hasm
  have hempty : frames = [] := by
    cases frames with
    | nil => rfl
    | cons e r =>
      obtain ⟨tile, call, h, _⟩ := (hframes e.1).1 ⟨e.2, List.mem_cons_self⟩
      exact absurd h (hnone tile call)
  subst hempty
  obtain ⟨c, fuel0, h1, h2⟩ := C116_lost db.tiles.part hd p hp hbig kFasm kSource inv.date inv.time seek (names_syncFree _ _ _ _ (by
    intro s hs
    simp only [List.mem_cons, List.not_mem_nil, or_false] at hs
    rcases hs with rfl | rfl | rfl | rfl
    · unfold ShortAscii; decide
    · unfold ShortAscii; decide
    · exact hdate
    · exact htime))
  refine ⟨c, fuel0, h1, fun fuel hf => ?_⟩
  obtain ⟨o, h3, h4⟩ := h2 fuel hf
  have ht : db'.tiles = db.tiles := (Db.reachable_cache hreach).1
  exact ⟨o, main_started env load ord inv _ fuel db text hstart db' [] ha o (by rw [ht]; exact h3), h4⟩

theorem hugeDesc_valid : PartValid hugeDesc := by
  refine ⟨⟨List.Pairwise.nil, fun e he => nomatch he⟩, ?_⟩
  rintro half (rfl | rfl)
  · exact ⟨Nat.zero_le _, by intro row hr; cases hr⟩
  · refine ⟨by show (List.replicate 11 _).length ≤ _; rw [List.length_replicate]; decide, fun row hr => ?_⟩
    rw [List.eq_of_mem_replicate hr]
    refine ⟨by decide, fun bus hb => ?_⟩
    rw [List.mem_singleton.1 hb]
    exact ⟨by rw [List.length_replicate]; decide, fun n hn => by rw [List.eq_of_mem_replicate hn]; decide⟩

/-- Non-vacuity: the database of the examples with that part, and no input at all. -/
example : ∃ p c fuel0, Part.fromPart hugeDesc = .ok p ∧ (∃ a, Reached p a ∧ c.frames.get? a.toNat = none) ∧ ∀ fuel ≥ fuel0, ∃ o,
      main (descEnv hugeDesc) sameLoad sameOrder { fileInv with stdin := [] } ⟨[], 0, true, false⟩ fuel = some (.ok (0, o)) ∧
      decodeFile p o.bytes fuel = some (.ok (some c)) := by
  obtain ⟨hd, p, hp, hbig⟩ := C116_huge
  have hstart : Starts (descEnv hugeDesc) sameLoad { fileInv with stdin := [] } ⟨descTiles hugeDesc, []⟩ [] :=
    ⟨by decide, by decide, Or.inr ⟨fun _ _ h => by simp [fileInv] at h, rfl⟩, bytes!"d", Or.inr ⟨rfl, rfl⟩, by decide, by
      show fileEnv.fileExists [bytes!"d"] = true
      decide, desc_database hugeDesc hugeDesc_valid⟩
  have hok := (C45_loaded _ _ sameLoad_ok _ _ _ (desc_database hugeDesc hugeDesc_valid)).1
  have ha : assembleFrames sameOrder [] ⟨descTiles hugeDesc, []⟩ [] = .ok (⟨descTiles hugeDesc, []⟩, []) := rfl
  have hfr := C50_frames hok sameOrder sameOrder_permutes [] ⟨descTiles hugeDesc, []⟩ Reachable.fresh _ _ ha
  obtain ⟨c, fuel0, h1, h2⟩ := C116_program (descEnv hugeDesc) sameLoad sameLoad_ok sameOrder sameOrder_permutes _ _ [] hstart
    ((C50_succeeds hok sameOrder sameOrder_permutes _ _ Reachable.fresh).1 ⟨_, ha⟩) hd.fits p hp hbig
    (by unfold ShortAscii; decide) (by unfold ShortAscii; decide)
    (fun tile call h => by
      obtain ⟨f, hf⟩ := (hfr.2.2 call.frame).2 ⟨tile, call, h, Or.inl rfl⟩
      cases hf) true
  exact ⟨p, c, fuel0, hp, h1, h2⟩

end

end Verif.Props
