import Verif.Proofs.Crash
import Verif.Props.C63
/-! # C74: an interrupted output is never mistaken for a complete one

The writer puts the header with a zero length field, then the configuration bytes, then seeks back and puts the
length.  Whatever happens after any prefix of those operations, a reader of the documented file layout that
compares the length field with the bytes present can tell. -/
namespace Verif.Xc7
open Verif.Spec

theorem interrupted_file (hdr : Bytes) (words : List Word) (seek : Bool) (d p t u : Bytes)
    (hread : ∀ (n : Word) (cfg : Bytes), readBitFile (hdr ++ bytesOfWord n ++ cfg) = some ⟨d, p, t, u, n.toNat, cfg⟩)
    (hsize : 4 * words.length < 2 ^ 32) (k : Nat) (f : BitFile)
    (now : Bytes)
    (hnow : now = ((⟨[], 0, seek, false⟩ : OStream).steps
      ((writeOps (hdr ++ [0, 0, 0, 0]) words ⟨[], 0, seek, false⟩).take k)).bytes)
    (hf : readBitFile now = some f) :
    (f.design = d ∧ f.part = p ∧ f.date = t ∧ f.time = u) ∧ f.config <+: bytesOfWords words ∧
    f.length ≤ (if seek then 4 * words.length else 0) ∧
    (f.length = f.config.length → f.config = [] ∨
      seek = true ∧ now = hdr ++ bytesOfWord (BitVec.ofNat 32 (4 * words.length)) ++ bytesOfWords words) := by
  have hz : bytesOfWord 0#32 = [0, 0, 0, 0] := by rfl
  have hL : (BitVec.ofNat 32 (4 * words.length)).toNat = 4 * words.length := by
    rw [BitVec.toNat_ofNat]; exact Nat.mod_eq_of_lt hsize
  have h := interrupted hdr words seek k
  rw [← hnow] at h
  rcases h with ⟨x, hx⟩ | ⟨rfl, j, hj⟩
  · have h1 := readBitFile_append now x f hf
    rw [hx, ← hz, hread] at h1
    simp only [Option.some.injEq, BitFile.mk.injEq] at h1
    obtain ⟨rfl, rfl, rfl, rfl, h2, h3⟩ := h1
    have h2' : f.length = 0 := h2.symm
    refine ⟨⟨rfl, rfl, rfl, rfl⟩, ⟨x, h3.symm⟩, by omega, ?_⟩
    intro h4
    left
    exact List.eq_nil_of_length_eq_zero (by omega)
  · obtain ⟨v, hv, hle⟩ := patched_word (BitVec.ofNat 32 (4 * words.length)) j
    rw [hv] at hj
    rw [hj, hread] at hf
    simp only [Option.some.injEq] at hf
    subst hf
    refine ⟨⟨rfl, rfl, rfl, rfl⟩, List.prefix_refl _, by simpa [hL] using hle, ?_⟩
    intro h4
    right
    refine ⟨rfl, ?_⟩
    rw [hj]
    have : v = BitVec.ofNat 32 (4 * words.length) := by
      apply BitVec.eq_of_toNat_eq
      rw [hL, ← bytesOfWords_length]
      exact h4
    rw [this]

/-- The file written by `writeBitstream`, interrupted after any number of its stream operations: when it can be
read at all, the four header strings are those of the complete file, the configuration bytes are an initial part
of the complete ones, and the length field never exceeds the complete one; if the length field agrees with the
bytes present then there are no configuration bytes at all or the file is the complete one.  `seek` says whether
the output can seek. -/
theorem C74_writer (arch : Arch) (packets : List Packet) (partName source generator date time : Bytes)
    (h1 : (source ++ (generatorInfix ++ generator)).length < 65535) (h2 : partName.length < 65535)
    (h3 : date.length < 65535) (h4 : time.length < 65535) (seek : Bool) (fuel : Nat) (ops : List StreamOp)
    (hops : writeBitstreamOps arch packets partName source generator date time ⟨[], 0, seek, false⟩ fuel = some (.ok ops)) :
    ∃ o : OStream,
      writeBitstream arch packets partName source generator date time ⟨[], 0, seek, false⟩ fuel = some (.ok o) ∧
      o = (⟨[], 0, seek, false⟩ : OStream).steps ops ∧
      (o.bytes.length < 2 ^ 32 → ∃ full, readBitFile o.bytes = some full ∧
        (seek = true → full.length = full.config.length) ∧
        ∀ k f, readBitFile ((⟨[], 0, seek, false⟩ : OStream).steps (ops.take k)).bytes = some f →
          f.design = full.design ∧ f.part = full.part ∧ f.date = full.date ∧ f.time = full.time ∧
          f.config <+: full.config ∧ f.length ≤ full.length ∧
          (f.length = f.config.length → f.config = [] ∨
            ((⟨[], 0, seek, false⟩ : OStream).steps (ops.take k)).bytes = o.bytes)) := by
  refine ⟨_, ?_, rfl, ?_⟩
  · rw [writeBitstream_ops, hops]; rfl
  unfold writeBitstreamOps at hops
  cases hw : writerWords arch packets fuel with
  | none => rw [hw] at hops; cases hops
  | some o =>
    rw [hw] at hops
    cases o with
    | err => cases hops
    | abort => cases hops
    | ub => cases hops
    | ok words =>
      have hops : ops = writeOps (createHeader partName source generator date time) words ⟨[], 0, seek, false⟩ := by
        cases hops; rfl
      rw [createHeader_eq] at hops
      have hread := fun n cfg => readBitFile_header partName source generator date time n cfg h1 h2 h3 h4
      obtain ⟨hdr, hh⟩ : ∃ hdr, headerPrefix partName source generator date time = hdr := ⟨_, rfl⟩
      rw [hh] at hops
      simp only [hh] at hread
      have hz : bytesOfWord 0#32 = [0, 0, 0, 0] := by rfl
      -- the complete contents
      have hfull : ((⟨[], 0, seek, false⟩ : OStream).steps ops).bytes =
          hdr ++ bytesOfWord (if seek then BitVec.ofNat 32 (4 * words.length) else 0#32) ++ bytesOfWords words := by
        rw [hops, steps_writeOps]
        cases seek with
        | false =>
          rw [(writeFile_pipe _ _ _ ⟨rfl, rfl⟩ rfl).1, ← hz]
          simp
        | true =>
          rw [writeFile_seekable _ _ _ ⟨rfl, rfl⟩ rfl]
          simp
      rw [hfull]
      intro hsz
      have hsz' : 4 * words.length < 2 ^ 32 := by
        rw [List.length_append, bytesOfWords_length] at hsz; omega
      refine ⟨_, hread _ _, ?_, ?_⟩
      · rintro rfl
        simp only [if_true, bytesOfWords_length, BitVec.toNat_ofNat]
        exact Nat.mod_eq_of_lt hsz'
      · intro k f hf
        obtain ⟨⟨e1, e2, e3, e4⟩, e5, e6, e7⟩ := interrupted_file hdr words seek _ _ _ _ hread hsz' k f _ (by rw [hops]) hf
        refine ⟨e1, e2, e3, e4, e5, ?_, ?_⟩
        · cases seek with
          | false => simpa using e6
          | true =>
            simp only [if_true, BitVec.toNat_ofNat] at e6 ⊢
            rw [Nat.mod_eq_of_lt hsz']; exact e6
        · intro hl
          rcases e7 hl with h | ⟨rfl, h⟩
          · exact .inl h
          · right; rw [h]; rfl

/-- The same for `Encode`: whatever prefix of its output was performed, a length field that agrees with the bytes
present means that there are no configuration bytes or that the file is complete. -/
theorem C74_encode (part : Db.Part) (partName source date time : Bytes)
    (h1 : source.length < 65000) (h2 : partName.length < 65535) (h3 : date.length < 65535) (h4 : time.length < 65535)
    (frames : BMap (FrameWords frameWordsBase)) (seek : Bool) (fuel : Nat) (o : OStream)
    (henc : encode part partName source date time frames ⟨[], 0, seek, false⟩ fuel = some (.ok o))
    (hsize : o.bytes.length < 2 ^ 32) :
    ∃ ops full, encodeOps part partName source date time frames ⟨[], 0, seek, false⟩ fuel = some (.ok ops) ∧
      o = (⟨[], 0, seek, false⟩ : OStream).steps ops ∧ readBitFile o.bytes = some full ∧
      (seek = true → full.length = full.config.length) ∧
      ∀ k f, readBitFile ((⟨[], 0, seek, false⟩ : OStream).steps (ops.take k)).bytes = some f →
        f.design = full.design ∧ f.part = full.part ∧ f.date = full.date ∧ f.time = full.time ∧
        f.config <+: full.config ∧ f.length ≤ full.length ∧
        (f.length = f.config.length → f.config = [] ∨
          ((⟨[], 0, seek, false⟩ : OStream).steps (ops.take k)).bytes = o.bytes) := by
  rw [encode_ops] at henc
  cases hops : encodeOps part partName source date time frames ⟨[], 0, seek, false⟩ fuel with
  | none => rw [hops] at henc; cases henc
  | some oo =>
    rw [hops] at henc
    cases oo with
    | err => cases henc
    | abort => cases henc
    | ub => cases henc
    | ok ops =>
      have ho : (⟨[], 0, seek, false⟩ : OStream).steps ops = o := by cases henc; rfl
      unfold encodeOps at hops
      split at hops
      · split at hops
        · cases hops
        · rename_i p _ _ m _
          obtain ⟨o', _, ho', hfull⟩ := C74_writer _ _ partName source generatorName date time
            (by rw [List.length_append]
                have : (generatorInfix ++ generatorName).length = 25 := by decide
                omega) h2 h3 h4 seek fuel ops hops
          rw [ho] at ho'
          subst ho'
          obtain ⟨full, g1, g2, g3⟩ := hfull hsize
          exact ⟨ops, full, rfl, ho.symm, g1, g2, g3⟩
      · cases hops
      · cases hops
      · cases hops

/-- Interrupted after the header and five of the eight configuration bytes, after everything but the length, and
with half of the length: none of these pass for complete. -/
example :
    let ops := writeOps [9, 9, 0, 0, 0, 0] [0x11223344#32, 0x55667788#32] ⟨[], 0, true, false⟩
    ops.length = 19 ∧
    ((⟨[], 0, true, false⟩ : OStream).steps (ops.take 11)).bytes = [9, 9, 0, 0, 0, 0, 0x11, 0x22, 0x33, 0x44, 0x55] ∧
    ((⟨[], 0, true, false⟩ : OStream).steps (ops.take 18)).bytes =
      [9, 9, 0, 0, 0, 0, 0x11, 0x22, 0x33, 0x44, 0x55, 0x66, 0x77, 0x88] ∧
    ((⟨[], 0, true, false⟩ : OStream).steps ops).bytes =
      [9, 9, 0, 0, 0, 8, 0x11, 0x22, 0x33, 0x44, 0x55, 0x66, 0x77, 0x88] := by decide +kernel

/-- The hypotheses of `C74_writer` are met by a packet with two data words. -/
example : ∃ ops, writeBitstreamOps .xc7 [⟨1, 2, 4, [7, 9]⟩] bytes!"a" bytes!"b" bytes!"c" bytes!"d" bytes!"e" ⟨[], 0, true, false⟩ 100 = some (.ok ops) ∧
    ops.length > 100 := by
  refine ⟨_, rfl, ?_⟩
  decide +kernel

end Verif.Xc7

/-! ## The device -/
namespace Verif.Props
open Verif.Xc7 Verif.Xc7.Packet Verif.Spec

/-- The packets of an initial part of a word sequence are an initial part of its packets. -/
theorem packetsOf_prefix (x : List Word) : ∀ (n m : Nat) (prev : Option Packet) (ws : List Word), n ≤ m →
    packetsOf n prev ws <+: packetsOf m prev (ws ++ x) := by
  intro n
  induction n with
  | zero => intro m prev ws _; exact List.nil_prefix
  | succ n ih =>
    intro m prev ws hm
    obtain ⟨m, rfl⟩ : ∃ k, m = k + 1 := ⟨m - 1, by omega⟩
    have hm : n ≤ m := by omega
    cases ws with
    | nil => exact List.nil_prefix
    | cons w ws =>
      simp only [List.cons_append, packetsOf]
      by_cases h0 : field w 29 3 = 0
      · rw [if_pos h0, if_pos h0]
        exact (List.prefix_cons_inj _).2 (ih m _ ws hm)
      rw [if_neg h0, if_neg h0]
      by_cases h1 : field w 29 3 = 1
      · rw [if_pos h1, if_pos h1]
        by_cases hl : ws.length < field w 0 11
        · rw [if_pos hl]; exact List.nil_prefix
        · rw [if_neg hl, if_neg (by rw [List.length_append]; omega), List.take_append_of_le_length (by omega),
            List.drop_append_of_le_length (by omega)]
          exact (List.prefix_cons_inj _).2 (ih m _ _ hm)
      rw [if_neg h1, if_neg h1]
      by_cases h2 : field w 29 3 = 2
      · rw [if_pos h2, if_pos h2]
        by_cases hl : ws.length < field w 0 27
        · rw [if_pos hl]; exact List.nil_prefix
        · rw [if_neg hl, if_neg (by rw [List.length_append]; omega), List.take_append_of_le_length (by omega),
            List.drop_append_of_le_length (by omega)]
          cases prev with
          | none => exact ih m _ _ hm
          | some q => exact (List.prefix_cons_inj _).2 (ih m _ _ hm)
      · rw [if_neg h2]; exact List.nil_prefix

theorem packetStream_prefix (ws all : List Word) (h : ws <+: all) : packetStream ws <+: packetStream all := by
  obtain ⟨x, rfl⟩ := h
  exact packetsOf_prefix x _ _ none ws (by rw [List.length_append]; omega)

/-- Nothing starts before the last frame, no last frame before frame data. -/
def Orderly (s : Device) : Prop := (s.started = true → s.lastFrame = true) ∧ (s.lastFrame = true → s.loaded ≠ [])

theorem write_loaded (id : Word) (s : Device) (reg : Nat) (w : Word) : (s.write id reg w).loaded = s.loaded := by
  unfold Device.write
  repeat' split
  all_goals rfl

theorem write_orderly (id : Word) (s : Device) (reg : Nat) (w : Word) (h : Orderly s) : Orderly (s.write id reg w) := by
  obtain ⟨h1, h2⟩ := h
  unfold Device.write
  repeat' split
  all_goals first
    | exact ⟨h1, h2⟩
    | skip
  constructor
  · intro hs
    simp only [Device.command, Bool.or_eq_true, Bool.and_eq_true] at hs ⊢
    rcases hs with hs | ⟨_, hs⟩
    · exact .inl (h1 hs)
    · exact .inl hs
  · intro hs
    simp only [Device.command, Bool.or_eq_true, Bool.and_eq_true, Bool.not_eq_true', List.isEmpty_eq_false_iff] at hs ⊢
    rcases hs with hs | ⟨_, hs⟩
    · exact h2 hs
    · exact hs

theorem writes_loaded (id : Word) (reg : Nat) (ws : List Word) : ∀ s : Device,
    (ws.foldl (fun s w => s.write id reg w) s).loaded = s.loaded := by
  induction ws with
  | nil => intro s; rfl
  | cons w ws ih => intro s; rw [List.foldl_cons, ih, write_loaded]

theorem writes_orderly (id : Word) (reg : Nat) (ws : List Word) : ∀ s : Device, Orderly s →
    Orderly (ws.foldl (fun s w => s.write id reg w) s) := by
  induction ws with
  | nil => intro s h; exact h
  | cons w ws ih => intro s h; rw [List.foldl_cons]; exact ih _ (write_orderly id s reg w h)

theorem packet_orderly (id : Word) (s : Device) (p : Packet) (h : Orderly s) : Orderly (Device.packet id s p) := by
  unfold Device.packet
  split
  · exact h
  · split
    · split
      · exact h
      · split
        · exact ⟨h.1, fun _ => by simp⟩
        · exact h
    · exact writes_orderly _ _ _ _ h

theorem packets_orderly (id : Word) (ps : List Packet) : ∀ s : Device, Orderly s → Orderly (ps.foldl (Device.packet id) s) := by
  induction ps with
  | nil => intro s h; exact h
  | cons p ps ih => intro s h; exact ih _ (packet_orderly id s p h)

/-- Packets without frame data. -/
def NoData (p : Packet) : Prop := p.address.toNat = 2 → p.data = []

theorem packets_noData (id : Word) (ps : List Packet) (h : ∀ p ∈ ps, NoData p) : ∀ s : Device,
    (ps.foldl (Device.packet id) s).loaded = s.loaded := by
  induction ps with
  | nil => intro s; rfl
  | cons p ps ih =>
    intro s
    rw [List.foldl_cons, ih (fun q hq => h q (List.mem_cons_of_mem _ hq))]
    unfold Device.packet
    split
    · rfl
    · split
      · rename_i h2
        rw [h p List.mem_cons_self h2]
      · exact writes_loaded _ _ _ _

theorem prefix_noData (w : Word) : ∀ p ∈ packagePrefix w, NoData p := by
  have h : ∀ p ∈ packagePrefix w, p.address.toNat = 2 → p.data.length = 0 := by
    have e : (packagePrefix w).map (fun p => (p.address, p.data.length)) =
        (packagePrefix 0#32).map (fun p => (p.address, p.data.length)) := rfl
    have hc : ∀ q ∈ (packagePrefix 0#32).map (fun p => (p.address, p.data.length)), q.1.toNat = 2 → q.2 = 0 := by decide
    intro p hp
    exact hc (p.address, p.data.length) (e ▸ List.mem_map_of_mem hp)
  exact fun p hp h2 => List.eq_nil_of_length_eq_zero (h p hp h2)

theorem suffix_noData : ∀ p ∈ packageSuffix, NoData p := by
  unfold NoData packageSuffix
  decide +kernel

/-- An initial part of the programming sequence, given to a device: it starts only if all of the frame data
arrived, and it never holds frame data other than all of it. -/
theorem device_interrupted (id w d : Word) (ds : List Word) (ps : List Packet)
    (h : ps <+: configurationPackage (d :: ds) w) (s : Device) (hs : s = ps.foldl (Device.packet id) {}) :
    (s.loaded = [] ∨ w = id ∧ s.loaded = [(0, d :: ds)]) ∧ (s.started = true → w = id ∧ s.loaded = [(0, d :: ds)]) := by
  have ho : Orderly s := hs ▸ packets_orderly id ps {} ⟨by decide, by decide⟩
  have hl : s.loaded = [] ∨ w = id ∧ s.loaded = [(0, d :: ds)] := by
    rw [List.prefix_iff_eq_take] at h
    unfold configurationPackage at h
    obtain ⟨n, hn⟩ : ∃ n, n = ps.length := ⟨_, rfl⟩
    rw [← hn, List.append_assoc] at h
    by_cases hle : n ≤ (packagePrefix w).length
    · left
      rw [List.take_append_of_le_length hle] at h
      rw [hs, packets_noData id ps (fun p hp => prefix_noData w p (by rw [h] at hp; exact List.mem_of_mem_take hp))]
    · rw [List.take_append, List.take_of_length_le (by omega)] at h
      obtain ⟨j, hj⟩ : ∃ j, n - (packagePrefix w).length = j + 1 := ⟨n - (packagePrefix w).length - 1, by omega⟩
      rw [hj, List.singleton_append, List.take_succ_cons] at h
      rw [hs, h, List.foldl_append, device_prefix, List.foldl_cons,
        packets_noData id _ (fun p hp => suffix_noData p (List.mem_of_mem_take hp))]
      by_cases he : w = id
      · right
        refine ⟨he, ?_⟩
        rw [decide_eq_true he]
        rfl
      · left
        rw [decide_eq_false he]
        rfl
  refine ⟨hl, fun hst => ?_⟩
  rcases hl with hl | hl
  · exact absurd hl (ho.2 (ho.1 hst))
  · exact hl

/-- Words of the programming sequence cut anywhere, given to a device: it holds all of the frame data or none (a
packet counts as received when it is complete), and it starts only if it has the part's IDCODE and all of it. -/
theorem C74_device (idcode d : Word) (ds : List Word) (h : (d :: ds).length < 2 ^ 27) (id : Word) (ws : List Word)
    (hws : ws <+: wireWords (configurationPackage (d :: ds) idcode)) :
    ((Device.run id ws).loaded = [] ∨ idcode = id ∧ (Device.run id ws).loaded = [(0, d :: ds)]) ∧
    ((Device.run id ws).started = true → idcode = id ∧ (Device.run id ws).loaded = [(0, d :: ds)]) := by
  have hp := packetStream_prefix ws _ hws
  rw [packetStream_wire _ (package_representable _ _ h) (package_chained _ _)] at hp
  exact device_interrupted id idcode d ds _ hp _ rfl

theorem readField_length (s : Bytes) (t : UInt8) (v r : Bytes) (h : readField s = some (t, v, r)) :
    s.length = 3 + v.length + r.length := by
  match s, h with
  | t' :: hi :: lo :: rest, h =>
    simp only [readField] at h
    by_cases hn : hi.toNat * 256 + lo.toNat ≤ rest.length
    · rw [if_pos hn] at h
      simp only [Option.some.injEq, Prod.mk.injEq] at h
      obtain ⟨rfl, rfl, rfl⟩ := h
      simp only [List.length_cons, List.length_take, List.length_drop]
      omega
    · rw [if_neg hn] at h; cases h

theorem readLength_length (s : Bytes) (t : UInt8) (n : Nat) (r : Bytes) (h : readLength s = some (t, n, r)) :
    s.length = 5 + r.length := by
  match s, h with
  | t' :: a :: b :: c :: d :: rest, h =>
    simp only [readLength, Option.some.injEq, Prod.mk.injEq] at h
    obtain ⟨rfl, rfl, rfl⟩ := h
    simp only [List.length_cons]
    omega

theorem readBitFile_length (s : Bytes) (f : BitFile) (h : readBitFile s = some f) :
    s.length = 30 + f.design.length + f.part.length + f.date.length + f.time.length + f.config.length := by
  unfold readBitFile at h
  by_cases hm : s.take 13 ≠ [0, 9, 0x0f, 0xf0, 0x0f, 0xf0, 0x0f, 0xf0, 0x0f, 0xf0, 0, 0, 1]
  · rw [if_pos hm] at h; cases h
  rw [if_neg hm] at h
  have hm' := congrArg List.length (Classical.not_not.1 hm)
  rw [List.length_take] at hm'
  simp only [List.length_cons, List.length_nil] at hm'
  simp only [Option.bind_eq_some_iff, Prod.exists] at h
  obtain ⟨ta, a, r1, h1, tb, b, r2, h2, tc, c, r3, h3, td, d, r4, h4, te, n, cfg, h5, h6⟩ := h
  have g1 := readField_length _ _ _ _ h1
  have g2 := readField_length _ _ _ _ h2
  have g3 := readField_length _ _ _ _ h3
  have g4 := readField_length _ _ _ _ h4
  have g5 := readLength_length _ _ _ _ h5
  rw [List.length_drop] at g1
  split at h6
  · cases h6
    simp only
    omega
  · cases h6

theorem fileBytes_length (ws : List Word) : (fileBytes ws).length = 4 * ws.length := by
  rw [← C13_serialise]; exact bytesOfWords_length ws

theorem fileBytes_prefix : ∀ a b : List Word, fileBytes a <+: fileBytes b → a <+: b := by
  intro a
  induction a with
  | nil => intro b _; exact List.nil_prefix
  | cons w a ih =>
    intro b h
    cases b with
    | nil => have := h.length_le; rw [fileBytes_length, fileBytes_length] at this; simp at this
    | cons v b =>
      obtain ⟨x, hx⟩ := h
      rw [show fileBytes (w :: a) = beBytes w ++ fileBytes a from rfl,
        show fileBytes (v :: b) = beBytes v ++ fileBytes b from rfl, List.append_assoc] at hx
      obtain ⟨h1, h2⟩ := List.append_inj hx rfl
      have e : w = v := by
        have hb : ∀ u, bytesOfWord u = beBytes u := bytesOfWord_eq
        have e1 := C13_read_serialised [w]
        have e2 := C13_read_serialised [v]
        rw [show fileBytes [w] = beBytes w ++ [] from rfl, h1] at e1
        rw [show fileBytes [v] = beBytes v ++ [] from rfl, e1] at e2
        cases e2; rfl
      rw [e]
      exact (List.prefix_cons_inj _).2 (ih b ⟨x, h2⟩)

/-- Everything together: encoding a part whose coordinates fit, interrupted after any number of its output
operations.  Whatever words of the programming sequence the file then holds, a device given them holds all of the frame
data — every frame in its place — or none, and starts only with the part's IDCODE and all of it. -/
theorem C74_file_device (d : Db.Part) (hd : DescFits d) (p : Part) (hp : Part.fromPart d = .ok p)
    (hsmall : FitsPacket p) (partName source date time : Bytes) (seek : Bool)
    (hnames : ∀ s ∈ [partName, source, date, time], ShortAscii s)
    (frames : BMap (FrameWords 101)) (hs : frames.Sorted)
    (hk : ∀ k f, (k, f) ∈ frames → ∃ a, Reached p a ∧ a.toNat = k) :
    ∃ m, m.Sorted ∧ WalkFrom p 0#32 m ∧
      (∀ k f, m.get? k = some f ↔ (frames.get? k = some f ∨
          (frames.get? k = none ∧ f = Vector.replicate 101 0#32 ∧ ∃ a, Reached p a ∧ a.toNat = k))) ∧
      ∃ fuel0, ∀ fuel ≥ fuel0, ∃ o ops data,
        encode d partName source date time frames ⟨[], 0, seek, false⟩ fuel = some (.ok o) ∧
        encodeOps d partName source date time frames ⟨[], 0, seek, false⟩ fuel = some (.ok ops) ∧
        o = (⟨[], 0, seek, false⟩ : OStream).steps ops ∧
        (∀ i k f, m[i]? = some (k, f) → (data.drop (slot 101 p m i)).take 101 = f.toList) ∧
        ∀ k f, readBitFile ((⟨[], 0, seek, false⟩ : OStream).steps (ops.take k)).bytes = some f →
          (f.length = f.config.length → f.config = [] ∨
            ((⟨[], 0, seek, false⟩ : OStream).steps (ops.take k)).bytes = o.bytes) ∧
          ∀ ws, fileBytes (List.replicate 8 0xFFFFFFFF#32 ++ [0x000000BB#32, 0x11220044#32] ++
              List.replicate 2 0xFFFFFFFF#32 ++ [0xAA995566#32] ++ ws) <+: f.config →
            ∀ id, ((Device.run id ws).loaded = [] ∨ id = p.idcode ∧ (Device.run id ws).loaded = [(0, data)]) ∧
              ((Device.run id ws).started = true → id = p.idcode ∧ (Device.run id ws).loaded = [(0, data)]) := by
  obtain ⟨m, h1, h2, h3, fuel0, h⟩ := encode_file d hd p hp hsmall partName source date time seek hnames frames hs hk
  refine ⟨m, h1, h2, h3, fuel0, fun fuel hf => ?_⟩
  obtain ⟨o, file, words, data, e1, e2, e3, e4, e5, e6, e7, e8, e9, ⟨e10, e10', _⟩, e11⟩ := h fuel hf
  have hshort : ∀ s ∈ [partName, source, date, time], s.length ≤ 120 := fun s hs => (hnames s hs).1
  have hsz : o.bytes.length < 2 ^ 32 := by
    rw [readBitFile_length _ _ e2, e3, e4, e5, e6, e7, fileBytes_length, e10]
    have l1 := hshort partName (by simp)
    have l2 := hshort source (by simp)
    have l3 := hshort date (by simp)
    have l4 := hshort time (by simp)
    unfold configurationPackage
    simp only [wireWords, List.flatMap_append, List.length_append, List.flatMap_cons, List.flatMap_nil, List.length_cons,
      List.length_nil, packageSuffix_wire_length, packagePrefix_wire_length, List.length_replicate]
    omega
  obtain ⟨ops, full, g1, g2, g3, g4, g5⟩ := C74_encode d partName source date time
    (by have := hshort source (by simp); omega) (by have := hshort partName (by simp); omega)
    (by have := hshort date (by simp); omega) (by have := hshort time (by simp); omega) frames seek fuel o e1 hsz
  rw [e2] at g3
  cases g3
  refine ⟨o, ops, data, e1, g1, g2, e9, ?_⟩
  intro k f hkf
  obtain ⟨_, _, _, _, i5, i6, i7⟩ := g5 k f hkf
  refine ⟨i7, ?_⟩
  intro ws hws id
  have hp1 := hws.trans i5
  rw [e7] at hp1
  have hpre : ws <+: words := by
    have := fileBytes_prefix _ _ hp1
    exact (List.prefix_append_right_inj _).1 this
  rw [e10] at hpre
  cases data with
  | nil =>
    rw [Nat.add_mul] at e8
    simp only [List.length_nil] at e8
    omega
  | cons x xs =>
    obtain ⟨j1, j2⟩ := C74_device p.idcode x xs e10' id ws hpre
    exact ⟨j1.imp (fun h => h) fun ⟨a, b⟩ => ⟨a.symm, b⟩, fun hst => ⟨(j2 hst).1.symm, (j2 hst).2⟩⟩

/-- The sequence cut between the frame data and the start command, and cut inside the frame data. -/
example :
    let words := wireWords (configurationPackage [1#32, 2#32] 7#32)
    (Device.run 7#32 (words.take 60)).loaded = [(0, [1#32, 2#32])] ∧ (Device.run 7#32 (words.take 60)).started = false ∧
    (Device.run 7#32 (words.take 47)).loaded = [] ∧ (Device.run 7#32 (words.take 47)).started = false ∧
    (Device.run 7#32 (words.take 170)).started = true := by decide +kernel

/-- The hypotheses of `C74_file_device` are those of `C63_file`; the small device meets them. -/
example : ∃ p, Part.fromPart smallDesc = .ok p ∧ ∃ fuel0, ∀ fuel ≥ fuel0, ∃ ops,
    encodeOps smallDesc bytes!"fasm" bytes!"fpga" bytes!"20" bytes!"12"
      [(129, Vector.replicate 101 5#32)] ⟨[], 0, true, false⟩ fuel = some (.ok ops) := by
  refine ⟨_, rfl, ?_⟩
  obtain ⟨m, _, _, _, fuel0, h⟩ := C74_file_device smallDesc smallDesc_dense.fits _ rfl smallDesc_packet
    bytes!"fasm" bytes!"fpga" bytes!"20" bytes!"12" true (by unfold ShortAscii; decide)
    [(129, Vector.replicate 101 5#32)] (by simp [BMap.Sorted]) (by
      intro k f hkf
      simp only [List.mem_singleton, Prod.mk.injEq] at hkf
      obtain ⟨rfl, _⟩ := hkf
      exact ⟨129#32, reached_of_valid _ (fits_fromPart _ smallDesc_dense.fits _ rfl) (dense_fromPart _ smallDesc_dense _ rfl)
        _ (by decide) (by decide), rfl⟩)
  exact ⟨fuel0, fun fuel hf => by
    obtain ⟨_, ops, _, _, h2, _⟩ := h fuel hf
    exact ⟨ops, h2⟩⟩

end Verif.Props
