import Verif.Model.Crash
import Verif.Proofs.File
/-! # Interrupted output -/
namespace Verif.Xc7
open Verif.Spec

theorem steps_append (o : OStream) (a b : List StreamOp) : o.steps (a ++ b) = (o.steps a).steps b := List.foldl_append

theorem steps_puts (bs : Bytes) (o : OStream) : o.steps (bs.map .put) = bs.foldl (fun o b => o.write [b]) o := by
  rw [OStream.steps, List.foldl_map]; rfl

theorem write_split (o : OStream) (a b : Bytes) : (o.write a).write b = o.write (a ++ b) := by
  unfold OStream.write
  by_cases h : o.failed = true
  · rw [if_pos h, if_pos h, if_pos h]
  · rw [if_neg h, if_neg h, if_neg h]
    have h1 : (o.bytes.take o.pos ++ a).length ≤ o.pos + a.length := by
      rw [List.length_append, List.length_take]; omega
    simp only [overwriteAt, OStream.mk.injEq, and_true, List.length_append, and_self]
    refine ⟨?_, by omega⟩
    by_cases hp : o.pos ≤ o.bytes.length
    · have h2 : (o.bytes.take o.pos ++ a).length = o.pos + a.length := by
        rw [List.length_append, List.length_take]; omega
      rw [List.take_left' h2, List.append_assoc (List.take _ _) a (List.drop _ _), ← List.append_assoc, List.drop_append,
        List.drop_eq_nil_of_le (by rw [h2]; omega), List.nil_append, h2, List.drop_drop]
      rw [show o.pos + a.length + (o.pos + a.length + b.length - (o.pos + a.length)) = o.pos + (a.length + b.length) by omega]
      simp
    · have e : o.bytes.drop (o.pos + a.length) = [] := List.drop_eq_nil_of_le (by omega)
      have e2 : o.bytes.drop (o.pos + (a.length + b.length)) = [] := List.drop_eq_nil_of_le (by omega)
      rw [e, e2, List.append_nil, List.append_nil, List.take_of_length_le h1, List.drop_eq_nil_of_le (by omega)]
      simp

theorem write_nil (o : OStream) : o.write [] = o := by
  unfold OStream.write
  by_cases h : o.failed = true
  · rw [if_pos h]
  · rw [if_neg h]
    simp [overwriteAt]

theorem puts_eq_write (bs : Bytes) : ∀ o : OStream, bs.foldl (fun o b => o.write [b]) o = o.write bs := by
  induction bs with
  | nil => intro o; exact (write_nil o).symm
  | cons b bs ih => intro o; rw [List.foldl_cons, ih, write_split]; rfl

theorem words_eq_puts (ws : List Word) : ∀ o : OStream,
    ws.foldl (fun o w => (bytesOfWord w).foldl (fun o b => o.write [b]) o) o =
      (ws.flatMap bytesOfWord).foldl (fun o b => o.write [b]) o := by
  induction ws with
  | nil => intro o; rfl
  | cons w ws ih => intro o; rw [List.foldl_cons, ih, List.flatMap_cons, List.foldl_append]

/-- The operations, all executed, are the write. -/
theorem steps_writeOps (hdr : Bytes) (words : List Word) (out : OStream) :
    out.steps (writeOps hdr words out) = writeFile hdr words out := by
  unfold writeOps writeFile
  simp only [steps_append, steps_puts, words_eq_puts]
  rw [puts_eq_write hdr out]
  rfl

theorem writeBitstream_ops (arch : Arch) (ps : List Packet) (partName source generator date time : Bytes)
    (out : OStream) (fuel : Nat) :
    writeBitstream arch ps partName source generator date time out fuel =
      (writeBitstreamOps arch ps partName source generator date time out fuel).map
        fun o => o.bind fun ops => .ok (out.steps ops) := by
  unfold writeBitstream writeBitstreamOps
  cases writerWords arch ps fuel with
  | none => rfl
  | some o =>
    cases o with
    | ok ws => simp only [Option.map_some, Outcome.bind, steps_writeOps]
    | err => rfl
    | abort => rfl
    | ub => rfl

/-- `Encode` is the execution of its operations. -/
theorem encode_ops (d : Db.Part) (partName source date time : Bytes) (frames : BMap (FrameWords frameWordsBase))
    (out : OStream) (fuel : Nat) :
    encode d partName source date time frames out fuel =
      (encodeOps d partName source date time frames out fuel).map fun o => o.bind fun ops => .ok (out.steps ops) := by
  unfold encode encodeOps
  cases Part.fromPart d with
  | ok p =>
    dsimp only
    cases addMissingFrames p (zeroFrame frameWordsBase) fuel (convertFrames [] frames) with
    | none => rfl
    | some m => exact writeBitstream_ops ..
  | err => rfl
  | abort => rfl
  | ub => rfl

/-! ## Readers of truncated files -/

theorem readField_append (s x : Bytes) (t : UInt8) (v r : Bytes) (h : readField s = some (t, v, r)) :
    readField (s ++ x) = some (t, v, r ++ x) := by
  match s, h with
  | t' :: hi :: lo :: rest, h =>
    simp only [readField, List.cons_append] at h ⊢
    by_cases hn : hi.toNat * 256 + lo.toNat ≤ rest.length
    · rw [if_pos hn] at h
      rw [if_pos (by rw [List.length_append]; omega)]
      simp only [Option.some.injEq, Prod.mk.injEq] at h
      obtain ⟨rfl, rfl, rfl⟩ := h
      rw [List.take_append_of_le_length hn, List.drop_append_of_le_length hn]
    · rw [if_neg hn] at h; cases h

theorem readLength_append (s x : Bytes) (t : UInt8) (n : Nat) (r : Bytes) (h : readLength s = some (t, n, r)) :
    readLength (s ++ x) = some (t, n, r ++ x) := by
  match s, h with
  | t' :: a :: b :: c :: d :: rest, h =>
    simp only [readLength, List.cons_append, Option.some.injEq, Prod.mk.injEq] at h ⊢
    obtain ⟨rfl, rfl, rfl⟩ := h
    exact ⟨rfl, rfl, rfl⟩

/-- What is readable in a file stays when more is appended. -/
theorem readBitFile_append (s x : Bytes) (f : BitFile) (h : readBitFile s = some f) :
    readBitFile (s ++ x) = some { f with config := f.config ++ x } := by
  unfold readBitFile at h ⊢
  by_cases hm : s.take 13 ≠ [0, 9, 0x0f, 0xf0, 0x0f, 0xf0, 0x0f, 0xf0, 0x0f, 0xf0, 0, 0, 1]
  · rw [if_pos hm] at h; cases h
  rw [if_neg hm] at h
  have hm' := Classical.not_not.1 hm
  have hl : 13 ≤ s.length := by
    have := congrArg List.length hm'
    rw [List.length_take] at this
    simp only [List.length_cons, List.length_nil] at this
    omega
  rw [if_neg (by rw [List.take_append_of_le_length hl]; exact hm), List.drop_append_of_le_length hl]
  simp only [Option.bind_eq_some_iff, Prod.exists] at h
  obtain ⟨ta, a, r1, h1, tb, b, r2, h2, tc, c, r3, h3, td, d, r4, h4, te, n, cfg, h5, h6⟩ := h
  rw [readField_append _ x _ _ _ h1]
  simp only [Option.bind_some]
  rw [readField_append _ x _ _ _ h2]
  simp only [Option.bind_some]
  rw [readField_append _ x _ _ _ h3]
  simp only [Option.bind_some]
  rw [readField_append _ x _ _ _ h4]
  simp only [Option.bind_some]
  rw [readLength_append _ x _ _ _ h5]
  simp only [Option.bind_some]
  split at h6
  · rename_i h7
    rw [if_pos h7]
    simp only [Option.some.injEq] at h6 ⊢
    subst h6
    rfl
  · cases h6

/-! ## Contents after an interruption -/

theorem steps_puts_nil (bs : Bytes) (seek : Bool) :
    (⟨[], 0, seek, false⟩ : OStream).steps (bs.map .put) = ⟨bs, bs.length, seek, false⟩ := by
  rw [steps_puts]
  have := foldl_write_atEnd bs ⟨[], 0, seek, false⟩ ⟨rfl, rfl⟩
  simpa using this

theorem flatMap_bytes (words : List Word) : words.flatMap bytesOfWord = bytesOfWords words := rfl

theorem steps_take_puts (bs : Bytes) (k : Nat) (o : OStream) :
    o.steps ((bs.map StreamOp.put).take k) = o.steps ((bs.take k).map .put) := by rw [List.map_take]

/-- The operations on an empty output: all bytes with a zero length field, a seek back, the length. -/
theorem writeOps_nil (hdr : Bytes) (words : List Word) (seek : Bool) : ∃ (p : Int) (len : Word),
    writeOps (hdr ++ [0, 0, 0, 0]) words ⟨[], 0, seek, false⟩ =
      (hdr ++ [0, 0, 0, 0] ++ bytesOfWords words).map .put ++ [.seek p] ++ (bytesOfWord len).map .put ∧
    (seek = true → p = hdr.length ∧ len = BitVec.ofNat 32 (4 * words.length)) ∧ (seek = false → p < 0) := by
  unfold writeOps
  simp only [steps_puts_nil, flatMap_bytes]
  have e2 : (⟨hdr ++ [0, 0, 0, 0], (hdr ++ [0, 0, 0, 0]).length, seek, false⟩ : OStream).steps ((bytesOfWords words).map .put) =
      ⟨hdr ++ [0, 0, 0, 0] ++ bytesOfWords words, (hdr ++ [0, 0, 0, 0] ++ bytesOfWords words).length, seek, false⟩ := by
    rw [steps_puts]
    exact foldl_write_atEnd _ ⟨hdr ++ [0, 0, 0, 0], _, seek, false⟩ ⟨rfl, rfl⟩
  rw [e2]
  rw [← List.map_append (l₁ := hdr ++ [0, 0, 0, 0])]
  refine ⟨_, _, rfl, ?_, ?_⟩
  · rintro rfl
    simp only [OStream.tellp, Bool.not_true, Bool.or_self, Bool.false_eq_true, if_false]
    refine ⟨by rw [List.length_append]; simp only [List.length_cons, List.length_nil]; omega, ?_⟩
    rw [← BitVec.ofInt_natCast]
    congr 1
    rw [List.length_append (bs := bytesOfWords words), bytesOfWords_length]
    omega
  · rintro rfl
    simp only [OStream.tellp, Bool.not_false, Bool.or_true, if_true]
    decide

/-- The bytes of an output interrupted after `k` operations. -/
theorem interrupted (hdr : Bytes) (words : List Word) (seek : Bool) (k : Nat) :
    let now := ((⟨[], 0, seek, false⟩ : OStream).steps ((writeOps (hdr ++ [0, 0, 0, 0]) words ⟨[], 0, seek, false⟩).take k)).bytes
    now <+: hdr ++ [0, 0, 0, 0] ++ bytesOfWords words ∨
    (seek = true ∧ ∃ j, now = hdr ++ ((bytesOfWord (BitVec.ofNat 32 (4 * words.length))).take j ++ ([0, 0, 0, 0] : Bytes).drop j) ++
      bytesOfWords words) := by
  intro now
  obtain ⟨p, len, hops, hseek, hpipe⟩ := writeOps_nil hdr words seek
  obtain ⟨all, hall⟩ : ∃ all, all = hdr ++ [0, 0, 0, 0] ++ bytesOfWords words := ⟨_, rfl⟩
  rw [← hall] at hops ⊢
  by_cases hk : k ≤ all.length
  · left
    have e : now = all.take k := by
      show ((⟨[], 0, seek, false⟩ : OStream).steps (List.take k (writeOps _ _ _))).bytes = _
      rw [hops, List.append_assoc, List.take_append_of_le_length (by rw [List.length_map]; exact hk), steps_take_puts, steps_puts_nil]
    rw [e]; exact List.take_prefix _ _
  · obtain ⟨j, rfl⟩ : ∃ j, k = all.length + (1 + j) := ⟨k - all.length - 1, by omega⟩
    have e : now = (((⟨all, all.length, seek, false⟩ : OStream).seekp p).steps (((bytesOfWord len).take j).map .put)).bytes := by
      show ((⟨[], 0, seek, false⟩ : OStream).steps (List.take _ (writeOps _ _ _))).bytes = _
      rw [hops, List.append_assoc, List.take_append, List.length_map, show all.length + (1 + j) - all.length = 1 + j by omega,
        List.take_of_length_le (by rw [List.length_map]; omega), steps_append, steps_puts_nil, Nat.add_comm 1 j,
        List.singleton_append, List.take_succ_cons, ← List.map_take]
      rfl
    cases seek with
    | false =>
      left
      have hp : ¬ 0 ≤ p := by have := hpipe rfl; omega
      have e2 : (⟨all, all.length, false, false⟩ : OStream).seekp p = ⟨all, all.length, false, true⟩ := by
        simp [OStream.seekp]
      rw [e, e2, steps_puts, foldl_write_failed _ _ rfl]
      exact List.prefix_refl _
    | true =>
      right
      obtain ⟨rfl, rfl⟩ := hseek rfl
      refine ⟨rfl, j, ?_⟩
      have e2 : (⟨all, all.length, true, false⟩ : OStream).seekp hdr.length = ⟨all, hdr.length, true, false⟩ := by
        simp [OStream.seekp]
      rw [e, e2, steps_puts, hall]
      obtain ⟨b, hb⟩ : ∃ b, b = bytesOfWord (BitVec.ofNat 32 (4 * words.length)) := ⟨_, rfl⟩
      have hbl : b.length = 4 := by rw [hb]; rfl
      rw [← hb]
      have hsplit : ([0, 0, 0, 0] : Bytes) = List.take j [0, 0, 0, 0] ++ List.drop j [0, 0, 0, 0] := (List.take_append_drop _ _).symm
      have e3 : hdr ++ [0, 0, 0, 0] ++ bytesOfWords words =
          hdr ++ List.take j ([0, 0, 0, 0] : Bytes) ++ (List.drop j ([0, 0, 0, 0] : Bytes) ++ bytesOfWords words) := by
        rw [List.append_assoc, List.append_assoc, ← List.append_assoc (List.take _ _), ← hsplit]
      rw [e3, foldl_write_mid (b.take j) hdr _ _ true (by rw [List.length_take, List.length_take, hbl]; rfl)]
      simp

/-! ## A length field patched byte by byte -/

/-- The word whose first `j` bytes are those of `w`, the others zero. -/
theorem patched_word (w : Word) (j : Nat) : ∃ v : Word,
    (bytesOfWord w).take j ++ ([0, 0, 0, 0] : Bytes).drop j = bytesOfWord v ∧ v.toNat ≤ w.toNat := by
  have hw : w.toNat < 2 ^ 32 := w.isLt
  have key : ∀ n, n ≤ w.toNat → (BitVec.ofNat 32 n).toNat = n := by
    intro n hn; rw [BitVec.toNat_ofNat]; omega
  simp only [bytesOfWord_eq]
  match j with
  | 0 => exact ⟨0, by rfl, Nat.zero_le _⟩
  | 1 =>
    have h := key (w.toNat / 2 ^ 24 * 2 ^ 24) (Nat.div_mul_le_self _ _)
    refine ⟨BitVec.ofNat 32 (w.toNat / 2 ^ 24 * 2 ^ 24), ?_, by omega⟩
    rw [h]
    simp only [List.take_succ_cons, List.take_zero, List.drop_succ_cons, List.drop_zero, List.cons_append, List.nil_append]
    rw [show w.toNat / 2 ^ 24 * 2 ^ 24 / 2 ^ 24 % 256 = w.toNat / 2 ^ 24 % 256 by omega,
      show w.toNat / 2 ^ 24 * 2 ^ 24 / 2 ^ 16 % 256 = 0 by omega,
      show w.toNat / 2 ^ 24 * 2 ^ 24 / 2 ^ 8 % 256 = 0 by omega, show w.toNat / 2 ^ 24 * 2 ^ 24 % 256 = 0 by omega]; rfl
  | 2 =>
    have h := key (w.toNat / 2 ^ 16 * 2 ^ 16) (Nat.div_mul_le_self _ _)
    refine ⟨BitVec.ofNat 32 (w.toNat / 2 ^ 16 * 2 ^ 16), ?_, by omega⟩
    rw [h]
    simp only [List.take_succ_cons, List.take_zero, List.drop_succ_cons, List.drop_zero, List.cons_append, List.nil_append]
    rw [show w.toNat / 2 ^ 16 * 2 ^ 16 / 2 ^ 24 % 256 = w.toNat / 2 ^ 24 % 256 by omega,
      show w.toNat / 2 ^ 16 * 2 ^ 16 / 2 ^ 16 % 256 = w.toNat / 2 ^ 16 % 256 by omega,
      show w.toNat / 2 ^ 16 * 2 ^ 16 / 2 ^ 8 % 256 = 0 by omega, show w.toNat / 2 ^ 16 * 2 ^ 16 % 256 = 0 by omega]; rfl
  | 3 =>
    have h := key (w.toNat / 2 ^ 8 * 2 ^ 8) (Nat.div_mul_le_self _ _)
    refine ⟨BitVec.ofNat 32 (w.toNat / 2 ^ 8 * 2 ^ 8), ?_, by omega⟩
    rw [h]
    simp only [List.take_succ_cons, List.take_zero, List.drop_succ_cons, List.drop_zero, List.cons_append, List.nil_append]
    rw [show w.toNat / 2 ^ 8 * 2 ^ 8 / 2 ^ 24 % 256 = w.toNat / 2 ^ 24 % 256 by omega,
      show w.toNat / 2 ^ 8 * 2 ^ 8 / 2 ^ 16 % 256 = w.toNat / 2 ^ 16 % 256 by omega,
      show w.toNat / 2 ^ 8 * 2 ^ 8 / 2 ^ 8 % 256 = w.toNat / 2 ^ 8 % 256 by omega, show w.toNat / 2 ^ 8 * 2 ^ 8 % 256 = 0 by omega]; rfl
  | j + 4 => exact ⟨w, by simp, Nat.le_refl _⟩

end Verif.Xc7
