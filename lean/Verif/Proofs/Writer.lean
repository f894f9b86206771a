import Verif.Model.Writer
import Verif.Proofs.Reader
/-! # Writer iterator, packet stream round trip, big-endian bytes, files -/
namespace Verif.Xc7
open Verif.Spec Verif.BitOps Packet

/-! ## Representable packets -/

theorem representable_encodable {p : Packet} (h : Representable p) : Encodable p := by
  have e : ∀ (x : BitVec 32) (k : Nat), x.toNat = k → x = BitVec.ofNat 32 k := by
    intro x k hk; rw [← hk]; simp
  rcases h with ⟨h1, h2, h3, h4⟩ | ⟨h1, h2, h3, h4⟩ | ⟨h1, h2, h3⟩
  · exact Or.inl ⟨e _ _ h1, e _ _ h2, e _ _ h3, h4⟩
  · exact Or.inr (Or.inl ⟨e _ _ h1, h2, h3, h4⟩)
  · exact Or.inr (Or.inr ⟨e _ _ h1, h2, h3⟩)

theorem header_value (p : Packet) (h : Representable p) : p.header.toNat = headerValue p := by
  have hz : (0#32).toNat = 0 := rfl
  rcases h with ⟨h1, h2, h3, h4⟩ | ⟨h1, h2, h3, h4⟩ | ⟨h1, h2, h3⟩
  · have : p.headerType = kNONE := by apply BitVec.eq_of_toNat_eq; rw [h1]; rfl
    rw [header_type0 p this, headerValue, h1]; simp
  · have e : p.headerType = kTYPE1 := by apply BitVec.eq_of_toNat_eq; rw [h1]; rfl
    have hlen : (BitVec.ofNat 32 p.data.length).toNat = p.data.length := by
      rw [BitVec.toNat_ofNat]; exact Nat.mod_eq_of_lt (by omega)
    simp only [header, e, if_true, headerValue]
    rw [toNat_bitFieldSet _ _ _ _ (by decide) (by decide), toNat_bitFieldSet _ _ _ _ (by decide) (by decide),
      toNat_bitFieldSet _ _ _ _ (by decide) (by decide), toNat_bitFieldSet _ _ _ _ (by decide) (by decide), hlen]
    simp only [hz, show kTYPE1.toNat = 1 from rfl, if_true]
    omega
  · have e : p.headerType = kTYPE2 := by apply BitVec.eq_of_toNat_eq; rw [h1]; rfl
    have hlen : (BitVec.ofNat 32 p.data.length).toNat = p.data.length := by
      rw [BitVec.toNat_ofNat]; exact Nat.mod_eq_of_lt (by omega)
    have n1 : ¬ kTYPE2 = kTYPE1 := by decide
    have n2 : ¬ (2 = 1) := by decide
    simp only [header, e, if_true, headerValue, n1, if_false]
    rw [toNat_bitFieldSet _ _ _ _ (by decide) (by decide), toNat_bitFieldSet _ _ _ _ (by decide) (by decide),
      toNat_bitFieldSet _ _ _ _ (by decide) (by decide), hlen]
    simp only [hz, show kTYPE2.toNat = 2 from rfl, if_true, n2, if_false]
    omega

theorem header_eq_value (p : Packet) (h : Representable p) :
    p.header = BitVec.ofNat 32 (headerValue p) := by
  rw [← header_value p h]; simp

/-! ## Round trip of packet streams -/

/-- The words of a packet sequence as the writer produces them. -/
def emitted (ps : List Packet) : List Word := ps.flatMap fun p => p.header :: p.data

theorem emitted_eq_wire (ps : List Packet) (h : ∀ p ∈ ps, Representable p) :
    emitted ps = wireWords ps := by
  induction ps with
  | nil => rfl
  | cons p ps ih =>
    have := ih (fun q hq => h q (List.mem_cons_of_mem _ hq))
    simp only [emitted, wireWords, List.flatMap_cons] at this ⊢
    rw [this, header_eq_value p (h p List.mem_cons_self)]

theorem packetsOf_emitted (ps : List Packet) : ∀ (n : Nat) (prev : Option Packet),
    (emitted ps).length ≤ n → (∀ p ∈ ps, Representable p) → Chained prev ps →
    packetsOf n prev (emitted ps) = ps := by
  induction ps with
  | nil => intro n prev _ _ _; exact packetsOf_nil n prev
  | cons p ps ih =>
    intro n prev hn hr hc
    have e : emitted (p :: ps) = p.header :: (p.data ++ emitted ps) := by simp [emitted]
    rw [e] at hn ⊢
    cases n with
    | zero => simp at hn
    | succ n =>
      simp only [List.length_cons, List.length_append] at hn
      have hd := decode_encode p (representable_encodable (hr p List.mem_cons_self)) prev
        (fun h => hc.1 (by rw [h]; rfl)) (emitted ps)
      rw [packetsOf_step]
      simp only [hd]
      rw [if_neg, ih n (some p) (by omega) (fun q hq => hr q (List.mem_cons_of_mem _ hq)) hc.2]
      intro h
      have := congrArg List.length h
      simp at this
      omega

/-! ## Writer iterator -/

/-- `it` stands inside packet `j` with `out` words still to come. -/
theorem writerCollect_data (hdr : List Word) (packets : List Packet) (fuel : Nat) :
    ∀ (j : Nat) (p : Packet) (c : PacketIter) (ws : List Word),
    packets[j]? = some p → c.packet = p →
    ((c.state = .header ∧ ws = p.header :: p.data) ∨
      (c.state = .data ∧ c.pos < p.data.length ∧ ws = p.data.drop c.pos)) →
    (ws ++ emitted (packets.drop (j + 1))).length < fuel →
    writerCollect hdr packets fuel ⟨hdr.length, j, some c⟩ =
      some (.ok (ws ++ emitted (packets.drop (j + 1)))) := by
  induction fuel with
  | zero => intro j p c ws _ _ _ h; omega
  | succ fuel ih =>
    intro j p c ws hj hc hs hf
    have hne : (⟨hdr.length, j, some c⟩ : WriterIter).eq (writerEnd hdr packets) = false := by
      simp [WriterIter.eq, writerEnd]
    obtain ⟨hjl, hjv⟩ := List.getElem?_eq_some_iff.mp hj
    -- what happens after the packet ends
    have hend : ∀ (c' : PacketIter) (w : Word) (rest : List Word), ws = [w] →
        c.deref = .ok w → c.next = c' → c'.eq (PacketIter.endOf p) = true →
        writerCollect hdr packets (fuel + 1) ⟨hdr.length, j, some c⟩ =
          some (.ok (ws ++ emitted (packets.drop (j + 1)))) := by
      intro c' w _ hws hd hnx heq
      rw [writerCollect, hne]
      simp only [Bool.false_eq_true, if_false, WriterIter.deref, ne_eq, not_true, hd,
        WriterIter.next, hj, hnx, heq, if_true]
      by_cases hlast : j + 1 = packets.length
      · simp only [hlast, if_true]
        have : packets.drop (packets.length) = [] := by simp
        rw [this]
        cases fuel with
        | zero => subst hws; simp at hf
        | succ fuel => simp [writerCollect, WriterIter.eq, writerEnd, hws, emitted]
      · have hlt : j + 1 < packets.length := by omega
        simp only [hlast, if_false, List.getElem?_eq_getElem hlt]
        have hdrop : packets.drop (j + 1) = packets[j + 1] :: packets.drop (j + 1 + 1) :=
          List.drop_eq_getElem_cons hlt
        have hem : emitted (packets.drop (j + 1)) =
            (packets[j+1].header :: packets[j+1].data) ++ emitted (packets.drop (j + 1 + 1)) := by
          rw [hdrop]; rfl
        rw [ih (j + 1) packets[j+1] (PacketIter.begin packets[j+1])
          (packets[j+1].header :: packets[j+1].data) (List.getElem?_eq_getElem hlt) rfl
          (Or.inl ⟨rfl, rfl⟩) (by rw [← hem]; subst hws; simp at hf ⊢; omega), hem, hws]
        simp
    rcases hs with ⟨hst, hws⟩ | ⟨hst, hpos, hws⟩
    · by_cases hz : p.data.length = 0
      · have hdn : p.data = [] := List.length_eq_zero_iff.mp hz
        refine hend { c with pos := 0, state := .fin } p.header [] (by rw [hws, hdn]) ?_ ?_ ?_
        · simp [PacketIter.deref, hst, hc]
        · simp [PacketIter.next, hst, hc, hz]
        · simp [PacketIter.eq, PacketIter.endOf, hz]
      · rw [writerCollect, hne]
        have hnx : c.next = { c with pos := 0, state := .data } := by
          simp only [PacketIter.next, hst, hc]
          rw [if_neg (fun h => hz h.symm)]
        simp only [Bool.false_eq_true, if_false, WriterIter.deref, ne_eq, not_true,
          PacketIter.deref, hst, hc, WriterIter.next, hj, hnx]
        have hneq : PacketIter.eq { c with pos := 0, state := .data } (PacketIter.endOf p) = false := by
          simp [PacketIter.eq, PacketIter.endOf]
        rw [hc] at hneq
        simp only [hneq, Bool.false_eq_true, if_false]
        rw [ih j p ⟨.data, 0, p⟩ p.data hj rfl
          (Or.inr ⟨rfl, by simp; omega, by simp⟩) (by subst hws; simp at hf ⊢; omega), hws]
        simp
    · have hval : c.deref = .ok p.data[c.pos] := by
        simp [PacketIter.deref, hst, hc, List.getElem?_eq_getElem hpos]
      have hdrop : p.data.drop c.pos = p.data[c.pos] :: p.data.drop (c.pos + 1) :=
        List.drop_eq_getElem_cons hpos
      by_cases hl : c.pos + 1 = p.data.length
      · refine hend { c with pos := c.pos + 1, state := .fin } p.data[c.pos] [] ?_ hval ?_ ?_
        · rw [hws, hdrop, hl]; simp
        · simp [PacketIter.next, hst, hc, hl]
        · simp [PacketIter.eq, PacketIter.endOf, hl]
      · rw [writerCollect, hne]
        have hnx : c.next = { c with pos := c.pos + 1 } := by
          simp [PacketIter.next, hst, hc, hl]
        have hneq : PacketIter.eq { c with pos := c.pos + 1 } (PacketIter.endOf p) = false := by
          simp [PacketIter.eq, PacketIter.endOf, hst]
        simp only [Bool.false_eq_true, if_false, WriterIter.deref, ne_eq, not_true, hval,
          WriterIter.next, hj, hnx, hneq]
        rw [ih j p { c with pos := c.pos + 1 } (p.data.drop (c.pos + 1)) hj hc
          (Or.inr ⟨hst, by simp; omega, rfl⟩) (by rw [hws, hdrop] at hf; simp at hf ⊢; omega), hws, hdrop]
        rfl

theorem writerCollect_header (hdr : List Word) (packets : List Packet) (fuel : Nat) :
    ∀ (i : Nat), i < hdr.length → (hdr.drop i ++ emitted packets).length < fuel →
    writerCollect hdr packets fuel ⟨i, 0, packets[0]?.map PacketIter.begin⟩ =
      some (.ok (hdr.drop i ++ emitted packets)) := by
  induction fuel with
  | zero => intro i _ h; omega
  | succ fuel ih =>
    intro i hi hf
    have hne : (⟨i, 0, packets[0]?.map PacketIter.begin⟩ : WriterIter).eq (writerEnd hdr packets) = false := by
      have : ¬ i = hdr.length := by omega
      simp [WriterIter.eq, writerEnd, this]
    have hin : i ≠ hdr.length := by omega
    have hdrop : hdr.drop i = hdr[i] :: hdr.drop (i + 1) := List.drop_eq_getElem_cons hi
    rw [writerCollect, hne]
    simp only [Bool.false_eq_true, if_false, WriterIter.deref, ne_eq, hin, not_false_iff, if_true,
      List.getElem?_eq_getElem hi, WriterIter.next]
    by_cases hl : i + 1 = hdr.length
    · simp only [hl, if_true]
      cases packets with
      | nil =>
        simp only [List.getElem?_nil, Option.map_none]
        cases fuel with
        | zero => rw [hdrop, hl] at hf; simp [emitted] at hf
        | succ fuel =>
          rw [hdrop, hl]
          simp [writerCollect, WriterIter.eq, writerEnd, emitted]
      | cons p ps =>
        simp only [List.getElem?_cons_zero]
        have hem : emitted (p :: ps) = (p.header :: p.data) ++ emitted ((p :: ps).drop (0 + 1)) := by
          simp [emitted]
        rw [writerCollect_data hdr (p :: ps) fuel 0 p (PacketIter.begin p) (p.header :: p.data) rfl rfl
          (Or.inl ⟨rfl, rfl⟩) (by rw [← hem]; rw [hdrop] at hf; simp at hf ⊢; omega), hdrop, hl, ← hem]
        simp
    · simp only [hl, if_false]
      rw [ih (i + 1) (by omega) (by rw [hdrop] at hf; simp at hf ⊢; omega), hdrop]
      rfl

theorem writerWords_eq (arch : Arch) (packets : List Packet) (fuel : Nat)
    (hf : (syncHeader arch ++ emitted packets).length < fuel) :
    writerWords arch packets fuel = some (.ok (syncHeader arch ++ emitted packets)) := by
  have := writerCollect_header (syncHeader arch) packets fuel 0 (by cases arch <;> decide)
    (by simpa using hf)
  simpa [writerWords, writerBegin] using this

end Verif.Xc7
