import Verif.Model.Reader
import Verif.Proofs.Packet
import Verif.Spec.Packets
/-! # The reader iterator computes the specified packet stream -/
namespace Verif.Xc7
open Verif.Spec Verif.BitOps Packet

theorem field_eq (w : Word) (t b : Nat) (h : b ≤ t) (ht : t < 32) :
    (bitFieldGet w t b).toNat = field w b (t - b + 1) := by
  rw [toNat_bitFieldGet w t b h ht]; rfl

theorem field_eq_bv (w : Word) (t b : Nat) (h : b ≤ t) (ht : t < 32) :
    BitVec.ofNat 32 (field w b (t - b + 1)) = bitFieldGet w t b := by
  rw [← field_eq w t b h ht]; simp

theorem packetsOf_nil (n : Nat) (prev : Option Packet) : packetsOf n prev [] = [] := by
  cases n <;> rfl

/-- Unfolding of the specification along the decoder. -/
theorem packetsOf_step (n : Nat) (prev : Option Packet) (w : Word) (ws : List Word) :
    let r := initWithWords (w :: ws) prev
    packetsOf (n + 1) prev (w :: ws) =
      if r.1 = w :: ws then [] else
      match r.2 with
      | some p => p :: packetsOf n (some p) r.1
      | none => packetsOf n none r.1 := by
  have t := field_eq w 31 29 (by decide) (by decide)
  have tb : ∀ k : BitVec 32, bitFieldGet w 31 29 = k ↔ field w 29 3 = k.toNat := by
    intro k
    constructor
    · intro h; rw [← h]; exact t.symm
    · intro h; apply BitVec.eq_of_toNat_eq; rw [← h]; exact t
  have hd : ∀ c, ws.drop c ≠ w :: ws := by
    intro c h
    have := congrArg List.length h
    simp only [List.length_drop, List.length_cons] at this
    omega
  simp only [packetsOf, initWithWords]
  by_cases h0 : field w 29 3 = 0
  · have h0' := (tb kNONE).mpr h0
    have := hd 0
    simp only [List.drop_zero] at this
    simp [h0, h0', this]
  · have h0' : ¬ bitFieldGet w 31 29 = kNONE := fun h => h0 ((tb kNONE).mp h)
    rw [if_neg h0, if_neg h0']
    by_cases h1 : field w 29 3 = 1
    · have h1' := (tb kTYPE1).mpr h1
      rw [if_pos h1, if_pos h1']
      have c := field_eq w 10 0 (by decide) (by decide)
      have o := field_eq_bv w 28 27 (by decide) (by decide)
      have a := field_eq_bv w 26 13 (by decide) (by decide)
      simp only [Nat.reduceSub, Nat.reduceAdd] at c o a
      rw [c, o, a]
      by_cases hc : ws.length < field w 0 11
      · simp [hc]
      · have hc' : ¬ field w 0 11 > ws.length := by omega
        simp [hc, hd, h1']
    · have h1' : ¬ bitFieldGet w 31 29 = kTYPE1 := fun h => h1 ((tb kTYPE1).mp h)
      rw [if_neg h1, if_neg h1']
      by_cases h2 : field w 29 3 = 2
      · have h2' := (tb kTYPE2).mpr h2
        rw [if_pos h2, if_pos h2']
        have c := field_eq w 26 0 (by decide) (by decide)
        have o := field_eq_bv w 28 27 (by decide) (by decide)
        simp only [Nat.reduceSub, Nat.reduceAdd] at c o
        rw [c, o]
        by_cases hc : ws.length < field w 0 27
        · simp [hc]
        · have hc' : ¬ field w 0 27 > ws.length := by omega
          cases prev <;> simp [hc, hd, h2']
      · have h2' : ¬ bitFieldGet w 31 29 = kTYPE2 := fun h => h2 ((tb kTYPE2).mp h)
        rw [if_neg h2, if_neg h2']
        simp [packetsOf_nil]

/-- The decoder never returns more words than it got, and strictly fewer when it moves. -/
theorem initWithWords_length (w : Word) (ws : List Word) (prev : Option Packet)
    (h : (initWithWords (w :: ws) prev).1 ≠ w :: ws) :
    (initWithWords (w :: ws) prev).1.length ≤ ws.length := by
  simp only [initWithWords] at h ⊢
  split
  · simp
  · split
    · split
      · rename_i h0 h1 h2; rw [if_neg h0, if_pos h1, if_pos h2] at h; exact absurd rfl h
      · simp
    · split
      · split
        · rename_i h0 h1 h2 h3; rw [if_neg h0, if_neg h1, if_pos h2, if_pos h3] at h; exact absurd rfl h
        · simp
      · simp

theorem packetsOf_fuel (ws : List Word) : ∀ (k : Nat) (prev : Option Packet) (n m : Nat),
    ws.length ≤ k → ws.length ≤ n → ws.length ≤ m → packetsOf n prev ws = packetsOf m prev ws := by
  intro k
  induction k generalizing ws with
  | zero =>
    intro prev n m hk hn hm
    have : ws = [] := List.length_eq_zero_iff.mp (by omega)
    subst this; rw [packetsOf_nil, packetsOf_nil]
  | succ k ih =>
    intro prev n m hk hn hm
    cases ws with
    | nil => rw [packetsOf_nil, packetsOf_nil]
    | cons w ws =>
      cases n with
      | zero => simp at hn
      | succ n =>
        cases m with
        | zero => simp at hm
        | succ m =>
          simp only [List.length_cons] at hk hn hm
          rw [packetsOf_step, packetsOf_step]
          by_cases hr : (initWithWords (w :: ws) prev).1 = w :: ws
          · simp [hr]
          · have hl := initWithWords_length w ws prev hr
            rw [if_neg hr, if_neg hr]
            cases (initWithWords (w :: ws) prev).2 with
            | none => exact ih _ none n m (by omega) (by omega) (by omega)
            | some p => simp only; rw [ih _ (some p) n m (by omega) (by omega) (by omega)]

/-- One `++`: either the iterator reaches the end and the stream is exhausted, or it stands on the
next packet of the stream. -/
theorem next_spec (fuel : Nat) : ∀ (rest : List Word) (pk : Option Packet) (words : List Word),
    rest.length < fuel →
    ∃ it', ReaderIter.next fuel ⟨rest, pk, words⟩ = some it' ∧
      ((it'.words = [] ∧ packetsOf rest.length pk rest = []) ∨
       (∃ p, it'.words ≠ [] ∧ it'.packet = some p ∧ it'.rest.length < rest.length ∧
          packetsOf rest.length pk rest = p :: packetsOf it'.rest.length (some p) it'.rest)) := by
  induction fuel with
  | zero => intro rest pk words h; omega
  | succ fuel ih =>
    intro rest pk words hf
    cases rest with
    | nil =>
      refine ⟨⟨[], pk, []⟩, ?_, Or.inl ⟨rfl, rfl⟩⟩
      simp [ReaderIter.next, readerLoop, initWithWords]
    | cons w ws =>
      have hstep := packetsOf_step ws.length pk w ws
      simp only at hstep
      by_cases hr : (initWithWords (w :: ws) pk).1 = w :: ws
      · refine ⟨⟨w :: ws, pk, []⟩, ?_, Or.inl ⟨rfl, ?_⟩⟩
        · simp [ReaderIter.next, readerLoop, hr]
        · rw [if_pos hr] at hstep
          simpa using hstep
      · have hl := initWithWords_length w ws pk hr
        rw [if_neg hr] at hstep
        cases hp : (initWithWords (w :: ws) pk).2 with
        | some p =>
          refine ⟨⟨(initWithWords (w :: ws) pk).1, some p, w :: ws⟩, ?_, Or.inr ⟨p, ?_, ?_, ?_, ?_⟩⟩
          · simp [ReaderIter.next, readerLoop, hr, hp]
          · simp
          · rfl
          · simp; omega
          · simp only [List.length_cons]
            rw [hstep, hp]
            simp only
            rw [packetsOf_fuel _ ws.length (some p) ws.length _ hl hl (Nat.le_refl _)]
        | none =>
          rw [hp] at hstep
          simp only at hstep
          have hlen : (initWithWords (w :: ws) pk).1.length < fuel := by
            simp only [List.length_cons] at hf; omega
          by_cases he : (initWithWords (w :: ws) pk).1.isEmpty = true
          · have he' := List.isEmpty_iff.mp he
            refine ⟨⟨[], none, []⟩, ?_, Or.inl ⟨rfl, ?_⟩⟩
            · simp [ReaderIter.next, readerLoop, hp, he']
            · rw [List.length_cons, hstep, he', packetsOf_nil]
          · obtain ⟨it', h1, h2⟩ := ih _ none (w :: ws) hlen
            have hpe : packetsOf (w :: ws).length pk (w :: ws) =
                packetsOf (initWithWords (w :: ws) pk).1.length none (initWithWords (w :: ws) pk).1 := by
              rw [List.length_cons, hstep]
              exact packetsOf_fuel _ ws.length none ws.length _ hl hl (Nat.le_refl _)
            refine ⟨it', ?_, ?_⟩
            · rw [ReaderIter.next, readerLoop]
              simp only [hr, if_false, hp, he, Option.isNone_none, Bool.not_false, Bool.and_self,
                if_true]
              rw [← h1, ReaderIter.next]
            · rcases h2 with ⟨h3, h4⟩ | ⟨p, h3, h4, h5, h6⟩
              · exact Or.inl ⟨h3, by rw [hpe, h4]⟩
              · refine Or.inr ⟨p, h3, h4, ?_, by rw [hpe, h6]⟩
                simp only [List.length_cons]; omega

theorem readerCollect_spec (n : Nat) : ∀ (fuel : Nat) (it : ReaderIter) (p : Packet),
    it.packet = some p → it.words ≠ [] → it.rest.length + 1 < n → it.rest.length < fuel →
    readerCollect n fuel it = some (.ok (p :: packetsOf it.rest.length (some p) it.rest)) := by
  induction n with
  | zero => intro fuel it p _ _ h; omega
  | succ n ih =>
    intro fuel it p hp hw hn hf
    obtain ⟨rest, pk, words⟩ := it
    simp only at hp hw hn hf
    subst hp
    obtain ⟨it', h1, h2⟩ := next_spec fuel rest (some p) words hf
    rw [readerCollect]
    simp only [ReaderIter.atEnd, List.isEmpty_iff, hw, if_false, h1]
    rcases h2 with ⟨h3, h4⟩ | ⟨q, h3, h4, h5, h6⟩
    · rw [h4]
      cases n with
      | zero => omega
      | succ n => simp [readerCollect, ReaderIter.atEnd, h3]
    · rw [ih fuel it' q h4 h3 (by omega) (by omega), h6]
      simp

/-- The reader yields exactly the specified packets, for every word sequence. -/
theorem readPackets_eq (words : List Word) (fuel : Nat) (hf : words.length + 1 < fuel) :
    readPackets fuel words = some (.ok (packetStream words)) := by
  obtain ⟨it', h1, h2⟩ := next_spec fuel words none [] (by omega)
  rw [readPackets, ReaderIter.init, h1]
  simp only
  rcases h2 with ⟨h3, h4⟩ | ⟨q, h3, h4, h5, h6⟩
  · rw [packetStream, h4]
    cases fuel with
    | zero => omega
    | succ n => simp [readerCollect, ReaderIter.atEnd, h3]
  · rw [readerCollect_spec fuel fuel it' q h4 h3 (by omega) (by omega), packetStream, h6]

theorem slices_packetsOf (n : Nat) : ∀ (prev : Option Packet) (ws : List Word),
    ∀ skipped, Slices (skipped ++ ws) (packetsOf n prev ws) := by
  induction n with
  | zero => intro prev ws s; exact .nil _
  | succ n ih =>
    intro prev ws sk
    cases ws with
    | nil => exact .nil _
    | cons w ws =>
      have key : ∀ (c : Nat) (p : Packet) (ps : List Packet), p.data = ws.take c →
          field w 29 3 = p.headerType.toNat →
          Slices ([] ++ ws.drop c) ps → Slices (sk ++ w :: ws) (p :: ps) := by
        intro c p ps hd ht hs
        have := Slices.cons sk w p ps (ws.drop c) ht hs
        rw [hd] at this
        simpa using this
      simp only [packetsOf]
      split
      · rename_i h0
        refine key 0 _ _ (by simp) (by simpa using h0) ?_
        simpa using ih (some ⟨0#32, 0#32, 0#32, []⟩) ws []
      · split
        · rename_i h1
          split
          · exact .nil _
          · exact key _ _ _ rfl (by simpa using h1) (ih _ _ [])
        · split
          · rename_i h2
            split
            · exact .nil _
            · split
              · exact key _ _ _ rfl (by simpa using h2) (ih _ _ [])
              · have := ih none (List.drop (field w 0 27) ws) (sk ++ w :: ws.take (field w 0 27))
                simpa using this
          · exact .nil _

end Verif.Xc7
