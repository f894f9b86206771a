import Verif.Props.C18_C23
import Verif.Spec.Assembler
/-! # Frame addresses of 64 bits in an encoder of 32 bits -/
namespace Verif.Props
open Verif.Db Verif.Spec Verif.Asm Verif.Xc7

theorem narrow_sorted {n : Nat} : ∀ (frames acc : BMap (FrameWords n)), acc.Sorted → (convertFrames acc frames).Sorted
  | [], _, h => h
  | (k, f) :: rest, acc, h => narrow_sorted rest _ (BMap.sorted_emplace h _ f)

/-- The first frame, in the order of the 64-bit addresses, whose low half is `j` is the one kept for `j`. -/
theorem narrow_get {n : Nat} : ∀ (frames acc : BMap (FrameWords n)), acc.Sorted → ∀ j,
    (convertFrames acc frames).get? j =
      (acc.get? j).or ((frames.find? fun e => e.1 % 2 ^ 32 == j).map (·.2))
  | [], acc, _, j => by simp [convertFrames]
  | (k, f) :: rest, acc, h, j => by
    rw [convertFrames, narrow_get rest _ (BMap.sorted_emplace h _ f) j, BMap.get?_emplace h, List.find?_cons]
    by_cases hj : j = k % 2 ^ 32
    · subst hj
      rw [if_pos rfl]
      have : (((k, f) : Nat × FrameWords n).1 % 2 ^ 32 == k % 2 ^ 32) = true := beq_self_eq_true _
      rw [this]
      cases acc.get? (k % 2 ^ 32) <;> rfl
    · rw [if_neg hj]
      have : (((k, f) : Nat × FrameWords n).1 % 2 ^ 32 == j) = false := beq_eq_false_iff_ne.2 fun e => hj e.symm
      rw [this]

theorem narrow_key {n : Nat} (frames : BMap (FrameWords n)) (k : Nat) (f : FrameWords n) (h : (k, f) ∈ convertFrames [] frames) :
    k < 2 ^ 32 := by
  have hg := BMap.get?_of_mem (narrow_sorted frames [] List.Pairwise.nil) h
  rw [narrow_get frames [] List.Pairwise.nil k] at hg
  simp only [BMap.get?_nil, Option.none_or, Option.map_eq_some_iff] at hg
  obtain ⟨e, he, _⟩ := hg
  have := List.find?_some he
  have := of_decide_eq_true this
  omega

/-- Encoding looks at the low halves only. -/
theorem encode_narrow (d : Db.Part) (partName source date time : Bytes) (frames : BMap (FrameWords frameWordsBase)) (out : OStream)
    (fuel : Nat) :
    encode d partName source date time frames out fuel =
      encode d partName source date time (convertFrames [] frames) out fuel := by
  have h : convertFrames [] (convertFrames [] frames) = convertFrames [] frames :=
    convertFrames_id _ (narrow_sorted _ _ List.Pairwise.nil) fun e he => narrow_key frames e.1 e.2 he
  unfold encode
  rw [h]

theorem find_first {β : Type} : ∀ (frames : BMap β) (p : Nat × β → Bool) (e : Nat × β), frames.Sorted → frames.find? p = some e →
    ∀ x ∈ frames, p x = true → e.1 ≤ x.1
  | [], _, _, _, h => by cases h
  | a :: rest, p, e, hs, h => by
    intro x hx hp
    rw [List.find?_cons] at h
    have hs' := List.pairwise_cons.1 hs
    cases ha : p a with
    | true =>
      rw [ha] at h
      cases Option.some.inj h
      rcases List.mem_cons.1 hx with rfl | hx
      · exact Nat.le_refl _
      · exact Nat.le_of_lt (hs'.1 x hx)
    | false =>
      rw [ha] at h
      rcases List.mem_cons.1 hx with rfl | hx
      · rw [ha] at hp; cases hp
      · exact find_first rest p e hs'.2 h x hx hp

/-- Frames whose bits all lie at addresses below 2^32 keep them, whatever empty frames lie above. -/
theorem narrow_frames (frames : Frames) (hs : frames.Sorted) (hlow : ∀ k w b, BitSet frames k w b → k < 2 ^ 32) :
    (convertFrames [] frames).Sorted ∧
    (∀ k w b, BitSet (convertFrames [] frames) k w b ↔ BitSet frames k w b) ∧
    ∀ j, FramePresent (convertFrames [] frames) j ↔ ∃ k, FramePresent frames k ∧ k % 2 ^ 32 = j := by
  have hsn := narrow_sorted frames [] List.Pairwise.nil
  have hmem : ∀ j f, (j, f) ∈ convertFrames [] frames ↔ (frames.find? fun e => e.1 % 2 ^ 32 == j).map (·.2) = some f := by
    intro j f
    constructor
    · intro h
      have hg := BMap.get?_of_mem hsn h
      rwa [narrow_get frames [] List.Pairwise.nil j, BMap.get?_nil, Option.none_or] at hg
    · intro h
      refine BMap.mem_of_get? ?_
      rw [narrow_get frames [] List.Pairwise.nil j, BMap.get?_nil, Option.none_or]
      exact h
  refine ⟨hsn, ?_, ?_⟩
  · intro k w b
    constructor
    · rintro ⟨f, x, hf, hx, hb⟩
      obtain ⟨e, he, rfl⟩ := Option.map_eq_some_iff.1 ((hmem k f).1 hf)
      have he1 : e.1 % 2 ^ 32 = k := by have := List.find?_some he; exact eq_of_beq this
      have hin := List.mem_of_find?_eq_some he
      have := hlow e.1 w b ⟨e.2, x, hin, hx, hb⟩
      have hk : e.1 = k := by omega
      exact ⟨e.2, x, by rw [← hk]; exact hin, hx, hb⟩
    · rintro ⟨f, x, hf, hx, hb⟩
      have hk := hlow k w b ⟨f, x, hf, hx, hb⟩
      refine ⟨f, x, (hmem k f).2 ?_, hx, hb⟩
      cases hfd : frames.find? fun e => e.1 % 2 ^ 32 == k with
      | none => exact absurd (beq_iff_eq.2 (Nat.mod_eq_of_lt hk)) (by simpa using List.find?_eq_none.1 hfd (k, f) hf)
      | some e =>
        have he1 : e.1 % 2 ^ 32 = k := by have := List.find?_some hfd; exact eq_of_beq this
        have hle := find_first frames _ e hs hfd (k, f) hf (beq_iff_eq.2 (Nat.mod_eq_of_lt hk))
        have hek : e.1 = k := by have : e.1 ≤ k := hle; omega
        have hin : (k, e.2) ∈ frames := by rw [← hek]; exact List.mem_of_find?_eq_some hfd
        have := (BMap.get?_of_mem hs hin).symm.trans (BMap.get?_of_mem hs hf)
        rw [Option.map_some]
        exact this
  · intro j
    constructor
    · rintro ⟨f, hf⟩
      obtain ⟨e, he, _⟩ := Option.map_eq_some_iff.1 ((hmem j f).1 hf)
      exact ⟨e.1, ⟨e.2, List.mem_of_find?_eq_some he⟩, (by have := List.find?_some he; exact eq_of_beq this)⟩
    · rintro ⟨k, ⟨f, hf⟩, hk⟩
      cases hfd : frames.find? fun e => e.1 % 2 ^ 32 == j with
      | none => exact absurd (beq_iff_eq.2 hk) (by simpa using List.find?_eq_none.1 hfd (k, f) hf)
      | some e => exact ⟨e.2, (hmem j e.2).2 (by rw [hfd]; rfl)⟩

/-- A listed bit has a 32-bit frame address. -/
theorem lists_low {tiles : Tiles} {design : FasmFeature → Prop} {tile : Bytes} {c : BitCall} (h : Lists tiles design tile c) :
    c.frame < 2 ^ 32 := by
  obtain ⟨F, feature, addr, bits, _, _, ⟨t, ty, f, sb, _, _, _, h⟩, hc⟩ := h
  rcases h with ⟨_, rfl⟩ | ⟨_, _, rfl⟩
  · cases hc
  · unfold tileBits at hc
    obtain ⟨e, _, hc⟩ := List.mem_flatMap.1 hc
    obtain ⟨s, _, rfl⟩ := List.mem_map.1 hc
    exact Nat.mod_lt _ (by decide)

/-- The frames of a design, narrowed: the same bits, and a frame for every touched address modulo 2^32. -/
theorem narrow_design {tiles : Tiles} {design : FasmFeature → Prop} {frames : Frames} (hs : frames.Sorted)
    (hbits : ∀ k w b, BitSet frames k w b ↔
      ∃ tile c, Lists tiles design tile c ∧ c.value = true ∧ c.frame = k ∧ c.word = w ∧ c.index = b)
    (hframes : ∀ k, FramePresent frames k ↔ TouchesFrame tiles design k) :
    (convertFrames [] frames).Sorted ∧
    (∀ k w b, BitSet (convertFrames [] frames) k w b ↔
      ∃ tile c, Lists tiles design tile c ∧ c.value = true ∧ c.frame = k ∧ c.word = w ∧ c.index = b) ∧
    ∀ j, FramePresent (convertFrames [] frames) j ↔ ∃ k, TouchesFrame tiles design k ∧ k % 2 ^ 32 = j := by
  obtain ⟨h1, h2, h3⟩ := narrow_frames frames hs (by
    intro k w b h
    obtain ⟨tile, c, hc, _, rfl, _⟩ := (hbits k w b).1 h
    exact lists_low hc)
  refine ⟨h1, fun k w b => (h2 k w b).trans (hbits k w b), fun j => (h3 j).trans ⟨?_, ?_⟩⟩
  · rintro ⟨k, hk, e⟩; exact ⟨k, (hframes k).1 hk, e⟩
  · rintro ⟨k, hk, e⟩; exact ⟨k, (hframes k).2 hk, e⟩

end Verif.Props
