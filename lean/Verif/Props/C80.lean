import Verif.Model.AuxData
import Verif.Spec.AuxData
import Verif.Props.C63
import Verif.Props.C09_C14
/-! # C80: the auxiliary data of a bitstream -/
namespace Verif.Props
open Verif.Xc7 Verif.Spec Verif.Print

/-! ## Numbers -/

private theorem upper_eq (d : Nat) (h : d < 16) : Print.digitChar true d = upperDigit d := by
  revert d; decide

private theorem intToChar_buf (n : Nat) : ∀ (v : Nat) (buf : List Char),
    intToChar .hex true n v buf = intToChar .hex true n v [] ++ buf := by
  induction n with
  | zero => intro v buf; rfl
  | succ n ih =>
    intro v buf
    simp only [intToChar]
    split
    · rfl
    · rw [ih _ (_ :: buf), ih _ [_], List.append_assoc]; rfl

private theorem intToChar_fuel (n : Nat) : ∀ (v m : Nat) (buf : List Char), v < n → v < m →
    intToChar .hex true n v buf = intToChar .hex true m v buf := by
  induction n with
  | zero => intro v m buf h; omega
  | succ n ih =>
    intro v m buf hn hm
    cases m with
    | zero => omega
    | succ m =>
      simp only [intToChar]
      by_cases h : v / Base.hex.radix = 0
      · rw [if_pos h, if_pos h]
      · rw [if_neg h, if_neg h]
        simp only [Base.radix] at h ⊢
        exact ih _ _ _ (by omega) (by omega)

private theorem fixedHex_zero (n : Nat) : fixedHex n 0 = List.replicate n '0' := by
  induction n with
  | zero => rfl
  | succ n ih =>
    rw [fixedHex, Nat.zero_div, ih, show upperDigit (0 % 16) = '0' from rfl, List.replicate_succ']

private theorem digits_eq (n : Nat) : ∀ v, v < 16 ^ (n + 1) →
    List.replicate (n + 1 - (intToChar .hex true (v + 1) v []).length) '0' ++ intToChar .hex true (v + 1) v [] =
      fixedHex (n + 1) v := by
  induction n with
  | zero =>
    intro v hv
    have hv : v < 16 := by simpa using hv
    rw [intToChar]
    simp only [Base.radix, Nat.div_eq_of_lt hv, if_true, fixedHex, List.length_cons, List.length_nil,
      Nat.mod_eq_of_lt hv, upper_eq v hv]
    rfl
  | succ n ih =>
    intro v hv
    rw [fixedHex]
    by_cases h : v < 16
    · rw [intToChar]
      simp only [Base.radix, Nat.div_eq_of_lt h, if_true, List.length_cons, List.length_nil,
        Nat.mod_eq_of_lt h, upper_eq v h, fixedHex_zero]
      simp
    · have hd : v / 16 < 16 ^ (n + 1) := by
        rw [Nat.pow_succ] at hv
        exact Nat.div_lt_of_lt_mul (by rw [Nat.mul_comm]; exact hv)
      have h0 : v / 16 ≠ 0 := by omega
      have e : intToChar .hex true (v + 1) v [] =
          intToChar .hex true (v / 16 + 1) (v / 16) [] ++ [upperDigit (v % 16)] := by
        rw [intToChar]
        simp only [Base.radix, h0, if_false]
        rw [intToChar_buf, upper_eq _ (Nat.mod_lt _ (by decide)),
          intToChar_fuel v (v / 16) (v / 16 + 1) [] (by omega) (by omega)]
      rw [e, ← ih _ hd, List.length_append, ← List.append_assoc]
      congr 3
      simp

private theorem printfX_eq (n v : Nat) (h : v < 16 ^ (n + 1)) : printfX (n + 1) v = ' ' :: fixedHex (n + 1) v := by
  simp only [printfX]
  rw [digits_eq n v h]

private theorem bytes_text (bs : Bytes) : (bs.flatMap fun b => printfX 2 b.toNat) =
    (bs.map UInt8.toNat).flatMap fun v => ' ' :: fixedHex 2 v := by
  rw [List.flatMap_map]
  congr 1
  funext b
  exact printfX_eq 1 _ (by have := b.toNat_lt; simpa using this)

private theorem words_text (ws : List Word) : (ws.flatMap fun w => printfX 8 w.toNat) =
    (ws.map BitVec.toNat).flatMap fun v => ' ' :: fixedHex 8 v := by
  rw [List.flatMap_map]
  congr 1
  funext w
  exact printfX_eq 7 _ (by have := w.isLt; simpa using this)

/-! ## Reading a listing back -/

private theorem upperValue_digit (d : Nat) (h : d < 16) :
    upperValue (upperDigit d) = d ∧ upperDigit d ≠ '\n' ∧ upperDigit d ≠ ' ' := by
  revert d; decide

private theorem readNumbers_fixed (n : Nat) : ∀ (v x : Nat) (acc : List Nat) (t : List Char), v < 16 ^ n →
    readNumbers (fixedHex n v ++ t) (x :: acc) = readNumbers t ((x * 16 ^ n + v) :: acc) := by
  induction n with
  | zero => intro v x acc t h; simp [fixedHex] at h ⊢; subst h; simp
  | succ n ih =>
    intro v x acc t h
    obtain ⟨h1, h2, h3⟩ := upperValue_digit (v % 16) (Nat.mod_lt _ (by decide))
    rw [fixedHex, List.append_assoc, ih _ _ _ _ (Nat.div_lt_of_lt_mul (by rw [Nat.mul_comm]; exact (Nat.pow_succ 16 n) ▸ h)),
      List.cons_append, List.nil_append, readNumbers, if_neg h2, if_neg h3]
    simp only [h1]
    congr 2
    rw [Nat.pow_succ, Nat.add_mul, Nat.mul_assoc]
    omega

private theorem readNumbers_blank (t : List Char) (acc : List Nat) : readNumbers (' ' :: t) acc = readNumbers t (0 :: acc) := by
  rw [readNumbers.eq_def]
  dsimp only
  rw [if_neg (by decide), if_pos rfl]

private theorem readNumbers_list (n : Nat) (t : List Char) : ∀ (vs acc : List Nat), (∀ v ∈ vs, v < 16 ^ n) →
    readNumbers ((vs.flatMap fun v => ' ' :: fixedHex n v) ++ '\n' :: t) acc = acc.reverse ++ vs := by
  intro vs
  induction vs with
  | nil => intro acc _; simp [readNumbers]
  | cons v vs ih =>
    intro acc h
    rw [List.flatMap_cons, List.append_assoc, List.cons_append, readNumbers_blank,
      readNumbers_fixed n _ _ _ _ (h v List.mem_cons_self), ih _ (fun x hx => h x (List.mem_cons_of_mem _ hx))]
    simp

/-- A listing read back. -/
private theorem readListing_listing (label : List Char) (hl : ∀ c ∈ label, c ≠ ':') (s : String)
    (hs : s.toList = label ++ [':']) (n : Nat) (vs : List Nat) (h : ∀ v ∈ vs, v < 16 ^ n) (t : List Char) :
    readListing (listing s n vs ++ t) = vs := by
  have hd : ∀ (l : List Char) (r : List Char), (∀ c ∈ l, c ≠ ':') → (l ++ ':' :: r).dropWhile (· != ':') = ':' :: r := by
    intro l r
    induction l with
    | nil => intro _; simp
    | cons c l ih =>
      intro hl
      rw [List.cons_append, List.dropWhile_cons, if_pos (by simpa using hl c List.mem_cons_self)]
      exact ih (fun x hx => hl x (List.mem_cons_of_mem _ hx))
  rw [readListing, listing, hs]
  rw [show label ++ [':'] ++ (vs.flatMap fun v => ' ' :: fixedHex n v) ++ ['\n'] ++ t =
    label ++ ':' :: ((vs.flatMap fun v => ' ' :: fixedHex n v) ++ '\n' :: t) by simp, hd _ _ hl, List.drop_one, List.tail_cons,
    readNumbers_list n t vs [] h]
  rfl

/-! ## Positions -/

private theorem occurs_prefix {α : Type} [BEq α] [LawfulBEq α] (p l : List α) : p.isPrefixOf l = true ↔ ∃ u, l = p ++ u := by
  rw [List.isPrefixOf_iff_prefix]
  constructor
  · rintro ⟨u, h⟩; exact ⟨u, h.symm⟩
  · rintro ⟨u, h⟩; exact ⟨u, h.symm⟩

private theorem occursAt_zero {α : Type} (p l : List α) : OccursAt p l 0 ↔ ∃ u, l = p ++ u := Iff.rfl

private theorem searchPos_le {α : Type} [BEq α] (p l : List α) : searchPos p l ≤ l.length := by
  induction l with
  | nil => exact Nat.le_refl _
  | cons x xs ih => rw [searchPos]; split <;> simp; omega

private theorem searchPos_first {α : Type} [BEq α] [LawfulBEq α] (p l : List α) :
    ∀ i < searchPos p l, ¬ OccursAt p l i := by
  induction l with
  | nil => intro i h; simp [searchPos] at h
  | cons x xs ih =>
    intro i h
    rw [searchPos] at h
    split at h
    · omega
    · rename_i hp
      cases i with
      | zero => rintro ⟨u, hu⟩; exact hp ((occurs_prefix _ _).mpr ⟨u, hu⟩)
      | succ i => exact ih i (by omega)

private theorem searchPos_occurs {α : Type} [BEq α] [LawfulBEq α] (p l : List α) (h : searchPos p l < l.length) :
    OccursAt p l (searchPos p l) := by
  induction l with
  | nil => simp [searchPos] at h
  | cons x xs ih =>
    rw [searchPos] at h ⊢
    split
    · rename_i hp; exact (occurs_prefix _ _).mp hp
    · rename_i hp
      rw [if_neg hp] at h
      exact ih (by simpa using h)

private theorem searchPos_eq {α : Type} [BEq α] [LawfulBEq α] (p l : List α) (i : Nat) (hi : i < l.length)
    (ho : OccursAt p l i) (hf : ∀ j < i, ¬ OccursAt p l j) : searchPos p l = i := by
  rcases Nat.lt_trichotomy (searchPos p l) i with h | h | h
  · exact absurd (searchPos_occurs p l (by omega)) (hf _ h)
  · exact h
  · exact absurd ho (searchPos_first p l i h)

/-- An occurrence at `i` is one of the reversed pattern in the reversed list. -/
private theorem occursAt_reverse {α : Type} (p l : List α) (i : Nat) (hi : i ≤ l.length) (h : OccursAt p l i) :
    i + p.length ≤ l.length ∧ OccursAt p.reverse l.reverse (l.length - i - p.length) := by
  obtain ⟨u, hu⟩ := h
  have hlen := congrArg List.length hu
  rw [List.length_drop, List.length_append] at hlen
  refine ⟨by omega, (l.take i).reverse, ?_⟩
  have hl : l = l.take i ++ (p ++ u) := by rw [← hu, List.take_append_drop]
  conv => lhs; rw [hl]
  rw [List.reverse_append, List.reverse_append, List.append_assoc]
  rw [List.drop_append_of_le_length (by
      simp only [List.length_append, List.length_reverse, List.length_take]; omega)]
  rw [show (l.take i ++ (p ++ u)).length - i - p.length = u.reverse.length by
    simp only [List.length_append, List.length_reverse, List.length_take]; omega]
  simp

private theorem occursAt_unreverse {α : Type} (p l : List α) (r : Nat) (hr : r ≤ l.length)
    (h : OccursAt p.reverse l.reverse r) : r + p.length ≤ l.length ∧ OccursAt p l (l.length - r - p.length) := by
  have := occursAt_reverse p.reverse l.reverse r (by simpa using hr) h
  simpa using this

/-- The position of the last occurrence, or the end. -/
private theorem findEndPos_spec {α : Type} [BEq α] [LawfulBEq α] (p l : List α) (hp : 0 < p.length) :
    (OccursAt p l (findEndPos p l) ∧ findEndPos p l < l.length ∧ ∀ j, findEndPos p l < j → j < l.length → ¬ OccursAt p l j) ∨
    (findEndPos p l = l.length ∧ ∀ j < l.length, ¬ OccursAt p l j) := by
  have hle := searchPos_le p.reverse l.reverse
  rw [List.length_reverse] at hle
  by_cases hr : searchPos p.reverse l.reverse = l.length
  · right
    refine ⟨by simp only [findEndPos, if_pos hr], fun j hj ho => ?_⟩
    obtain ⟨h1, h2⟩ := occursAt_reverse p l j (by omega) ho
    exact searchPos_first _ _ _ (by omega) h2
  · left
    have ho := searchPos_occurs p.reverse l.reverse (by rw [List.length_reverse]; omega)
    obtain ⟨h1, h2⟩ := occursAt_unreverse p l _ hle ho
    have e : findEndPos p l = l.length - searchPos p.reverse l.reverse - p.length := by simp only [findEndPos, if_neg hr]
    rw [e]
    refine ⟨h2, by omega, fun j hj hjl hoj => ?_⟩
    obtain ⟨h3, h4⟩ := occursAt_reverse p l j (by omega) hoj
    exact searchPos_first _ _ _ (by omega) h4

private theorem findEndPos_eq {α : Type} [BEq α] [LawfulBEq α] (p l : List α) (hp : 0 < p.length) (i : Nat) (hi : i < l.length)
    (ho : OccursAt p l i) (hl : ∀ j, i < j → j < l.length → ¬ OccursAt p l j) : findEndPos p l = i := by
  rcases findEndPos_spec p l hp with ⟨h1, h2, h3⟩ | ⟨_, h2⟩
  · rcases Nat.lt_trichotomy (findEndPos p l) i with h | h | h
    · exact absurd ho (h3 i h hi)
    · exact h
    · exact absurd h1 (hl _ h h2)
  · exact absurd ho (h2 i hi)

/-! ## The header bytes -/

/-- The bytes up to and including the first sync word are listed, with two digits each. -/
theorem C80_header (pre t : Bytes) (hfirst : ∀ i < pre.length, ¬ OccursAt [0xAA, 0x99, 0x55, 0x66] (pre ++ [0xAA, 0x99, 0x55, 0x66] ++ t) i) :
    printHeader (pre ++ [0xAA, 0x99, 0x55, 0x66] ++ t) =
      listing "Header bytes:" 2 ((pre ++ [0xAA, 0x99, 0x55, 0x66]).map UInt8.toNat) := by
  have hp : searchPos syncWord (pre ++ [0xAA, 0x99, 0x55, 0x66] ++ t) = pre.length :=
    searchPos_eq _ _ _ (by simp) ⟨t, by simp [syncWord]⟩ hfirst
  have hn : ¬ pre.length = (pre ++ [0xAA, 0x99, 0x55, 0x66] ++ t).length := by simp
  simp only [printHeader, hp, if_neg hn, listing]
  rw [List.take_append_of_le_length (by simp [syncWord]), List.take_of_length_le (by simp [syncWord]), bytes_text]

/-- Without a sync word nothing is printed. -/
theorem C80_no_header (bytes : Bytes) : printHeader bytes = [] ↔ ∀ i, ¬ OccursAt [0xAA, 0x99, 0x55, 0x66] bytes i := by
  constructor
  · intro h i ho
    have hi : i < bytes.length := by
      obtain ⟨u, hu⟩ := ho
      have := congrArg List.length hu
      rw [List.length_drop, List.length_append] at this
      simp at this; omega
    have hs : ¬ searchPos syncWord bytes = bytes.length := fun e => searchPos_first syncWord bytes i (by omega) ho
    simp only [printHeader, if_neg hs] at h
    have := congrArg List.length h
    simp at this
  · intro h
    have hs : searchPos syncWord bytes = bytes.length := by
      have hle := searchPos_le syncWord bytes
      rcases Nat.lt_or_ge (searchPos syncWord bytes) bytes.length with hlt | hge
      · exact absurd (searchPos_occurs _ _ hlt) (h _)
      · omega
    simp only [printHeader, if_pos hs]

/-- Nothing of a file is lost: the numbers listed, read back, and the words of the reader make up all its bytes. -/
theorem C80_header_complete (bytes : Bytes) (ws : List Word) (h : initWithBytes bytes = .ok (some ws)) :
    readListing (printHeader bytes) ++ (fileBytes ws).map UInt8.toNat = bytes.map UInt8.toNat := by
  rw [initWithBytes] at h
  cases ha : afterSync bytes with
  | none => rw [ha] at h; cases h
  | some t =>
    rw [ha] at h
    obtain ⟨pre, hb, hfirst⟩ := (afterSync_some bytes t).mp ha
    subst hb
    rw [show syncWord = [0xAA, 0x99, 0x55, 0x66] from rfl] at hfirst ⊢
    have ht : fileBytes ws = t := by
      by_cases hr : t.length % 4 = 0
      · obtain ⟨ws', e1, e2⟩ := beWords_ok _ t (Nat.le_refl _) hr
        simp only [e1, Outcome.bind_ok, Outcome.pure_eq] at h
        obtain rfl := Option.some.inj (Outcome.ok.inj h)
        rw [← C13_serialise]; exact e2
      · simp only [C13_ragged_reads_outside t hr] at h; cases h
    rw [C80_header pre t hfirst, ← List.append_nil (listing _ _ _),
      readListing_listing "Header bytes".toList (by decide) _ rfl 2 _ (by
        intro v hv
        obtain ⟨b, _, rfl⟩ := List.mem_map.mp hv
        have := b.toNat_lt
        simpa using this), ht, ← List.map_append]

/-- Non-vacuity: the hypotheses hold for a file with a false start of the sync word. -/
example : printHeader [0xFF, 0xAA, 0xAA, 0x99, 0x55, 0x66, 0, 0, 0, 7] = "Header bytes: FF AA AA 99 55 66\n".toList ∧
    initWithBytes [0xFF, 0xAA, 0xAA, 0x99, 0x55, 0x66, 0, 0, 0, 7] = .ok (some [7#32]) := by decide +kernel

/-! ## The configuration logic data -/

private theorem logic_text (words : List Word) : printLogicData words =
    listing "FPGA configuration logic prefix:" 8 ((words.take (searchPos wcfgCmd words)).map BitVec.toNat) ++
    listing "FPGA configuration logic suffix:" 8 ((words.drop (findEndPos nullCmd words)).map BitVec.toNat) := by
  unfold printLogicData listing
  rw [← words_text, ← words_text]

/-- Two lines: the words before the first WCFG command, or all words; and the words from the last NULL command on, or
none. -/
theorem C80_logic (words : List Word) : ∃ a b,
    printLogicData words =
      listing "FPGA configuration logic prefix:" 8 ((words.take a).map BitVec.toNat) ++
      listing "FPGA configuration logic suffix:" 8 ((words.drop b).map BitVec.toNat) ∧
    (∀ i < a, ¬ OccursAt [0x30008001#32, 1#32] words i) ∧
    (a = words.length ∨ OccursAt [0x30008001#32, 1#32] words a) ∧
    (∀ i, b < i → i < words.length → ¬ OccursAt [0x30008001#32, 0#32] words i) ∧
    ((b = words.length ∧ ∀ i < words.length, ¬ OccursAt [0x30008001#32, 0#32] words i) ∨
      OccursAt [0x30008001#32, 0#32] words b) := by
  rw [show [0x30008001#32, 1#32] = wcfgCmd from rfl, show [0x30008001#32, 0#32] = nullCmd from rfl]
  refine ⟨searchPos wcfgCmd words, findEndPos nullCmd words, ?_, searchPos_first wcfgCmd words, ?_, ?_, ?_⟩
  · exact logic_text words
  · rcases Nat.lt_or_ge (searchPos wcfgCmd words) words.length with h | h
    · exact Or.inr (searchPos_occurs _ _ h)
    · exact Or.inl (Nat.le_antisymm (searchPos_le _ _) h)
  · intro i h1 h2
    rcases findEndPos_spec nullCmd words (by decide) with ⟨_, _, h⟩ | ⟨_, h⟩
    · exact h i h1 h2
    · exact h i h2
  · rcases findEndPos_spec nullCmd words (by decide) with ⟨h, _, _⟩ | h
    · exact Or.inr h
    · exact Or.inl h

private theorem words_lt (ws : List Word) : ∀ v ∈ ws.map BitVec.toNat, v < 16 ^ 8 := by
  intro v hv
  obtain ⟨w, _, rfl⟩ := List.mem_map.mp hv
  have := w.isLt
  simpa using this

private theorem listing_line (label : String) (hl : ∀ c ∈ label.toList, c ≠ '\n') (n : Nat) (vs : List Nat) (t : List Char) :
    ((listing label n vs ++ t).dropWhile (· != '\n')).drop 1 = t := by
  have hd : ∀ (l r : List Char), (∀ c ∈ l, c ≠ '\n') → (l ++ '\n' :: r).dropWhile (· != '\n') = '\n' :: r := by
    intro l r
    induction l with
    | nil => intro _; simp
    | cons c l ih =>
      intro hl
      rw [List.cons_append, List.dropWhile_cons, if_pos (by simpa using hl c List.mem_cons_self)]
      exact ih (fun x hx => hl x (List.mem_cons_of_mem _ hx))
  have hf : ∀ (n v : Nat), ∀ c ∈ fixedHex n v, c ≠ '\n' := by
    intro n
    induction n with
    | zero => intro v c hc; cases hc
    | succ n ih =>
      intro v c hc
      rw [fixedHex] at hc
      rcases List.mem_append.mp hc with hc | hc
      · exact ih _ c hc
      · obtain rfl := List.mem_singleton.mp hc
        exact (upperValue_digit (v % 16) (Nat.mod_lt _ (by decide))).2.1
  rw [listing, List.append_assoc, List.cons_append, List.nil_append, hd]
  · rfl
  · intro c hc
    rcases List.mem_append.mp hc with hc | hc
    · exact hl c hc
    · obtain ⟨v, _, hc⟩ := List.mem_flatMap.mp hc
      rcases List.mem_cons.mp hc with rfl | hc
      · decide
      · exact hf _ _ c hc

/-- Reading the two lines back: the first yields the words before the WCFG command, the second those from the NULL
command on. -/
theorem C80_logic_readback (words : List Word) : ∃ a b,
    (readListing (printLogicData words)).map (BitVec.ofNat 32) = words.take a ∧
    (readListing (((printLogicData words).dropWhile (· != '\n')).drop 1)).map (BitVec.ofNat 32) = words.drop b ∧
    (∀ i < a, ¬ OccursAt [0x30008001#32, 1#32] words i) ∧
    (a = words.length ∨ OccursAt [0x30008001#32, 1#32] words a) ∧
    (∀ i, b < i → i < words.length → ¬ OccursAt [0x30008001#32, 0#32] words i) ∧
    ((b = words.length ∧ ∀ i < words.length, ¬ OccursAt [0x30008001#32, 0#32] words i) ∨
      OccursAt [0x30008001#32, 0#32] words b) := by
  obtain ⟨a, b, e, h⟩ := C80_logic words
  have hm : ∀ l : List Word, (l.map BitVec.toNat).map (BitVec.ofNat 32) = l := by
    intro l
    rw [List.map_map]
    conv => rhs; rw [← List.map_id l]
    congr 1
    funext w
    simp
  refine ⟨a, b, ?_, ?_, h⟩
  · rw [e, readListing_listing "FPGA configuration logic prefix".toList (by decide) _ rfl 8 _ (words_lt _), hm]
  · rw [e, listing_line _ (by decide), ← List.append_nil (listing _ _ _),
      readListing_listing "FPGA configuration logic suffix".toList (by decide) _ rfl 8 _ (words_lt _), hm]

/-- Non-vacuity: both commands occur, the NULL command twice, and once more across the end of the words. -/
example : printLogicData [0x30008001#32, 0#32, 0x20000000#32, 0x30008001#32, 1#32, 0xAB#32, 0x30008001#32, 0#32, 5#32, 0x30008001#32] =
    ("FPGA configuration logic prefix: 30008001 00000000 20000000\n" ++
     "FPGA configuration logic suffix: 30008001 00000000 00000005 30008001\n").toList := by decide +kernel

/-! ## Files of this program -/

/-- No NULL command, as a test. -/
private def noNull : List Word → Bool
  | x :: y :: r => !(x == 0x30008001#32 && y == 0#32) && noNull (y :: r)
  | _ => true

private theorem noNull_iff : ∀ l : List Word, noNull l = true ↔ ∀ i, ¬ OccursAt [0x30008001#32, 0#32] l i
  | [] => by simp [noNull, OccursAt]
  | [x] => by
    simp only [noNull, true_iff]
    rintro i ⟨u, hu⟩
    have := congrArg List.length hu
    simp only [List.length_drop, List.length_append, List.length_cons, List.length_nil] at this
    omega
  | x :: y :: r => by
    simp only [noNull, Bool.and_eq_true, Bool.not_eq_true', Bool.and_eq_false_iff, beq_eq_false_iff_ne]
    rw [noNull_iff (y :: r)]
    constructor
    · rintro ⟨h1, h2⟩ i
      cases i with
      | zero =>
        rintro ⟨u, hu⟩
        simp only [List.drop_zero, List.cons_append, List.cons.injEq] at hu
        rcases h1 with h1 | h1
        · exact h1 hu.1
        · exact h1 hu.2.1
      | succ i => exact h2 i
    · intro h
      refine ⟨?_, fun i => h (i + 1)⟩
      by_cases hx : x = 0x30008001#32
      · right
        rintro rfl
        exact h 0 ⟨r, by rw [hx]; rfl⟩
      · exact Or.inl hx

private theorem noNull_append : ∀ a b : List Word, noNull a = true → noNull b = true →
    (∀ x y, a.getLast? = some x → b.head? = some y → ¬ (x = 0x30008001#32 ∧ y = 0#32)) → noNull (a ++ b) = true
  | [], b, _, hb, _ => hb
  | [x], [], _, _, _ => rfl
  | [x], y :: b, _, hb, h => by
    rw [List.singleton_append, noNull, hb, Bool.and_true]
    have := h x y rfl rfl
    simp only [Bool.not_eq_true', Bool.and_eq_false_iff, beq_eq_false_iff_ne]
    by_cases hx : x = 0x30008001#32
    · exact Or.inr fun hy => this ⟨hx, hy⟩
    · exact Or.inl hx
  | x :: y :: a, b, ha, hb, h => by
    rw [noNull, Bool.and_eq_true] at ha
    rw [List.cons_append, List.cons_append, noNull, ha.1, Bool.true_and, ← List.cons_append]
    exact noNull_append (y :: a) b ha.2 hb (fun x' y' h1 h2 => h x' y' (by rw [List.getLast?_cons_cons]; exact h1) h2)

private theorem findEnd_split (pre r : List Word) (h : noNull (0#32 :: r) = true) :
    findEndPos nullCmd (pre ++ 0x30008001#32 :: 0#32 :: r) = pre.length := by
  apply findEndPos_eq _ _ (by decide) _ (by simp) ⟨r, by simp [nullCmd]⟩
  intro j h1 _ ho
  refine (noNull_iff _).mp h (j - pre.length - 1) ?_
  obtain ⟨u, hu⟩ := ho
  refine ⟨u, ?_⟩
  rw [List.drop_append, List.drop_of_length_le (by omega), List.nil_append] at hu
  rw [show j - pre.length = (j - pre.length - 1) + 1 by omega, List.drop_succ_cons] at hu
  exact hu

/-- The words before the frame data. -/
private def before (idcode : Word) (n : Nat) : List Word :=
  [0x20000000#32, 0x30022001#32, 0#32, 0x30020001#32, 0#32, 0x30008001#32, 0#32, 0x20000000#32,
   0x30008001#32, 7#32, 0x20000000#32, 0x20000000#32, 0x30026001#32, 0#32, 0x30012001#32, 0x02003FE5#32,
   0x3001C001#32, 0#32, 0x30018001#32, idcode, 0x30008001#32, 9#32, 0x20000000#32, 0x3000C001#32, 0x401#32,
   0x3000A001#32, 0x501#32, 0x3000C001#32, 0#32, 0x30030001#32, 0#32,
   0x20000000#32, 0x20000000#32, 0x20000000#32, 0x20000000#32, 0x20000000#32, 0x20000000#32, 0x20000000#32, 0x20000000#32,
   0x30002001#32, 0#32, 0x30008001#32, 1#32, 0x20000000#32, 0x30004000#32, BitVec.ofNat 32 (0x50000000 + n)]

/-- The words after the frame data. -/
private def after : List Word :=
  [0x30008001#32, 7#32, 0x20000000#32, 0x20000000#32, 0x30008001#32, 10#32, 0x20000000#32, 0x30008001#32, 3#32] ++
    List.replicate 100 0x20000000#32 ++
    [0x30008001#32, 5#32, 0x20000000#32, 0x30002001#32, 0x03BE0000#32, 0x3000C001#32, 0x501#32, 0x3000A001#32, 0x501#32,
     0x30008001#32, 7#32, 0x20000000#32, 0x20000000#32, 0x30008001#32, 13#32] ++ List.replicate 400 0x20000000#32

private theorem words_split (idcode : Word) (data : List Word) :
    wireWords (configurationPackage data idcode) = before idcode data.length ++ (data ++ after) := by
  rw [C63_words]
  simp only [before, after, List.append_assoc]
  rfl

private theorem searchPos_here {α : Type} [BEq α] (p l : List α) (h : p.isPrefixOf l = true) : searchPos p l = 0 := by
  cases l with
  | nil => rfl
  | cons x xs => rw [searchPos, if_pos h]

private theorem wcfg_before (idcode : Word) (n : Nat) (t : List Word) : searchPos wcfgCmd (before idcode n ++ t) = 41 := by
  have h : ∀ (x y : Word) (r : List Word), ¬ (x = 0x30008001#32 ∧ y = 1#32) →
      searchPos wcfgCmd (x :: y :: r) = searchPos wcfgCmd (y :: r) + 1 := by
    intro x y r hn
    rw [searchPos, if_neg]
    intro hp
    obtain ⟨u, hu⟩ := (occurs_prefix _ _).mp hp
    simp only [wcfgCmd, List.cons_append, List.cons.injEq] at hu
    exact hn ⟨hu.1, hu.2.1⟩
  have hid : ¬ (idcode = 0x30008001#32 ∧ (0x30008001#32 : Word) = 1#32) := fun h => absurd h.2 (by decide)
  have hpre : ¬ ((0x30018001#32 : Word) = 0x30008001#32 ∧ idcode = 1#32) := fun h => absurd h.1 (by decide)
  simp only [before, List.cons_append, List.nil_append]
  iterate 18 rw [h _ _ _ (by decide)]
  rw [h _ _ _ hpre, h _ _ _ hid]
  iterate 21 rw [h _ _ _ (by decide)]
  rw [searchPos_here _ _ (by rfl)]

private theorem before_split (idcode : Word) (n : Nat) : ∃ pre mid,
    before idcode n = pre ++ 0x30008001#32 :: 0#32 :: mid ∧ pre.length = 5 ∧
    noNull (0#32 :: mid) = true ∧ (0#32 :: mid).getLast? = some (BitVec.ofNat 32 (0x50000000 + n)) := by
  generalize hx : BitVec.ofNat 32 (0x50000000 + n) = x
  rw [before, hx]
  refine ⟨[0x20000000#32, 0x30022001#32, 0#32, 0x30020001#32, 0#32], _, rfl, rfl, by simp [noNull], by simp⟩

private theorem after_noNull : noNull after = true := by decide +kernel

private theorem type2_ne (n : Nat) (h : n < 2 ^ 27) : BitVec.ofNat 32 (0x50000000 + n) ≠ 0x30008001#32 := by
  intro e
  have := congrArg BitVec.toNat e
  rw [BitVec.toNat_ofNat, BitVec.toNat_ofNat] at this
  omega

private theorem tail_noNull (data : List Word) (hd : noNull data = true) : noNull (data ++ after) = true := by
  apply noNull_append _ _ hd after_noNull
  intro x y _ hy ⟨_, h0⟩
  have : after.head? = some 0x30008001#32 := rfl
  rw [this] at hy
  rw [← Option.some.inj hy] at h0
  exact absurd h0 (by decide)

/-- The prefix line of a file of this program: the commands up to the frame address, whatever the frame data; and the
suffix line.  The program writes no NULL command after the frame data, so the suffix line begins with the one in front
of them: it repeats most of the prefix line, and lists all frame data. -/
theorem C80_own_file (idcode : Word) (data : List Word) (hlen : data.length < 2 ^ 27)
    (hno : ∀ i, ¬ OccursAt [0x30008001#32, 0#32] data i) :
    printLogicData (wireWords (configurationPackage data idcode)) =
      listing "FPGA configuration logic prefix:" 8
        ([0x20000000, 0x30022001, 0, 0x30020001, 0, 0x30008001, 0, 0x20000000, 0x30008001, 7, 0x20000000, 0x20000000,
          0x30026001, 0, 0x30012001, 0x02003FE5, 0x3001C001, 0, 0x30018001, idcode.toNat, 0x30008001, 9, 0x20000000,
          0x3000C001, 0x401, 0x3000A001, 0x501, 0x3000C001, 0, 0x30030001, 0] ++ List.replicate 8 0x20000000 ++
         [0x30002001, 0]) ++
      listing "FPGA configuration logic suffix:" 8
        (((wireWords (configurationPackage data idcode)).drop 5).map BitVec.toNat) := by
  obtain ⟨pre, mid, hb, hpre, hn, hl⟩ := before_split idcode data.length
  have hfe : findEndPos nullCmd (before idcode data.length ++ (data ++ after)) = 5 := by
    conv => lhs; rw [hb]
    rw [List.append_assoc]
    rw [List.cons_append, List.cons_append, findEnd_split]
    · exact hpre
    · rw [← List.cons_append]
      apply noNull_append _ _ hn (tail_noNull data ((noNull_iff data).mpr hno))
      intro x y hx _ ⟨h1, _⟩
      rw [hl] at hx
      exact type2_ne _ hlen ((Option.some.inj hx).trans h1)
  have ht : ((before idcode data.length ++ (data ++ after)).take 41).map BitVec.toNat =
      [0x20000000, 0x30022001, 0, 0x30020001, 0, 0x30008001, 0, 0x20000000, 0x30008001, 7, 0x20000000, 0x20000000,
          0x30026001, 0, 0x30012001, 0x02003FE5, 0x3001C001, 0, 0x30018001, idcode.toNat, 0x30008001, 9, 0x20000000,
          0x3000C001, 0x401, 0x3000A001, 0x501, 0x3000C001, 0, 0x30030001, 0] ++ List.replicate 8 0x20000000 ++
         [0x30002001, 0] := by
    rw [List.take_append_of_le_length (by simp [before])]
    generalize data.length = n
    simp only [before]
    generalize BitVec.ofNat 32 (0x50000000 + n) = x
    simp
  rw [words_split, logic_text, wcfg_before, hfe, ht]

/-- Frame data that look like a NULL command move the beginning of the suffix line into the frame data. -/
theorem C80_own_file_data (idcode : Word) (pre r : List Word)
    (hlast : ∀ j, pre.length < j → ¬ OccursAt [0x30008001#32, 0#32] (pre ++ [0x30008001#32, 0#32] ++ r) j) :
    ((printLogicData (wireWords (configurationPackage (pre ++ [0x30008001#32, 0#32] ++ r) idcode))).dropWhile (· != '\n')).drop 1 =
      listing "FPGA configuration logic suffix:" 8
        (([0x30008001#32, 0#32] ++ r ++ [0x30008001#32, 7#32, 0x20000000#32, 0x20000000#32, 0x30008001#32, 10#32, 0x20000000#32,
            0x30008001#32, 3#32] ++ List.replicate 100 0x20000000#32 ++
          [0x30008001#32, 5#32, 0x20000000#32, 0x30002001#32, 0x03BE0000#32, 0x3000C001#32, 0x501#32, 0x3000A001#32, 0x501#32,
            0x30008001#32, 7#32, 0x20000000#32, 0x20000000#32, 0x30008001#32, 13#32] ++
          List.replicate 400 0x20000000#32).map BitVec.toNat) := by
  have hn : noNull (0#32 :: r) = true := by
    refine (noNull_iff _).mpr fun j => ?_
    rintro ⟨u, hu⟩
    refine hlast (pre.length + (j + 1)) (by omega) ⟨u, ?_⟩
    rw [List.append_assoc, List.drop_append, List.drop_of_length_le (by omega), Nat.add_sub_cancel_left]
    exact hu
  have hfe : findEndPos nullCmd (before idcode (pre ++ [0x30008001#32, 0#32] ++ r).length ++
      ((pre ++ [0x30008001#32, 0#32] ++ r) ++ after)) =
      (before idcode (pre ++ [0x30008001#32, 0#32] ++ r).length ++ pre).length := by
    generalize before idcode (pre ++ [0x30008001#32, 0#32] ++ r).length = b
    rw [show b ++ ((pre ++ [0x30008001#32, 0#32] ++ r) ++ after) =
      (b ++ pre) ++ 0x30008001#32 :: 0#32 :: (r ++ after) by simp]
    apply findEnd_split
    rw [← List.cons_append]
    exact tail_noNull _ hn
  rw [words_split, logic_text, listing_line _ (by decide), hfe]
  generalize before idcode (pre ++ [0x30008001#32, 0#32] ++ r).length = b
  rw [show b ++ ((pre ++ [0x30008001#32, 0#32] ++ r) ++ after) =
      (b ++ pre) ++ ([0x30008001#32, 0#32] ++ r ++ after) by simp, List.drop_left, after]
  simp only [List.append_assoc]

private theorem afterSync_written (hdr : Bytes) (n : Nat) (ws : List Word) (hno : ∀ b ∈ hdr, b ≠ (0xAA : UInt8)) :
    afterSync (hdr ++ bytesOfWord (BitVec.ofNat 32 (4 * n)) ++ bytesOfWords (syncHeader .xc7 ++ ws)) = some (bytesOfWords ws) := by
  rw [List.append_assoc, afterSync_append _ _ hno, bytesOfWords_append, bytesOfWord_eq]
  have h3 : UInt8.ofNat ((BitVec.ofNat 32 (4 * n)).toNat % 256) ≠ 0x66 := by
    intro h
    have := congrArg UInt8.toNat h
    rw [UInt8.toNat_ofNat', BitVec.toNat_ofNat, show (0x66 : UInt8).toNat = 102 from rfl] at this
    omega
  have hff : bytesOfWords (syncHeader .xc7) = 0xFF :: 0xFF :: 0xFF :: (bytesOfWords (syncHeader .xc7)).drop 3 := by
    decide +kernel
  rw [hff]
  simp only [List.cons_append, List.nil_append]
  rw [sync_skip_length _ _ _ _ _ h3, ← List.cons_append, ← List.cons_append, ← List.cons_append, ← hff]
  exact afterSync_header .xc7 _

/-- The AUX data of a file this program writes.  The header line lists everything before the configuration words.  Of the
frame data `data` — those a device loads — the prefix line has nothing; the suffix line all, if they do not look like a
NULL command somewhere. -/
theorem C80_file (d : Db.Part) (hd : DescFits d) (p : Part) (hp : Part.fromPart d = .ok p)
    (hsmall : FitsPacket p) (partName source date time : Bytes) (seek : Bool)
    (hnames : ∀ s ∈ [partName, source, date, time], ShortAscii s)
    (frames : BMap (FrameWords 101)) (hs : frames.Sorted)
    (hk : ∀ k f, (k, f) ∈ frames → ∃ a, Reached p a ∧ a.toNat = k) :
    ∃ fuel0, ∀ fuel ≥ fuel0, ∃ o words data hdr,
      encode d partName source date time frames ⟨[], 0, seek, false⟩ fuel = some (.ok o) ∧
      o.bytes = hdr ++ fileBytes words ∧ initWithBytes o.bytes = .ok (some words) ∧
      (Device.run p.idcode words).loaded = [(0, data)] ∧
      printHeader o.bytes = listing "Header bytes:" 2 (hdr.map UInt8.toNat) ∧
      ((∀ i, ¬ OccursAt [0x30008001#32, 0#32] data i) →
        printLogicData words =
          listing "FPGA configuration logic prefix:" 8
            ([0x20000000, 0x30022001, 0, 0x30020001, 0, 0x30008001, 0, 0x20000000, 0x30008001, 7, 0x20000000, 0x20000000,
              0x30026001, 0, 0x30012001, 0x02003FE5, 0x3001C001, 0, 0x30018001, p.idcode.toNat, 0x30008001, 9, 0x20000000,
              0x3000C001, 0x401, 0x3000A001, 0x501, 0x3000C001, 0, 0x30030001, 0] ++ List.replicate 8 0x20000000 ++
             [0x30002001, 0]) ++
          listing "FPGA configuration logic suffix:" 8 ((words.drop 5).map BitVec.toNat)) := by
  obtain ⟨m, _, _, _, fuel0, h⟩ := encode_file d hd p hp hsmall partName source date time seek hnames frames hs hk
  refine ⟨fuel0 + 2 ^ 28, fun fuel hf => ?_⟩
  obtain ⟨o, file, words, data, e1, _, _, _, _, _, _, _, _, ⟨e2, e3, _, e4⟩, e5⟩ := h fuel (by omega)
  have hw : ∃ hdr n, (∀ b ∈ hdr, b ≠ (0xAA : UInt8)) ∧
      o.bytes = hdr ++ bytesOfWord (BitVec.ofNat 32 (4 * n)) ++ bytesOfWords (syncHeader .xc7 ++ words) := by
    have hr := package_representable data p.idcode e3
    have he : emitted (configurationPackage data p.idcode) = words := by rw [emitted_wire _ hr, e2]
    have hel : words.length < 2 ^ 27 + 1000 := by
      rw [e2, words_split, List.length_append, List.length_append,
        show (before p.idcode data.length).length = 46 from rfl, show after.length = 524 by decide +kernel]
      omega
    have hww := writerWords_eq .xc7 (configurationPackage data p.idcode) fuel (by
      rw [he, List.length_append, show (syncHeader .xc7).length = 13 from rfl]; omega)
    rw [he] at hww
    have ho : o = writeFile (createHeader partName source generatorName date time) (syncHeader .xc7 ++ words)
        ⟨[], 0, seek, false⟩ := by
      have h1 := (e4 ⟨[], 0, seek, false⟩).symm.trans e1
      simp only [writeBitstream, hww, Option.map_some, Outcome.bind] at h1
      exact (Outcome.ok.inj (Option.some.inj h1)).symm
    rw [ho]
    cases seek with
    | true =>
      have hwf := writeFile_seekable (headerPrefix partName source generatorName date time)
        (syncHeader .xc7 ++ words) ⟨[], 0, true, false⟩ ⟨rfl, rfl⟩ rfl
      rw [← createHeader_eq] at hwf
      rw [hwf]
      exact ⟨headerPrefix partName source generatorName date time, (syncHeader .xc7 ++ words).length, header_noAA _ _ _ _ hnames, by simp only [List.nil_append]⟩
    | false =>
      have hwf := (writeFile_pipe (createHeader partName source generatorName date time)
        (syncHeader .xc7 ++ words) ⟨[], 0, false, false⟩ ⟨rfl, rfl⟩ rfl).1
      rw [hwf, createHeader_eq, List.nil_append]
      exact ⟨_, 0, header_noAA _ _ _ _ hnames, rfl⟩
  obtain ⟨hdr, n, hno, hb⟩ := hw
  have hsync := afterSync_written hdr n words hno
  rw [← hb] at hsync
  obtain ⟨pre, hpre, hfirst⟩ := (afterSync_some _ _).mp hsync
  refine ⟨o, words, data, pre ++ syncWord, e1, ?_, ?_, ?_, ?_, ?_⟩
  · rw [hpre, ← C13_serialise]; rfl
  · rw [initWithBytes, hsync]
    simp only [beWords_bytesOfWords, Outcome.bind_ok, Outcome.pure_eq]
  · rw [e5, if_pos rfl]
  · rw [hpre] at hfirst ⊢
    exact C80_header pre _ hfirst
  · intro hnn
    rw [e2]
    exact C80_own_file p.idcode data e3 hnn

/-- Non-vacuity: the small device and an empty frame map; its zero frames hold no NULL command. -/
example : ∃ p, Part.fromPart smallDesc = .ok p ∧ DescFits smallDesc ∧ FitsPacket p ∧
    (∀ s ∈ [bytes!"fasm", bytes!"fpga", bytes!"20", bytes!"12"], ShortAscii s) ∧
    BMap.Sorted ([] : BMap (FrameWords 101)) ∧ ∀ n i, ¬ OccursAt [0x30008001#32, 0#32] (List.replicate n 0#32) i := by
  refine ⟨_, rfl, smallDesc_dense.fits, smallDesc_packet, by unfold ShortAscii; decide, List.Pairwise.nil, ?_⟩
  rintro n i ⟨u, hu⟩
  rw [List.drop_replicate] at hu
  have : (0x30008001#32 : Word) ∈ List.replicate (n - i) 0#32 := by rw [hu]; simp
  exact absurd (List.eq_of_mem_replicate this) (by decide)

end Verif.Props
