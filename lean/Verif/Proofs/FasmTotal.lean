import Verif.Proofs.FasmShape
import Verif.Proofs.FasmProps
/-! # The reading of every shape of line -/
namespace Verif.Fasm
open Verif.Spec

/-! ## Character conditions -/

theorem hd_nb {post : Bytes} (h : ∀ c, post.head? = some c → ¬ BlankChar c) : isBlank (hd post) = false := by
  cases post with
  | nil => decide
  | cons x xs =>
    have := h x rfl
    rw [hd_cons]
    exact decide_eq_false this

theorem isDig_iff {radix : Nat} (hr : radix ≤ 16) (c : UInt8) : isDig radix c = true ↔ DigitChar radix c := by
  unfold isDig DigitChar
  rw [digitOf_spec]
  cases hd : digitValue c with
  | none =>
    simp only [decide_eq_true_eq, reduceCtorEq, false_and, exists_false, or_false]
    by_cases h : c = 0x5f
    · simp only [h, if_true, iff_true]; omega
    · simp only [h, if_false, iff_false]; omega
  | some d =>
    simp only [decide_eq_true_eq, Option.some.injEq]
    constructor
    · intro h; exact Or.inr ⟨d, rfl, by omega⟩
    · rintro (rfl | ⟨d', rfl, h⟩)
      · rw [digitValue_us] at hd; cases hd
      · omega

theorem hd_nd {radix : Nat} (hr : radix ≤ 16) {post : Bytes} (h : ∀ c, post.head? = some c → ¬ DigitChar radix c) :
    isDig radix (hd post) = false := by
  cases post with
  | nil => exact isDig_nl hr
  | cons x xs =>
    rw [hd_cons]
    cases hx : isDig radix x with
    | false => rfl
    | true => exact absurd ((isDig_iff hr x).1 hx) (h x rfl)

theorem hd_ne {post : Bytes} {a : UInt8} (ha : a ≠ chNl) (h : ∀ c, post.head? = some c → c ≠ a) : hd post ≠ a := by
  cases post with
  | nil => exact fun e => ha e.symm
  | cons x xs => exact h x rfl

theorem hd_ni {post : Bytes} (h : ∀ c, post.head? = some c → ¬ NameChar c) : isIdent (hd post) = false := by
  cases post with
  | nil => decide
  | cons x xs =>
    rw [hd_cons]
    cases hx : isIdent x with
    | false => rfl
    | true => exact absurd ((isIdent_spec x).1 hx) (h x rfl)

/-! ## Numbers, possibly without digits -/

/-- What follows a number does not continue it. -/
def NumEnd (radix : Nat) (d h post : Bytes) : Prop :=
  isBlank (hd post) = false ∧ (h = [] ∨ d = [] → isDig radix (hd post) = false)

theorem NumEnd.of_delim {radix : Nat} {d h post : Bytes} {c : UInt8} (hb : isBlank c = false)
    (hd' : isDig radix c = false) : NumEnd radix d h (c :: post) := ⟨hb, fun _ => hd'⟩

theorem blank_append {a b : Bytes} (ha : Blank a) (hb : Blank b) : Blank (a ++ b) := by
  intro c hc
  rcases List.mem_append.1 hc with h | h
  · exact ha c h
  · exact hb c h

theorem NumEnd.after {radix : Nat} (hr : radix ≤ 16) {d h post : Bytes} (hh : Blank h) (he : NumEnd radix d h post)
    (hd' : d ≠ []) : isDig radix (hd (h ++ post)) = false := by
  cases h with
  | nil => exact he.2 (Or.inl rfl)
  | cons x xs => exact blank_not_dig hr hh x List.mem_cons_self

theorem numP_gap (radix bits : Nat) (hr : radix ≤ 16) (g d h post : Bytes) (hg : Blank g) (hdg : DigitString radix d)
    (hh : Blank h) (he : NumEnd radix d h post) :
    (numP radix bits (g ++ (d ++ (h ++ post)))).1 = numVal radix d % 2 ^ bits ∧
    (numP radix bits (g ++ (d ++ (h ++ post)))).2.dropWhile isBlank = post := by
  by_cases hd' : d = []
  · subst hd'
    rw [List.nil_append, ← List.append_assoc]
    unfold numP
    rw [dropBlank (g ++ h) post (blank_append hg hh) he.1]
    have := span_eq (isDig radix) [] post (by simp) (isDig_nl hr) (he.2 (Or.inr rfl))
    rw [List.nil_append] at this
    dsimp only
    rw [this.1, this.2]
    refine ⟨?_, dropBlank [] post blank_nil he.1⟩
    show 0 = numVal radix [] % 2 ^ bits
    simp [numVal, digitsOf]
  · have := numP_text radix bits hr g d (h ++ post) hg hdg hd' (he.after hr hh hd')
    rw [List.append_assoc] at this
    rw [this]
    exact ⟨rfl, dropBlank h post hh he.1⟩

theorem leadP_gap (g d h post : Bytes) (hg : Blank g) (hdg : DigitString 10 d)
    (hh : Blank h) (he : NumEnd 10 d h post) :
    (leadP ((g ++ (d ++ (h ++ post))).dropWhile isBlank)).1 = numVal 10 d % 2 ^ 64 ∧
    (leadP ((g ++ (d ++ (h ++ post))).dropWhile isBlank)).2.dropWhile isBlank = post := by
  by_cases hd' : d = []
  · subst hd'
    rw [List.nil_append, ← List.append_assoc, dropBlank (g ++ h) post (blank_append hg hh) he.1]
    have hn := he.2 (Or.inr rfl)
    unfold leadP
    rw [if_neg (by simp only [isDig, decide_eq_false_iff_not] at hn; omega)]
    exact ⟨rfl, dropBlank [] post blank_nil he.1⟩
  · rw [lead_text g d (h ++ post) hg hdg hd' (he.after (by decide) hh hd')]
    exact ⟨rfl, dropBlank h post hh he.1⟩

/-- The chunks read for a value. -/
theorem longP_gap (l2 : Nat) (hl : l2 = 1 ∨ l2 = 4) (g d h post : Bytes) (hg : Blank g)
    (hdg : DigitString (2 ^ l2) d) (hh : Blank h) (he : NumEnd (2 ^ l2) d h post) :
    (longP l2 (g ++ (d ++ (h ++ post)))).2.dropWhile isBlank = post ∧
      ((digitsOf d = [] ∧ (longP l2 (g ++ (d ++ (h ++ post)))).1 = [0]) ∨
       (digitsOf d ≠ [] ∧
        LongInv (l2 * (digitsOf d).length) (numVal (2 ^ l2) d) (longP l2 (g ++ (d ++ (h ++ post)))).1)) := by
  have hr : 2 ^ l2 ≤ 16 := by rcases hl with rfl | rfl <;> decide
  by_cases hdd : digitsOf d = []
  · -- separators only
    have hall : ∀ c ∈ d, c = 0x5f := by
      intro c hc
      rcases hdg c hc with rfl | ⟨v, hv, _⟩
      · rfl
      · have : v ∈ digitsOf d := List.mem_filterMap.2 ⟨c, hc, hv⟩
        rw [hdd] at this
        cases this
    have hacc : ∀ (e : Bytes), (∀ c ∈ e, c = 0x5f) → longAccum l2 0 [] e = [] := by
      intro e
      induction e with
      | nil => intro _; rfl
      | cons x xs ih =>
        intro hx
        rw [longAccum, hx x List.mem_cons_self, if_pos (by decide)]
        exact ih fun c hc => hx c (List.mem_cons_of_mem _ hc)
    by_cases hd' : d = []
    · subst hd'
      rw [List.nil_append, ← List.append_assoc]
      unfold longP
      rw [dropBlank (g ++ h) post (blank_append hg hh) he.1]
      have := span_eq (isDig (2 ^ l2)) [] post (by simp) (isDig_nl hr) (he.2 (Or.inr rfl))
      rw [List.nil_append] at this
      dsimp only
      rw [this.1, this.2]
      exact ⟨dropBlank [] post blank_nil he.1, Or.inl ⟨hdd, rfl⟩⟩
    · unfold longP
      have hnb : isBlank (hd (d ++ (h ++ post))) = false := by
        cases d with
        | nil => exact absurd rfl hd'
        | cons x xs => exact dig_not_blank hdg x List.mem_cons_self
      rw [dropBlank g _ hg hnb]
      have := span_eq (isDig (2 ^ l2)) d (h ++ post) (isDig_of hdg) (isDig_nl hr) (he.after hr hh hd')
      dsimp only
      rw [this.1, this.2, hacc d hall]
      exact ⟨dropBlank h post hh he.1, Or.inl ⟨hdd, rfl⟩⟩
  · have := longP_text l2 hl g d (h ++ post) hg hdg hdd (he.after hr hh (digitsOf_ne hdd))
    rw [List.append_assoc] at this
    exact ⟨by rw [this.1]; exact dropBlank h post hh he.1, Or.inr ⟨hdd, this.2⟩⟩

/-! ## Range -/

theorem range_shaped (g : Nat → Bytes) (hg : ∀ i, Blank (g i)) (r : RangeText) (hr : r.Shaped) (post : Bytes)
    (hb : isBlank (hd post) = false) (hbr : r = .absent → hd post ≠ chLBrack) :
    (r.Inverted → (rangeP (r.text g ++ post)).1 = .inverted) ∧
    (¬ r.Inverted → (rangeP (r.text g ++ post)).1 = .bits r.last r.first ∧
      (rangeP (r.text g ++ post)).2.dropWhile isBlank = post) := by
  cases r with
  | absent =>
    simp only [RangeText.Inverted, RangeText.last, RangeText.first, RangeText.hi, RangeText.lo, Nat.lt_irrefl,
      false_imp_iff, not_false_eq_true, true_imp_iff, true_and]
    unfold rangeP
    rw [RangeText.text, List.nil_append, if_neg (hbr rfl)]
    exact ⟨rfl, dropBlank [] post blank_nil hb⟩
  | bit d =>
    have hn := numP_gap 10 16 (by decide) (g 2) d (g 3) (0x5d :: (g 6 ++ post)) (hg 2) hr (hg 3)
      (NumEnd.of_delim (by decide) (by decide))
    simp only [RangeText.text, List.cons_append, List.append_assoc]
    unfold rangeP
    rw [if_pos (hd_cons _ _), List.tail_cons]
    dsimp only
    rw [hn.1, hn.2]
    have hm : ∀ v, rangeMinP v (0x5d :: (g 6 ++ post)) = (v, 0x5d :: (g 6 ++ post)) := fun v =>
      if_neg (show ¬ hd (0x5d :: (g 6 ++ post)) = chColon by rw [hd_cons]; decide)
    simp only [hm, hd_cons, ne_eq, not_true, if_false, Nat.lt_irrefl, List.tail_cons,
      RangeText.Inverted, RangeText.last, RangeText.first, RangeText.hi, RangeText.lo, false_imp_iff,
      not_false_eq_true, true_imp_iff, true_and]
    exact dropBlank (g 6) post (hg 6) hb
  | span hi lo =>
    have hn := numP_gap 10 16 (by decide) (g 2) hi (g 3) (0x3a :: (g 4 ++ (lo ++ (g 5 ++ 0x5d :: (g 6 ++ post)))))
      (hg 2) hr.1 (hg 3) (NumEnd.of_delim (by decide) (by decide))
    have hn2 := numP_gap 10 16 (by decide) (g 4) lo (g 5) (0x5d :: (g 6 ++ post))
      (hg 4) hr.2 (hg 5) (NumEnd.of_delim (by decide) (by decide))
    simp only [RangeText.text, List.cons_append, List.append_assoc]
    unfold rangeP
    rw [if_pos (hd_cons _ _), List.tail_cons]
    dsimp only
    rw [hn.1, hn.2]
    have hm : ∀ v, rangeMinP v (0x3a :: (g 4 ++ (lo ++ (g 5 ++ 0x5d :: (g 6 ++ post))))) =
        (numVal 10 lo % 2 ^ 16, 0x5d :: (g 6 ++ post)) := by
      intro v
      unfold rangeMinP
      rw [if_pos (hd_cons _ _), List.tail_cons, hn2.1, hn2.2]
    simp only [hm, hd_cons, ne_eq, not_true, if_false, List.tail_cons,
      RangeText.Inverted, RangeText.last, RangeText.first, RangeText.hi, RangeText.lo]
    change (numVal 10 hi % 2 ^ 16 < numVal 10 lo % 2 ^ 16 → _) ∧ (¬ numVal 10 hi % 2 ^ 16 < numVal 10 lo % 2 ^ 16 → _)
    refine ⟨fun h => by rw [if_pos h], fun h => ?_⟩
    rw [if_neg h]
    exact ⟨rfl, dropBlank (g 6) post (hg 6) hb⟩

theorem range_open (g : Nat → Bytes) (hg : ∀ i, Blank (g i)) (r : RangeText) (hr : r.Shaped) (post : Bytes)
    (hp : BreaksRange g r post) : (rangeP (r.openText g ++ post)).1 = .noBracket := by
  obtain ⟨hne, hp⟩ := hp
  have hb := hd_nb fun c hc => (hp c hc).1
  have hcl : hd post ≠ chRBrack := hd_ne (by decide) fun c hc => (hp c hc).2.1
  cases r with
  | absent => exact absurd rfl hne
  | bit d =>
    have hn := numP_gap 10 16 (by decide) (g 2) d (g 3) post (hg 2) hr (hg 3)
      ⟨hb, fun h => hd_nd (by decide) fun c hc => (hp c hc).2.2.2 h⟩
    simp only [RangeText.openText, List.cons_append, List.append_assoc]
    unfold rangeP
    rw [if_pos (hd_cons _ _), List.tail_cons]
    dsimp only
    rw [hn.1, hn.2]
    have hm : ∀ v, rangeMinP v post = (v, post) := fun v =>
      if_neg (hd_ne (by decide) fun c hc => (hp c hc).2.2.1)
    simp only [hm, hcl, ne_eq, not_false_eq_true, if_true]
  | span hi lo =>
    have hn := numP_gap 10 16 (by decide) (g 2) hi (g 3) (0x3a :: (g 4 ++ (lo ++ (g 5 ++ post))))
      (hg 2) hr.1 (hg 3) (NumEnd.of_delim (by decide) (by decide))
    have hn2 := numP_gap 10 16 (by decide) (g 4) lo (g 5) post
      (hg 4) hr.2 (hg 5) ⟨hb, fun h => hd_nd (by decide) fun c hc => (hp c hc).2.2 h⟩
    simp only [RangeText.openText, List.cons_append, List.append_assoc]
    unfold rangeP
    rw [if_pos (hd_cons _ _), List.tail_cons]
    dsimp only
    rw [hn.1, hn.2]
    have hm : ∀ v, rangeMinP v (0x3a :: (g 4 ++ (lo ++ (g 5 ++ post)))) = (numVal 10 lo % 2 ^ 16, post) := by
      intro v
      unfold rangeMinP
      rw [if_pos (hd_cons _ _), List.tail_cons, hn2.1, hn2.2]
    simp only [hm, hcl, ne_eq, not_false_eq_true, if_true]

/-! ## Assignment -/

/-- Chunks of the value of a shaped line, as the parser accumulates them. -/
structure ChunksOf' (v : ValueText) (chunks : List Nat) : Prop where
  len : chunks.length = v.chunks
  val : chunksVal chunks % 2 ^ (64 * v.chunks) = misread v.digitBits v.val % 2 ^ (64 * v.chunks)
  bound : ∀ c ∈ chunks, c < 2 ^ 64

/-- Clamped to 64 bits. -/
def clamps' (f : FeatureText) : Bool :=
  decide (f.range.size > 64) && (match f.value with
    | .plain _ => true
    | .based _ .dec _ => true
    | .based _ .oct _ => true
    | _ => false)

theorem clamps'_iff (f : FeatureText) : clamps' f = true ↔ f.TooWide := by
  unfold clamps' FeatureText.TooWide
  cases f.value with
  | absent => simp [ValueText.IsInteger]
  | plain d => simp [ValueText.IsInteger]
  | based w b d => cases b <;> simp [ValueText.IsInteger]

theorem chunks_one (v : ValueText) (x c : Nat) (h : v.digitBits = 0) (hv : v.val = x) (hc : c = x % 2 ^ 64) :
    ChunksOf' v [c] := by
  have h1 : v.chunks = 1 := by unfold ValueText.chunks; rw [h]; rfl
  refine ⟨by rw [h1]; rfl, ?_, ?_⟩
  · rw [h1, h, misread_aligned 0 _ rfl, hv, hc]
    simp [chunksVal]
  · intro y hy
    rw [List.mem_singleton.1 hy, hc]
    exact Nat.mod_lt _ (by decide)

theorem longInv_misread {n val : Nat} {v : List Nat} (h : LongInv n val v) (hn : 0 < n) :
    chunksVal v = misread n val := by
  have hl := h.len
  cases v with
  | nil => simp at hl; omega
  | cons c cs =>
    have h1 := h.low
    have h2 := h.high
    simp only [List.headD_cons, List.tail_cons] at h1 h2
    unfold misread
    rw [chunksVal, h1, h2]
    rfl

theorem chunks_long (l2 : Nat) (v : ValueText) (d : Bytes) (cs : List Nat) (hb : v.digitBits = l2 * (digitsOf d).length)
    (hl : l2 = 1 ∨ l2 = 4) (hv : v.val = numVal (2 ^ l2) d)
    (h : (digitsOf d = [] ∧ cs = [0]) ∨ (digitsOf d ≠ [] ∧ LongInv (l2 * (digitsOf d).length) (numVal (2 ^ l2) d) cs)) :
    ChunksOf' v cs := by
  rcases h with ⟨h, rfl⟩ | ⟨h, hi⟩
  · refine chunks_one v 0 0 (by rw [hb, h]; rfl) ?_ rfl
    rw [hv, numVal, h]; rfl
  · have hlen : 0 < (digitsOf d).length := List.length_pos_iff.2 h
    have hpos : 0 < l2 * (digitsOf d).length := Nat.mul_pos (by rcases hl with rfl | rfl <;> decide) hlen
    refine ⟨?_, ?_, hi.bound⟩
    · rw [hi.len]
      unfold ValueText.chunks
      rw [hb]; omega
    · rw [longInv_misread hi hpos, hb, hv]

theorem value_shaped (st : St) (line : Nat) (g d h post w : Bytes) (b : Base) (hg : Blank g)
    (hdg : DigitString b.radix d) (hh : Blank h) (he : NumEnd b.radix d h post) :
    (valueP st line b.letter (g ++ (d ++ (h ++ post)))).1 = st ∧
    ChunksOf' (.based w b d) (valueP st line b.letter (g ++ (d ++ (h ++ post)))).2.1 ∧
    (valueP st line b.letter (g ++ (d ++ (h ++ post)))).2.2.dropWhile isBlank = post := by
  cases b with
  | hex =>
    have hv := longP_gap 4 (Or.inr rfl) g d h post hg hdg hh he
    exact ⟨rfl, chunks_long 4 (.based w .hex d) d _ rfl (Or.inr rfl) rfl hv.2, hv.1⟩
  | bin =>
    have hv := longP_gap 1 (Or.inl rfl) g d h post hg hdg hh he
    exact ⟨rfl, chunks_long 1 (.based w .bin d) d _ rfl (Or.inl rfl) rfl hv.2, hv.1⟩
  | oct =>
    have hv := numP_gap 8 64 (by decide) g d h post hg hdg hh he
    exact ⟨rfl, chunks_one (.based w .oct d) _ _ (by simp [ValueText.digitBits, Base.digitBits]) rfl hv.1, hv.2⟩
  | dec =>
    have hv := numP_gap 10 64 (by decide) g d h post hg hdg hh he
    exact ⟨rfl, chunks_one (.based w .dec d) _ _ (by simp [ValueText.digitBits, Base.digitBits]) rfl hv.1, hv.2⟩

/-- The assignment part stops at a tick. -/
def AssignDangles (s : Bytes) : Prop :=
  hd s = chEq ∧ hd ((leadP (s.tail.dropWhile isBlank)).2.dropWhile isBlank) = chTick ∧
    ((leadP (s.tail.dropWhile isBlank)).2.dropWhile isBlank).tail.dropWhile isBlank = []

theorem assign_shaped (g : Nat → Bytes) (hg : ∀ i, Blank (g i)) (st : St) (line : Nat) (f : FeatureText)
    (hwf : f.value.Shaped) (post : Bytes) (hf : Follows g f post) :
    let s := f.value.text g ++ post
    ¬ AssignDangles s ∧
    (assignP st line f.range.last f.range.first s).1 =
      st.warn line (f.notes ++ if clamps' f then [.error] else []) ∧
    (assignP st line f.range.last f.range.first s).2.1 = (if clamps' f then 64 else f.range.size) ∧
    ChunksOf' f.value (assignP st line f.range.last f.range.first s).2.2.1 ∧
    (assignP st line f.range.last f.range.first s).2.2.2 = post := by
  have hb := hd_nb fun c hc => (hf c hc).1
  obtain ⟨name, range, value⟩ := f
  cases value with
  | absent =>
    have heq : hd post ≠ chEq := hd_ne (by decide) fun c hc => (hf c hc).2.1
    simp only [ValueText.text, List.nil_append, FeatureText.notes, clamps', Bool.and_false]
    unfold assignP AssignDangles
    simp only [heq, if_false, false_and, not_false_eq_true, true_and]
    refine ⟨?_, rfl, chunks_one _ 1 1 rfl rfl rfl, trivial⟩
    split <;> rfl
  | plain d =>
    have htick : hd post ≠ chTick := hd_ne (by decide) fun c hc => (hf c hc).2.1
    have hl := leadP_gap (g 7) d (g 8) post (hg 7) hwf (hg 8)
      ⟨hb, fun h => hd_nd (by decide) fun c hc => (hf c hc).2.2 h⟩
    simp only [ValueText.text, List.cons_append, List.append_assoc, FeatureText.notes, clamps', Bool.and_true]
    unfold assignP AssignDangles
    simp only [hd_cons, if_true, List.tail_cons, hl.1, hl.2, htick, if_false, false_and, and_false,
      not_false_eq_true, true_and]
    unfold clampWidth
    change _ ∧ _ ∧ ChunksOf' _ [numVal 10 d % 2 ^ 64] ∧ _
    by_cases hw : range.size > 64
    · have hw' : range.last - range.first + 1 > 64 := hw
      simp only [hw, hw', true_and, if_true, decide_true]
      exact ⟨rfl, chunks_one _ _ _ rfl rfl rfl, trivial⟩
    · have hw' : ¬ range.last - range.first + 1 > 64 := hw
      simp only [hw, hw', false_and, if_false, decide_false, Bool.false_eq_true]
      exact ⟨rfl, rfl, chunks_one _ _ _ rfl rfl rfl, trivial⟩
  | based w b d =>
    obtain ⟨h1, h3⟩ := hwf
    simp only [ValueText.text, List.cons_append, List.append_assoc]
    have hletter : isBlank b.letter = false := by cases b <;> decide
    have hr16 : b.radix ≤ 16 := by cases b <;> decide
    have hlead := leadP_gap (g 7) w (g 8) (0x27 :: (g 9 ++ b.letter :: (g 10 ++ (d ++ (g 11 ++ post))))) (hg 7) h1 (hg 8)
      (NumEnd.of_delim (by decide) (by decide))
    have h9 := dropBlank (g 9) (b.letter :: (g 10 ++ (d ++ (g 11 ++ post)))) (hg 9) (by rw [hd_cons]; exact hletter)
    have hv := fun st => value_shaped st line (g 10) d (g 11) post w b (hg 10) h3 (hg 11)
      ⟨hb, fun h => hd_nd hr16 fun c hc => (hf c hc).2 h⟩
    refine ⟨?_, ?_⟩
    · unfold AssignDangles
      simp only [hd_cons, List.tail_cons, hlead.2, h9, reduceCtorEq, and_false, not_false_eq_true]
    rw [assignP_ticked _ _ _ _ _ _ _ hlead.1 hlead.2]
    unfold tickedP
    simp only [h9, hd_cons, List.tail_cons]
    refine ⟨?_, ?_, (hv _).2.1, (hv _).2.2⟩
    · rw [(hv _).1]
      unfold clampWidth
      simp only [FeatureText.notes, clamps', RangeText.size]
      cases b <;> simp only [Base.letter] <;> by_cases hA : numVal 10 w % 2 ^ 64 > range.last - range.first + 1 <;>
        by_cases hB : range.last - range.first + 1 > 64 <;>
        simp [hA, hB, St.warn]
    · unfold clampWidth
      simp only [clamps', RangeText.size]
      cases b <;> simp only [Base.letter] <;> by_cases hB : range.last - range.first + 1 > 64 <;> simp [hB]

end Verif.Fasm
