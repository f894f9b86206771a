import Verif.Proofs.FasmFile
/-! # Well-formed FASM lines -/
namespace Verif.Fasm
open Verif.Spec

theorem forall_u8 {p : UInt8 → Prop} (h : ∀ n : Fin 256, p (UInt8.ofNat n.val)) (c : UInt8) : p c := by
  have := h ⟨c.toNat, c.toNat_lt⟩
  simpa using this

theorem digitOf_spec (c : UInt8) :
    digitOf c = match digitValue c with
      | some d => (d : Int)
      | none => if c = 0x5f then -1 else 99 := by
  revert c; apply forall_u8; decide +kernel

theorem isIdent_spec (c : UInt8) : isIdent c = true ↔ NameChar c := by
  revert c
  apply forall_u8
  simp only [NameChar]
  decide +kernel

theorem digitValue_us : digitValue 0x5f = none := by decide

theorem isDig_of {radix : Nat} {s : Bytes} (h : DigitString radix s) : ∀ c ∈ s, isDig radix c = true := by
  intro c hc
  unfold isDig
  rw [digitOf_spec]
  rcases h c hc with rfl | ⟨d, hd, hlt⟩
  · rw [digitValue_us]; simp; omega
  · rw [hd]; simp; exact hlt

theorem accum_spec (base bits : Nat) : ∀ (s : Bytes), DigitString base s → ∀ v,
    accum base bits (v % 2 ^ bits) s = (digitsOf s).foldl (fun v d => v * base + d) v % 2 ^ bits := by
  intro s
  induction s with
  | nil => intro _ v; rfl
  | cons c cs ih =>
    intro h v
    have h' : DigitString base cs := fun x hx => h x (List.mem_cons_of_mem _ hx)
    unfold accum
    rw [List.foldl_cons]
    change accum base bits _ cs = _
    rcases h c List.mem_cons_self with rfl | ⟨d, hd, hlt⟩
    · have e : digitOf 0x5f = -1 := by decide
      rw [if_pos e, ih h']
      simp [digitsOf, digitValue_us]
    · have e : digitOf c = (d : Int) := by rw [digitOf_spec, hd]
      have e1 : ¬ digitOf c = -1 := by rw [e]; omega
      rw [if_neg e1, e, Int.toNat_natCast]
      have e2 : (v % 2 ^ bits * base + d) % 2 ^ bits = (v * base + d) % 2 ^ bits := by
        rw [Nat.add_mod, Nat.mul_mod, Nat.mod_mod, ← Nat.mul_mod, ← Nat.add_mod]
      rw [e2, ih h']
      simp [digitsOf, hd]

theorem accum_val (base bits : Nat) (s : Bytes) (h : DigitString base s) :
    accum base bits 0 s = numVal base s % 2 ^ bits := by
  have := accum_spec base bits s h 0
  simpa [numVal] using this

/-! ## Scanning rendered text -/

theorem span_eq (p : UInt8 → Bool) : ∀ (a b : Bytes), (∀ c ∈ a, p c = true) → p chNl = false → p (hd b) = false →
    (a ++ b).takeWhile p = a ∧ (a ++ b).dropWhile p = b := by
  intro a b ha hnl hb
  induction a with
  | nil =>
    cases b with
    | nil => exact ⟨rfl, rfl⟩
    | cons x xs =>
      have : p x = false := hb
      simp [this]
  | cons x xs ih =>
    have hx := ha x List.mem_cons_self
    have := ih (fun c hc => ha c (List.mem_cons_of_mem _ hc))
    simp [hx, this.1, this.2]

theorem hd_append (p : UInt8 → Bool) (a b : Bytes) (ha : ∀ c ∈ a, p c = false) (hb : p (hd b) = false) :
    p (hd (a ++ b)) = false := by
  cases a with
  | nil => exact hb
  | cons x xs => exact ha x List.mem_cons_self

theorem blank_all {g : Bytes} (h : Blank g) : ∀ c ∈ g, isBlank c = true :=
  fun c hc => decide_eq_true (h c hc)

theorem isBlank_nl : isBlank chNl = false := by decide

theorem dropBlank (g b : Bytes) (hg : Blank g) (hb : isBlank (hd b) = false) :
    (g ++ b).dropWhile isBlank = b := (span_eq isBlank g b (blank_all hg) isBlank_nl hb).2

/-- A blank is neither a digit nor a name character. -/
theorem blank_not_dig {radix : Nat} (hr : radix ≤ 16) {g : Bytes} (hg : Blank g) : ∀ c ∈ g, isDig radix c = false := by
  intro c hc
  rcases hg c hc with rfl | rfl
  · have : digitOf 0x20 = 99 := by decide
    simp [isDig, this]; omega
  · have : digitOf 0x09 = 99 := by decide
    simp [isDig, this]; omega

theorem blank_not_ident {g : Bytes} (hg : Blank g) : ∀ c ∈ g, isIdent c = false := by
  intro c hc
  rcases hg c hc with rfl | rfl <;> decide

theorem dig_not_blank {radix : Nat} {s : Bytes} (h : DigitString radix s) : ∀ c ∈ s, isBlank c = false := by
  intro c hc
  rcases h c hc with rfl | ⟨d, hd, _⟩
  · decide
  · cases hb : isBlank c with
    | false => rfl
    | true =>
      have : c = chSpace ∨ c = chTab := of_decide_eq_true hb
      rcases this with rfl | rfl
      · have e : digitValue chSpace = none := by decide
        rw [e] at hd; cases hd
      · have e : digitValue chTab = none := by decide
        rw [e] at hd; cases hd

theorem isDig_nl {radix : Nat} (hr : radix ≤ 16) : isDig radix chNl = false := by
  simp only [isDig, digitOf_nl, decide_eq_false_iff_not]; omega

/-- Reading a rendered number. -/
theorem numP_text (radix bits : Nat) (hr : radix ≤ 16) (g d rest : Bytes) (hg : Blank g)
    (hd' : DigitString radix d) (hne : d ≠ []) (hrest : isDig radix (hd rest) = false) :
    numP radix bits (g ++ d ++ rest) = (numVal radix d % 2 ^ bits, rest) := by
  unfold numP
  have h1 : (g ++ d ++ rest).dropWhile isBlank = d ++ rest := by
    rw [List.append_assoc]
    refine dropBlank g _ hg ?_
    cases d with
    | nil => exact absurd rfl hne
    | cons x xs => exact dig_not_blank hd' x List.mem_cons_self
  rw [h1]
  have h2 := span_eq (isDig radix) d rest (isDig_of hd') (isDig_nl hr) hrest
  dsimp only
  rw [h2.1, h2.2, accum_val radix bits d hd']

/-! ## Wide values -/

/-- Value of a chunk list, chunk 0 first. -/
def chunksVal : List Nat → Nat
  | [] => 0
  | c :: cs => c + 2 ^ 64 * chunksVal cs

/-- Bits held by the chunk read last after `n` bits. -/
def lastBits (n : Nat) : Nat := if n % 64 = 0 then 64 else n % 64

/-- State of the wide-number loop after `n > 0` bits with value `val`: the last chunk holds the low
`lastBits n` bits, the other chunks the rest. -/
structure LongInv (n val : Nat) (v : List Nat) : Prop where
  len : v.length = (n + 63) / 64
  low : v.headD 0 = val % 2 ^ lastBits n
  high : chunksVal v.tail = val / 2 ^ lastBits n
  bound : ∀ c ∈ v, c < 2 ^ 64

theorem longAccum_step (l2 : Nat) (hl : l2 = 1 ∨ l2 = 4) (n nn val d : Nat) (v : List Nat) (hd : d < 2 ^ l2)
    (hnn : nn % 64 = n % 64) (hn : n % l2 = 0)
    (h : (n = 0 ∧ val = 0 ∧ v = []) ∨ (0 < n ∧ LongInv n val v)) :
    LongInv (n + l2) (val * 2 ^ l2 + d)
      (((if nn % 64 = 0 then 0 :: v else v).headD 0 * 2 ^ l2 + d) % 2 ^ 64 ::
        (if nn % 64 = 0 then 0 :: v else v).tail) := by
  have hp : 0 < 2 ^ l2 := Nat.pos_of_ne_zero (by rcases hl with rfl | rfl <;> decide)
  have hl64 : 2 ^ l2 < 2 ^ 64 := by rcases hl with rfl | rfl <;> decide
  rw [hnn]
  by_cases h0 : n % 64 = 0
  · simp only [h0, if_true, List.headD_cons, List.tail_cons, Nat.zero_mul, Nat.zero_add]
    have hlast : lastBits (n + l2) = l2 := by
      unfold lastBits; rcases hl with rfl | rfl <;> (split <;> omega)
    have hdm : d % 2 ^ 64 = d := Nat.mod_eq_of_lt (by omega)
    have hval : chunksVal v = val := by
      rcases h with ⟨_, rfl, rfl⟩ | ⟨_, h⟩
      · rfl
      · cases v with
        | nil =>
          have := h.len
          simp at this; omega
        | cons c cs =>
          have h1 := h.low
          have h2 := h.high
          have hb : lastBits n = 64 := by unfold lastBits; rw [if_pos h0]
          rw [hb] at h1 h2
          simp only [List.headD_cons, List.tail_cons] at h1 h2
          rw [chunksVal, h1, h2, Nat.add_comm, Nat.div_add_mod]
    refine ⟨?_, ?_, ?_, ?_⟩
    · rcases h with ⟨rfl, rfl, rfl⟩ | ⟨_, h⟩
      · rcases hl with rfl | rfl <;> simp
      · have := h.len
        rw [List.length_cons, this]
        rcases hl with rfl | rfl <;> omega
    · rw [List.headD_cons, hlast, hdm, Nat.add_mod, Nat.mul_mod_left, Nat.zero_add, Nat.mod_mod,
        Nat.mod_eq_of_lt hd]
    · rw [List.tail_cons, hlast, hval, Nat.mul_comm, Nat.mul_add_div hp, Nat.div_eq_of_lt hd, Nat.add_zero]
    · intro c hc
      rcases List.mem_cons.1 hc with rfl | hc
      · exact Nat.mod_lt _ (by decide)
      · rcases h with ⟨_, _, rfl⟩ | ⟨_, h⟩
        · cases hc
        · exact h.bound c hc
  · simp only [h0, if_false]
    obtain ⟨hpos, h⟩ : 0 < n ∧ LongInv n val v := by
      rcases h with ⟨rfl, _⟩ | h
      · exact absurd rfl h0
      · exact h
    have hb : lastBits n = n % 64 := by unfold lastBits; rw [if_neg h0]
    have hle : n % 64 + l2 ≤ 64 := by rcases hl with rfl | rfl <;> omega
    have hlast : lastBits (n + l2) = n % 64 + l2 := by
      unfold lastBits; rcases hl with rfl | rfl <;> (split <;> omega)
    cases v with
    | nil => have := h.len; simp at this; omega
    | cons b bs =>
      have h1 := h.low
      have h2 := h.high
      rw [hb] at h1 h2
      simp only [List.headD_cons, List.tail_cons] at h1 h2 ⊢
      have hblt : b < 2 ^ (n % 64) := by rw [h1]; exact Nat.mod_lt _ (Nat.two_pow_pos _)
      have hsum : b * 2 ^ l2 + d < 2 ^ (n % 64 + l2) := by
        rw [Nat.pow_add]
        calc b * 2 ^ l2 + d < b * 2 ^ l2 + 2 ^ l2 := by omega
          _ = (b + 1) * 2 ^ l2 := by rw [Nat.add_mul, Nat.one_mul]
          _ ≤ 2 ^ (n % 64) * 2 ^ l2 := Nat.mul_le_mul_right _ hblt
      have hsum64 : b * 2 ^ l2 + d < 2 ^ 64 := Nat.lt_of_lt_of_le hsum (Nat.pow_le_pow_right (by decide) hle)
      have hval : val = 2 ^ (n % 64) * chunksVal bs + b := by rw [h1, h2, Nat.div_add_mod]
      have hnew : val * 2 ^ l2 + d = 2 ^ (n % 64 + l2) * chunksVal bs + (b * 2 ^ l2 + d) := by
        rw [hval, Nat.pow_add, Nat.add_mul, Nat.add_assoc]
        congr 1
        rw [Nat.mul_assoc, Nat.mul_assoc, Nat.mul_comm (chunksVal bs)]
      refine ⟨?_, ?_, ?_, ?_⟩
      · have := h.len
        rw [List.length_cons] at this ⊢
        rcases hl with rfl | rfl <;> omega
      · rw [List.headD_cons, hlast, Nat.mod_eq_of_lt hsum64, hnew, Nat.mul_add_mod, Nat.mod_eq_of_lt hsum]
      · rw [List.tail_cons, hlast, hnew, Nat.mul_add_div (Nat.two_pow_pos _), Nat.div_eq_of_lt hsum, Nat.add_zero]
      · intro c hc
        rcases List.mem_cons.1 hc with rfl | hc
        · exact Nat.mod_lt _ (by decide)
        · exact h.bound c (List.mem_cons_of_mem _ hc)

theorem longAccum_inv (l2 : Nat) (hl : l2 = 1 ∨ l2 = 4) : ∀ (s : Bytes), DigitString (2 ^ l2) s →
    ∀ n nn val v, nn % 64 = n % 64 → n % l2 = 0 →
    ((n = 0 ∧ val = 0 ∧ v = []) ∨ (0 < n ∧ LongInv n val v)) →
    (n + l2 * (digitsOf s).length = 0 ∧ longAccum l2 nn v s = []) ∨
    LongInv (n + l2 * (digitsOf s).length) ((digitsOf s).foldl (fun v d => v * 2 ^ l2 + d) val)
      (longAccum l2 nn v s) := by
  intro s
  induction s with
  | nil =>
    intro _ n nn val v _ _ h
    rcases h with ⟨rfl, rfl, rfl⟩ | ⟨_, h⟩
    · exact Or.inl ⟨rfl, rfl⟩
    · exact Or.inr (by simpa [digitsOf, longAccum] using h)
  | cons c cs ih =>
    intro hs n nn val v hnn hn h
    have hs' : DigitString (2 ^ l2) cs := fun x hx => hs x (List.mem_cons_of_mem _ hx)
    rcases hs c List.mem_cons_self with rfl | ⟨d, hd, hlt⟩
    · have e : digitOf 0x5f = -1 := by decide
      have e1 : digitsOf (0x5f :: cs) = digitsOf cs := by simp [digitsOf, digitValue_us]
      rw [longAccum, if_pos e, e1]
      exact ih hs' n nn val v hnn hn h
    · have e : digitOf c = (d : Int) := by rw [digitOf_spec, hd]
      have e1 : ¬ digitOf c = -1 := by rw [e]; omega
      have e2 : digitsOf (c :: cs) = d :: digitsOf cs := by simp [digitsOf, hd]
      rw [longAccum, if_neg e1, e2, e, Int.toNat_natCast, List.length_cons, List.foldl_cons]
      have hstep := longAccum_step l2 hl n nn val d v hlt hnn hn h
      have hpos : 0 < l2 := by omega
      have := ih hs' (n + l2) ((nn + l2) % 2 ^ 32) (val * 2 ^ l2 + d) _ (by rcases hl with rfl | rfl <;> omega)
        (by rw [Nat.add_mod_right]; exact hn) (Or.inr ⟨by omega, hstep⟩)
      have e3 : n + l2 + l2 * (digitsOf cs).length = n + l2 * ((digitsOf cs).length + 1) := by
        rw [Nat.mul_add]; omega
      rw [e3] at this
      exact this

theorem longP_text (l2 : Nat) (hl : l2 = 1 ∨ l2 = 4) (g d rest : Bytes) (hg : Blank g)
    (hd' : DigitString (2 ^ l2) d) (hne : digitsOf d ≠ []) (hrest : isDig (2 ^ l2) (hd rest) = false) :
    (longP l2 (g ++ d ++ rest)).2 = rest ∧
      LongInv (l2 * (digitsOf d).length) (numVal (2 ^ l2) d) (longP l2 (g ++ d ++ rest)).1 := by
  have hr : 2 ^ l2 ≤ 16 := by rcases hl with rfl | rfl <;> decide
  have hdne : d ≠ [] := by rintro rfl; exact hne rfl
  unfold longP
  have h1 : (g ++ d ++ rest).dropWhile isBlank = d ++ rest := by
    rw [List.append_assoc]
    refine dropBlank g _ hg ?_
    cases d with
    | nil => exact absurd rfl hdne
    | cons x xs => exact dig_not_blank hd' x List.mem_cons_self
  rw [h1]
  have h2 := span_eq (isDig (2 ^ l2)) d rest (isDig_of hd') (isDig_nl hr) hrest
  dsimp only
  rw [h2.1, h2.2]
  refine ⟨rfl, ?_⟩
  have hlen : 0 < (digitsOf d).length := List.length_pos_iff.2 hne
  have hpos : 0 < l2 * (digitsOf d).length := Nat.mul_pos (by omega) hlen
  have hinv := longAccum_inv l2 hl d hd' 0 0 0 [] rfl (Nat.zero_mod _) (Or.inl ⟨rfl, rfl, rfl⟩)
  rw [Nat.zero_add] at hinv
  rcases hinv with ⟨h, _⟩ | hinv
  · omega
  · have : (longAccum l2 0 [] d).isEmpty = false := by
      have := hinv.len
      cases hv : longAccum l2 0 [] d with
      | nil => rw [hv] at this; simp at this; omega
      | cons => rfl
    rw [this]
    exact hinv

/-! ## The parts of a line -/

theorem hd_cons (c : UInt8) (s : Bytes) : hd (c :: s) = c := rfl

theorem gap_not_dig {radix : Nat} (hr : radix ≤ 16) (g rest : Bytes) (hg : Blank g)
    (h : isDig radix (hd rest) = false) : isDig radix (hd (g ++ rest)) = false :=
  hd_append _ _ _ (blank_not_dig hr hg) h

theorem digitsOf_ne {d : Bytes} (h : digitsOf d ≠ []) : d ≠ [] := by rintro rfl; exact h rfl

/-- What follows the range is neither blank nor an opening bracket. -/
def AfterRange (rest : Bytes) : Prop := isBlank (hd rest) = false ∧ hd rest ≠ chLBrack

theorem rangeP_text (g : Nat → Bytes) (hg : ∀ i, Blank (g i)) (r : RangeText) (hr : r.WellFormed) (rest : Bytes)
    (hrest : AfterRange rest) :
    (rangeP (r.text g ++ rest)).1 = .bits r.hi r.lo ∧
    (rangeP (r.text g ++ rest)).2.dropWhile isBlank = rest := by
  cases r with
  | absent =>
    simp only [RangeText.text, List.nil_append, RangeText.hi, RangeText.lo]
    unfold rangeP
    rw [if_neg hrest.2]
    refine ⟨rfl, ?_⟩
    exact dropBlank [] rest (by intro c hc; cases hc) hrest.1
  | bit d =>
    obtain ⟨h1, h2, h3⟩ := hr
    simp only [RangeText.text, RangeText.hi, RangeText.lo, List.cons_append, List.append_assoc]
    unfold rangeP
    rw [if_pos (hd_cons _ _), List.tail_cons]
    have hn := numP_text 10 16 (by decide) (g 2) d (g 3 ++ (0x5d :: (g 6 ++ rest))) (hg 2) h1 (digitsOf_ne h2)
      (gap_not_dig (by decide) _ _ (hg 3) (by rw [hd_cons]; decide))
    rw [List.append_assoc] at hn
    rw [hn]
    simp only [dropBlank (g 3) (0x5d :: (g 6 ++ rest)) (hg 3) (by rw [hd_cons]; decide)]
    have hv : numVal 10 d % 2 ^ 16 = numVal 10 d := Nat.mod_eq_of_lt h3
    rw [hv]
    have hm : rangeMinP (numVal 10 d) (0x5d :: (g 6 ++ rest)) = (numVal 10 d, 0x5d :: (g 6 ++ rest)) :=
      if_neg (show ¬ hd (0x5d :: (g 6 ++ rest)) = chColon by rw [hd_cons]; decide)
    simp only [hm, hd_cons, ne_eq, not_true, if_false, Nat.lt_irrefl, List.tail_cons, true_and]
    exact dropBlank (g 6) rest (hg 6) hrest.1
  | span hi lo =>
    obtain ⟨h1, h2, h3, h4, h5, h6⟩ := hr
    simp only [RangeText.text, RangeText.hi, RangeText.lo, List.cons_append, List.append_assoc]
    unfold rangeP
    rw [if_pos (hd_cons _ _), List.tail_cons]
    have hn := numP_text 10 16 (by decide) (g 2) hi (g 3 ++ (0x3a :: (g 4 ++ (lo ++ (g 5 ++ 0x5d :: (g 6 ++ rest))))))
      (hg 2) h1 (digitsOf_ne h2) (gap_not_dig (by decide) _ _ (hg 3) (by rw [hd_cons]; decide))
    rw [List.append_assoc] at hn
    rw [hn]
    have hn2 := numP_text 10 16 (by decide) (g 4) lo (g 5 ++ (0x5d :: (g 6 ++ rest)))
      (hg 4) h4 (digitsOf_ne h5) (gap_not_dig (by decide) _ _ (hg 5) (by rw [hd_cons]; decide))
    rw [List.append_assoc] at hn2
    simp only [dropBlank (g 3) (0x3a :: (g 4 ++ (lo ++ (g 5 ++ 0x5d :: (g 6 ++ rest))))) (hg 3) (by rw [hd_cons]; decide)]
    have hv : numVal 10 hi % 2 ^ 16 = numVal 10 hi := Nat.mod_eq_of_lt h3
    have hv2 : numVal 10 lo % 2 ^ 16 = numVal 10 lo := Nat.mod_eq_of_lt (Nat.lt_of_le_of_lt h6 h3)
    rw [hv]
    simp only [rangeMinP, hd_cons, if_true, List.tail_cons, hn2, hv2,
      dropBlank (g 5) (0x5d :: (g 6 ++ rest)) (hg 5) (by rw [hd_cons]; decide), ne_eq, not_true, if_false,
      Nat.not_lt.2 h6, true_and]
    exact dropBlank (g 6) rest (hg 6) hrest.1

/-- Chunks of the value of a well-formed line, as the parser accumulates them. -/
structure ChunksOf (v : ValueText) (chunks : List Nat) : Prop where
  narrow : v.digitBits ≤ 64 → ∃ c, chunks = [c] ∧ c = v.val % 2 ^ 64
  wide : 0 < v.digitBits → LongInv v.digitBits v.val chunks

/-- What follows the value: not blank, not a digit, tick or `=`. -/
def AfterValue (rest : Bytes) : Prop :=
  isBlank (hd rest) = false ∧ isDig 16 (hd rest) = false ∧ hd rest ≠ chTick ∧ hd rest ≠ chEq

theorem isDig_le {a b : Nat} (h : a ≤ b) {c : UInt8} (hc : isDig b c = false) : isDig a c = false := by
  simp only [isDig, decide_eq_false_iff_not] at hc ⊢; omega

/-- State after the warnings of the value part. -/
def St.warn (st : St) (line : Nat) (sevs : List Sev) : St := sevs.foldl (fun st s => st.report line s) st

/-- Range wider than 64 bits with an integer format. -/
def clamps (f : FeatureText) : Bool :=
  decide (f.range.width > 64) && (match f.value with
    | .plain _ => true
    | .based _ .dec _ => true
    | .based _ .oct _ => true
    | _ => false)

theorem lead_text (g d rest : Bytes) (hg : Blank g) (h : DigitString 10 d) (hne : d ≠ [])
    (hrest : isDig 10 (hd rest) = false) :
    leadP ((g ++ (d ++ rest)).dropWhile isBlank) = (numVal 10 d % 2 ^ 64, rest) := by
  cases d with
  | nil => exact absurd rfl hne
  | cons x xs =>
    rw [dropBlank g (x :: xs ++ rest) hg (dig_not_blank h x List.mem_cons_self)]
    unfold leadP
    have : isDig 10 x = true := isDig_of h x List.mem_cons_self
    have h9 : digitOf (hd (x :: xs ++ rest)) ≤ 9 := by
      have : digitOf x < 10 := of_decide_eq_true this
      show digitOf x ≤ 9; omega
    rw [if_pos h9]
    have := numP_text 10 64 (by decide) [] (x :: xs) rest (by intro c hc; cases hc) h (by simp) hrest
    simpa using this

theorem numVal_bound_digitBits (v : ValueText) (hwf : v.WellFormed) : v.digitBits = 0 → 
    (∀ w d, v ≠ .based w .hex d ∧ v ≠ .based w .bin d) := by
  intro h w d
  constructor <;> rintro rfl <;>
  · obtain ⟨_, _, _, hne⟩ := hwf
    have hlen : 0 < (digitsOf d).length := List.length_pos_iff.2 hne
    simp only [ValueText.digitBits, Base.digitBits] at h
    omega

theorem wide_chunks {n val : Nat} {v : List Nat} (h : LongInv n val v) (hn : 0 < n) (hv : val < 2 ^ n) (hle : n ≤ 64) :
    ∃ c, v = [c] ∧ c = val % 2 ^ 64 := by
  have hl := h.len
  have h1 : (n + 63) / 64 = 1 := by omega
  rw [h1] at hl
  obtain ⟨c, rfl⟩ := List.length_eq_one_iff.1 hl
  refine ⟨c, rfl, ?_⟩
  have := h.low
  have hb : lastBits n = n := by unfold lastBits; split <;> omega
  rw [hb] at this
  have e : val % 2 ^ n = val := Nat.mod_eq_of_lt hv
  have e2 : val % 2 ^ 64 = val := Nat.mod_eq_of_lt (Nat.lt_of_lt_of_le hv (Nat.pow_le_pow_right (by decide) hle))
  rw [e2]; rw [e] at this; exact this

theorem foldl_bound (l2 : Nat) : ∀ (ds : List Nat), (∀ d ∈ ds, d < 2 ^ l2) → ∀ v n, v < 2 ^ n →
    ds.foldl (fun v d => v * 2 ^ l2 + d) v < 2 ^ (n + l2 * ds.length) := by
  intro ds
  induction ds with
  | nil => intro _ v n h; simpa using h
  | cons d ds ih =>
    intro hd v n hv
    rw [List.foldl_cons]
    have h1 : v * 2 ^ l2 + d < 2 ^ (n + l2) := by
      have := hd d List.mem_cons_self
      rw [Nat.pow_add]
      calc v * 2 ^ l2 + d < v * 2 ^ l2 + 2 ^ l2 := by omega
        _ = (v + 1) * 2 ^ l2 := by rw [Nat.add_mul, Nat.one_mul]
        _ ≤ 2 ^ n * 2 ^ l2 := Nat.mul_le_mul_right _ hv
    have := ih (fun x hx => hd x (List.mem_cons_of_mem _ hx)) _ _ h1
    rw [List.length_cons, Nat.mul_add, Nat.mul_one, Nat.add_comm (l2 * ds.length), ← Nat.add_assoc]
    exact this

theorem digitsOf_lt {radix : Nat} {s : Bytes} (h : DigitString radix s) : ∀ d ∈ digitsOf s, d < radix := by
  intro d hd
  obtain ⟨c, hc, e⟩ := List.mem_filterMap.1 hd
  rcases h c hc with rfl | ⟨d', hd', hlt⟩
  · rw [digitValue_us] at e; cases e
  · rw [hd'] at e; cases e; exact hlt

theorem numVal_lt (l2 : Nat) (d : Bytes) (h : DigitString (2 ^ l2) d) :
    numVal (2 ^ l2) d < 2 ^ (l2 * (digitsOf d).length) := by
  have := foldl_bound l2 (digitsOf d) (digitsOf_lt h) 0 0 (by decide)
  rw [Nat.zero_add] at this
  exact this

theorem valueP_text (st : St) (line : Nat) (g10 d rest w : Bytes) (b : Base) (hg : Blank g10)
    (hd' : DigitString b.radix d) (hne : digitsOf d ≠ []) (hrest : isDig 16 (hd rest) = false) :
    (valueP st line b.letter (g10 ++ (d ++ rest))).1 = st ∧
    ChunksOf (.based w b d) (valueP st line b.letter (g10 ++ (d ++ rest))).2.1 ∧
    (valueP st line b.letter (g10 ++ (d ++ rest))).2.2 = rest := by
  rw [← List.append_assoc]
  have hlen : 0 < (digitsOf d).length := List.length_pos_iff.2 hne
  cases b with
  | hex =>
    have h := longP_text 4 (Or.inr rfl) g10 d rest hg hd' hne hrest
    have e : valueP st line Base.hex.letter (g10 ++ d ++ rest) = (st, longP 4 (g10 ++ d ++ rest)) := rfl
    rw [e]
    refine ⟨rfl, ⟨fun hle => ?_, fun _ => h.2⟩, h.1⟩
    exact wide_chunks h.2 (by omega) (numVal_lt 4 d hd') hle
  | bin =>
    have h := longP_text 1 (Or.inl rfl) g10 d rest hg hd' hne (isDig_le (by decide) hrest)
    have e : valueP st line Base.bin.letter (g10 ++ d ++ rest) = (st, longP 1 (g10 ++ d ++ rest)) := rfl
    rw [e]
    refine ⟨rfl, ⟨fun hle => ?_, fun _ => h.2⟩, h.1⟩
    exact wide_chunks h.2 (by omega) (numVal_lt 1 d hd') hle
  | oct =>
    have h := numP_text 8 64 (by decide) g10 d rest hg hd' (digitsOf_ne hne) (isDig_le (by decide) hrest)
    have e : valueP st line Base.oct.letter (g10 ++ d ++ rest) =
      (st, [(numP 8 64 (g10 ++ d ++ rest)).1], (numP 8 64 (g10 ++ d ++ rest)).2) := rfl
    rw [e, h]
    refine ⟨rfl, ⟨fun _ => ⟨_, rfl, rfl⟩, fun h => ?_⟩, rfl⟩
    simp [ValueText.digitBits, Base.digitBits] at h
  | dec =>
    have h := numP_text 10 64 (by decide) g10 d rest hg hd' (digitsOf_ne hne) (isDig_le (by decide) hrest)
    have e : valueP st line Base.dec.letter (g10 ++ d ++ rest) =
      (st, [(numP 10 64 (g10 ++ d ++ rest)).1], (numP 10 64 (g10 ++ d ++ rest)).2) := rfl
    rw [e, h]
    refine ⟨rfl, ⟨fun _ => ⟨_, rfl, rfl⟩, fun h => ?_⟩, rfl⟩
    simp [ValueText.digitBits, Base.digitBits] at h

theorem assignP_ticked (st : St) (line mx mn v : Nat) (t u : Bytes)
    (h1 : (leadP (t.dropWhile isBlank)).1 = v)
    (h2 : (leadP (t.dropWhile isBlank)).2.dropWhile isBlank = chTick :: u) :
    assignP st line mx mn (chEq :: t) = tickedP st line (mx - mn + 1) v u := by
  unfold assignP
  simp only [hd_cons, if_true, List.tail_cons, h1, h2]

/-- State and width after the assignment part of a well-formed line. -/
theorem assignP_text (g : Nat → Bytes) (hg : ∀ i, Blank (g i)) (st : St) (line : Nat) (f : FeatureText)
    (hwf : f.value.WellFormed) (rest : Bytes) (hrest : AfterValue rest) :
    (assignP st line f.range.hi f.range.lo (f.value.text g ++ rest)).1 =
      st.warn line (f.warnings ++ if clamps f then [.error] else []) ∧
    (assignP st line f.range.hi f.range.lo (f.value.text g ++ rest)).2.1 =
      (if clamps f then 64 else f.range.width) ∧
    ChunksOf f.value (assignP st line f.range.hi f.range.lo (f.value.text g ++ rest)).2.2.1 ∧
    (assignP st line f.range.hi f.range.lo (f.value.text g ++ rest)).2.2.2 = rest := by
  obtain ⟨hb, hd16, htick, heq⟩ := hrest
  have hd10 := isDig_le (by decide : 10 ≤ 16) hd16
  obtain ⟨name, range, value⟩ := f
  cases value with
  | absent =>
    simp only [ValueText.text, List.nil_append, FeatureText.warnings, clamps, Bool.and_false]
    unfold assignP
    simp only [heq, if_false]
    refine ⟨?_, rfl, ⟨fun _ => ⟨1, rfl, rfl⟩, fun h => ?_⟩, trivial⟩
    · split <;> rfl
    · simp [ValueText.digitBits] at h
  | plain d =>
    obtain ⟨h1, h2⟩ := hwf
    have hl := lead_text (g 7) d (g 8 ++ rest) (hg 7) h1 (digitsOf_ne h2) (gap_not_dig (by decide) _ _ (hg 8) hd10)
    simp only [ValueText.text, List.cons_append, List.append_assoc, FeatureText.warnings, clamps, Bool.and_true]
    unfold assignP
    simp only [hd_cons, if_true, List.tail_cons, hl, dropBlank (g 8) rest (hg 8) hb, htick, if_false]
    unfold clampWidth
    change _ ∧ _ ∧ ChunksOf _ [numVal 10 d % 2 ^ 64] ∧ _
    by_cases hw : range.width > 64
    · have hw' : range.hi - range.lo + 1 > 64 := hw
      simp only [hw, hw', true_and, if_true, decide_true]
      exact ⟨rfl, ⟨fun _ => ⟨_, rfl, rfl⟩, fun h => by simp [ValueText.digitBits] at h⟩, trivial⟩
    · have hw' : ¬ range.hi - range.lo + 1 > 64 := hw
      simp only [hw, hw', false_and, if_false, decide_false, Bool.false_eq_true]
      exact ⟨rfl, rfl, ⟨fun _ => ⟨_, rfl, rfl⟩, fun h => by simp [ValueText.digitBits] at h⟩, trivial⟩
  | based w b d =>
    obtain ⟨h1, h2, h3, h4⟩ := hwf
    simp only [ValueText.text, List.cons_append, List.append_assoc]
    have hletter : isBlank b.letter = false := by cases b <;> decide
    -- the declared width
    have hlead : (leadP ((g 7 ++ (w ++ (g 8 ++ 0x27 :: (g 9 ++ b.letter :: (g 10 ++ (d ++ (g 11 ++ rest))))))).dropWhile isBlank)).1
          = numVal 10 w ∧
        (leadP ((g 7 ++ (w ++ (g 8 ++ 0x27 :: (g 9 ++ b.letter :: (g 10 ++ (d ++ (g 11 ++ rest))))))).dropWhile isBlank)).2.dropWhile isBlank
          = 0x27 :: (g 9 ++ b.letter :: (g 10 ++ (d ++ (g 11 ++ rest)))) := by
      by_cases hw : w = []
      · subst hw
        rw [List.nil_append, ← List.append_assoc]
        have hgg : Blank (g 7 ++ g 8) := by
          intro c hc
          rcases List.mem_append.1 hc with h | h
          · exact hg 7 c h
          · exact hg 8 c h
        rw [dropBlank _ _ hgg (by rw [hd_cons]; decide)]
        unfold leadP
        rw [hd_cons, if_neg (by decide : ¬ digitOf 0x27 ≤ 9)]
        exact ⟨rfl, dropBlank [] _ (by intro c hc; cases hc) (by rw [hd_cons]; decide)⟩
      · rw [lead_text (g 7) w _ (hg 7) h1 hw (gap_not_dig (by decide) _ _ (hg 8) (by rw [hd_cons]; decide))]
        exact ⟨Nat.mod_eq_of_lt h2, dropBlank (g 8) _ (hg 8) (by rw [hd_cons]; decide)⟩
    rw [assignP_ticked _ _ _ _ _ _ _ hlead.1 hlead.2]
    unfold tickedP
    simp only [dropBlank (g 9) (b.letter :: (g 10 ++ (d ++ (g 11 ++ rest)))) (hg 9) (by rw [hd_cons]; exact hletter),
      hd_cons, List.tail_cons]
    have hv := fun st => valueP_text st line (g 10) d (g 11 ++ rest) w b (hg 10) h3 h4
      (gap_not_dig (by decide) _ _ (hg 11) hd16)
    refine ⟨?_, ?_, (hv _).2.1, ?_⟩
    · rw [(hv _).1]
      unfold clampWidth
      simp only [FeatureText.warnings, clamps, RangeText.width]
      cases b <;> simp only [Base.letter] <;> by_cases hA : numVal 10 w > range.hi - range.lo + 1 <;>
        by_cases hB : range.hi - range.lo + 1 > 64 <;>
        simp [hA, hB, St.warn]
    · unfold clampWidth
      simp only [clamps, RangeText.width]
      cases b <;> simp only [Base.letter] <;> by_cases hB : range.hi - range.lo + 1 > 64 <;> simp [hB]
    · rw [(hv _).2.2]
      exact dropBlank (g 11) rest (hg 11) hb

end Verif.Fasm
