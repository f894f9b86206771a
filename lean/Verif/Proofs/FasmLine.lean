import Verif.Model.Fasm
/-! # The FASM parser on one line

`lineP` is the effect of a line body (without its newline), with the end of the list in the role of
the newline; `parseLine_eq` shows the parser does exactly this and stops after the newline. -/
namespace Verif.Fasm

def isBlank (c : UInt8) : Bool := decide (c = chSpace ∨ c = chTab)
def isDig (base : Nat) (c : UInt8) : Bool := decide (digitOf c < (base : Int))
/-- The current character of a line body. -/
def hd (s : Bytes) : UInt8 := s.headD chNl

theorem isIdent_nl : isIdent chNl = false := by decide
theorem digitOf_nl : digitOf chNl = 99 := by decide

theorem hd_ne_nl {s : Bytes} {c : UInt8} (h : hd s = c) (hc : c ≠ chNl) : s = c :: s.tail := by
  cases s with
  | nil => exact absurd h.symm hc
  | cons x xs => simp only [hd, List.headD_cons] at h; rw [h]; rfl

theorem cur_nl (s rest : Bytes) : cur (s ++ chNl :: rest) = .ok (hd s) := by
  cases s <;> rfl

theorem adv_nl (s rest : Bytes) (h : s ≠ []) : adv (s ++ chNl :: rest) = s.tail ++ chNl :: rest := by
  cases s with
  | nil => exact absurd rfl h
  | cons => rfl

theorem skipBlank_nl (s rest : Bytes) :
    skipBlank (s ++ chNl :: rest) = .ok (s.dropWhile isBlank ++ chNl :: rest) := by
  induction s with
  | nil => rfl
  | cons c cs ih =>
    simp only [List.cons_append, skipBlank, List.dropWhile_cons, isBlank]
    by_cases h : c = chSpace ∨ c = chTab
    · simp only [h, if_true, decide_true]; exact ih
    · simp only [h, if_false, decide_false]; rfl

theorem skipToEol_nl (s rest : Bytes) (hs : chNl ∉ s) :
    skipToEol (s ++ chNl :: rest) = .ok (chNl :: rest) := by
  induction s with
  | nil => rfl
  | cons c cs ih =>
    have hc : c ≠ chNl := by rintro rfl; exact hs List.mem_cons_self
    simp only [List.cons_append, skipToEol, hc, if_false]
    exact ih (fun h => hs (List.mem_cons_of_mem _ h))

theorem ident_nl (s rest : Bytes) :
    ident (s ++ chNl :: rest) = .ok (s.takeWhile isIdent, s.dropWhile isIdent ++ chNl :: rest) := by
  induction s with
  | nil => rfl
  | cons c cs ih =>
    simp only [List.cons_append, ident, List.dropWhile_cons, List.takeWhile_cons]
    cases h : isIdent c
    · rfl
    · simp only [if_true, ih]; rfl

/-- Accumulating digits, separators ignored. -/
def accum (base bits : Nat) (v : Nat) (ds : Bytes) : Nat :=
  ds.foldl (fun v c => if digitOf c = -1 then v else (v * base + (digitOf c).toNat) % 2 ^ bits) v

theorem digits_nl (base bits : Nat) (hb : base ≤ 16) (s rest : Bytes) : ∀ v,
    digits base bits v (s ++ chNl :: rest) =
      .ok (accum base bits v (s.takeWhile (isDig base)), s.dropWhile (isDig base) ++ chNl :: rest) := by
  have hnl : ¬ digitOf chNl < (base : Int) := by rw [digitOf_nl]; omega
  induction s with
  | nil => intro v; simp only [List.nil_append, digits, hnl, if_false]; rfl
  | cons c cs ih =>
    intro v
    simp only [List.cons_append, digits, List.dropWhile_cons, List.takeWhile_cons, isDig]
    by_cases h : digitOf c < (base : Int)
    · simp only [h, if_true, decide_true]
      by_cases h1 : digitOf c = -1
      · simp only [h1, if_true, ih]
        simp only [accum, List.foldl_cons, h1, if_true]
      · simp only [h1, if_false, ih]
        simp only [accum, List.foldl_cons, h1, if_false]
    · simp only [h, if_false, decide_false]; rfl

def numP (base bits : Nat) (s : Bytes) : Nat × Bytes :=
  let s := s.dropWhile isBlank
  (accum base bits 0 (s.takeWhile (isDig base)), s.dropWhile (isDig base))

theorem number_nl (base bits : Nat) (hb : base ≤ 16) (s rest : Bytes) :
    number base bits 0 (s ++ chNl :: rest) = .ok ((numP base bits s).1, (numP base bits s).2 ++ chNl :: rest) := by
  rw [number, skipBlank_nl]
  exact digits_nl base bits hb _ rest 0

/-- Chunks accumulated from a digit string, last chunk first. -/
def longAccum (l2base : Nat) : Nat → List Nat → Bytes → List Nat
  | _, v, [] => v
  | n, v, c :: cs =>
    if digitOf c = -1 then longAccum l2base n v cs
    else
      let v := if n % 64 = 0 then 0 :: v else v
      longAccum l2base ((n + l2base) % 2 ^ 32)
        ((v.headD 0 * 2 ^ l2base + (digitOf c).toNat) % 2 ^ 64 :: v.tail) cs

theorem longDigits_nl (l2base : Nat) (hb : l2base ≤ 4) (s rest : Bytes) : ∀ n v, (n % 64 = 0 ∨ v ≠ []) →
    longDigits l2base n v (s ++ chNl :: rest) =
      .ok (longAccum l2base n v (s.takeWhile (isDig (2 ^ l2base))),
        s.dropWhile (isDig (2 ^ l2base)) ++ chNl :: rest) := by
  have h16 : 2 ^ l2base ≤ 16 := by
    calc 2 ^ l2base ≤ 2 ^ 4 := Nat.pow_le_pow_right (by omega) hb
      _ = 16 := rfl
  have hnl : ¬ digitOf chNl < ((2 ^ l2base : Nat) : Int) := by rw [digitOf_nl]; omega
  induction s with
  | nil => intro n v _; simp only [List.nil_append, longDigits, hnl, if_false]; rfl
  | cons c cs ih =>
    intro n v hv
    simp only [List.cons_append, longDigits, List.dropWhile_cons, List.takeWhile_cons, isDig]
    by_cases h : digitOf c < ((2 ^ l2base : Nat) : Int)
    · simp only [h, if_true, decide_true]
      by_cases h1 : digitOf c = -1
      · simp only [h1, if_true, ih n v hv, longAccum]
      · simp only [h1, if_false, longAccum]
        have hne : (if n % 64 = 0 then 0 :: v else v) ≠ [] := by
          split
          · simp
          · rename_i h2; exact hv.resolve_left h2
        cases hw : (if n % 64 = 0 then 0 :: v else v) with
        | nil => exact absurd hw hne
        | cons b bs =>
          simp only [List.headD_cons, List.tail_cons]
          rw [ih _ _ (Or.inr (by simp))]
    · simp only [h, if_false, decide_false]; rfl

def longP (l2base : Nat) (s : Bytes) : List Nat × Bytes :=
  let s := s.dropWhile isBlank
  let v := longAccum l2base 0 [] (s.takeWhile (isDig (2 ^ l2base)))
  (if v.isEmpty then [0] else v, s.dropWhile (isDig (2 ^ l2base)))

theorem longNumber_nl (l2base : Nat) (hb : l2base ≤ 4) (s rest : Bytes) :
    longNumber l2base (s ++ chNl :: rest) = .ok ((longP l2base s).1, (longP l2base s).2 ++ chNl :: rest) := by
  rw [longNumber, skipBlank_nl]
  simp only [Res.bind_ok]
  rw [longDigits_nl l2base hb _ rest 0 [] (Or.inl rfl)]
  rfl

/-! ## Range -/

def rangeMinP (maxBit : Nat) (s : Bytes) : Nat × Bytes :=
  if hd s = chColon then ((numP 10 16 s.tail).1, (numP 10 16 s.tail).2.dropWhile isBlank) else (maxBit, s)

def rangeP (s : Bytes) : Range × Bytes :=
  if hd s = chLBrack then
    let n1 := numP 10 16 s.tail
    let r := rangeMinP n1.1 (n1.2.dropWhile isBlank)
    if hd r.2 ≠ chRBrack then (.noBracket, r.2)
    else if n1.1 < r.1 then (.inverted, r.2.tail)
    else (.bits n1.1 r.1, r.2.tail)
  else (.bits 0 0, s)

theorem ne_nil_of_hd {s : Bytes} {c : UInt8} (h : hd s = c) (hc : c ≠ chNl) : s ≠ [] := by
  rintro rfl; exact hc h.symm

theorem rangeMin_nl (m : Nat) (s rest : Bytes) :
    rangeMin m (s ++ chNl :: rest) = .ok ((rangeMinP m s).1, (rangeMinP m s).2 ++ chNl :: rest) := by
  unfold rangeMin rangeMinP
  simp only [cur_nl, Res.bind_ok]
  by_cases h : hd s = chColon
  · simp only [h, if_true, adv_nl s rest (ne_nil_of_hd h (by decide)),
      number_nl 10 16 (by decide), skipBlank_nl, Res.bind_ok, Res.pure_eq]
  · simp only [h, if_false, Res.pure_eq]

theorem parseRange_nl (s rest : Bytes) :
    parseRange (s ++ chNl :: rest) = .ok ((rangeP s).1, (rangeP s).2 ++ chNl :: rest) := by
  unfold parseRange rangeP
  simp only [cur_nl, Res.bind_ok]
  by_cases h : hd s = chLBrack
  · simp only [h, if_true, adv_nl s rest (ne_nil_of_hd h (by decide)),
      number_nl 10 16 (by decide), skipBlank_nl, rangeMin_nl, Res.bind_ok, cur_nl, Res.pure_eq]
    generalize rangeMinP _ _ = r
    by_cases h2 : hd r.2 = chRBrack
    · rw [adv_nl _ rest (ne_nil_of_hd h2 (by decide))]
      simp only [h2, ne_eq, not_true, if_false]
      split <;> rfl
    · simp only [h2, ne_eq, not_false_eq_true, if_true]
  · simp only [h, if_false, Res.pure_eq]

/-! ## Assignment -/

def valueP (st : St) (line : Nat) (format : UInt8) (s : Bytes) : St × List Nat × Bytes :=
  if format = 0x68 then (st, longP 4 s)
  else if format = 0x62 then (st, longP 1 s)
  else if format = 0x6f then (st, [(numP 8 64 s).1], (numP 8 64 s).2)
  else if format = 0x64 then (st, [(numP 10 64 s).1], (numP 10 64 s).2)
  else (st.report line .error, [1], [])

/-- The decimal number after `=`, if any. -/
def leadP (s : Bytes) : Nat × Bytes := if digitOf (hd s) ≤ 9 then numP 10 64 s else (0, s)

def tickedP (st : St) (line width declared : Nat) (s : Bytes) : St × Nat × List Nat × Bytes :=
  let s2 := s.dropWhile isBlank
  let st := if declared > width then st.report line .nonCritical else st
  let w := clampWidth st line width (hd s2 = 0x64 ∨ hd s2 = 0x6f)
  let r := valueP w.1 line (hd s2) s2.tail
  (r.1, w.2, r.2.1, r.2.2.dropWhile isBlank)

def assignP (st : St) (line maxBit minBit : Nat) (s : Bytes) : St × Nat × List Nat × Bytes :=
  let width := maxBit - minBit + 1
  if hd s = chEq then
    let v := leadP (s.tail.dropWhile isBlank)
    let s1 := v.2.dropWhile isBlank
    if hd s1 = chTick then tickedP st line width v.1 s1.tail
    else
      let w := clampWidth st line width true
      (w.1, w.2, [v.1], s1)
  else
    (if minBit ≠ maxBit then st.report line .info else st, width, [1], s)

/-- No tick followed only by blanks up to the end of the line, except after a `#`. -/
def TickOk (s : Bytes) : Prop :=
  ∀ pre blanks, s = pre ++ chTick :: blanks → chHash ∉ pre → blanks.dropWhile isBlank ≠ []

/-- `t` is what is left of `s` after consuming characters other than `#`. -/
def Past (s t : Bytes) : Prop := ∃ pre, s = pre ++ t ∧ chHash ∉ pre

theorem TickOk.past {s t : Bytes} (h : TickOk s) (ht : Past s t) : TickOk t := by
  obtain ⟨u, rfl, hu⟩ := ht
  intro pre blanks e hp
  exact h (u ++ pre) blanks (by rw [e]; simp) (by simp [hu, hp])

theorem Past.refl (s : Bytes) : Past s s := ⟨[], rfl, by simp⟩

theorem Past.trans {s t u : Bytes} (h1 : Past s t) (h2 : Past t u) : Past s u := by
  obtain ⟨p, rfl, hp⟩ := h1
  obtain ⟨q, rfl, hq⟩ := h2
  exact ⟨p ++ q, by simp, by simp [hp, hq]⟩

theorem past_dropWhile (p : UInt8 → Bool) (hp : p chHash = false) (s : Bytes) : Past s (s.dropWhile p) := by
  induction s with
  | nil => exact Past.refl _
  | cons c cs ih =>
    rw [List.dropWhile_cons]
    split
    · rename_i hc
      refine Past.trans ⟨[c], rfl, ?_⟩ ih
      rw [List.mem_singleton]
      rintro rfl
      rw [hp] at hc
      exact absurd hc (by decide)
    · exact Past.refl _

theorem past_blank (s : Bytes) : Past s (s.dropWhile isBlank) := past_dropWhile isBlank (by decide) s

theorem past_tail {s : Bytes} {c : UInt8} (h : hd s = c) (hc : c ≠ chHash) : Past s s.tail := by
  cases s with
  | nil => exact Past.refl _
  | cons x xs =>
    refine ⟨[x], rfl, ?_⟩
    rw [List.mem_singleton]
    rintro rfl
    exact hc h.symm

theorem isDig_hash (base : Nat) (hb : base ≤ 16) : isDig base chHash = false := by
  have : digitOf chHash = 99 := by decide
  simp only [isDig, this, decide_eq_false_iff_not]; omega

theorem numP_past (base bits : Nat) (hb : base ≤ 16) (s : Bytes) : Past s (numP base bits s).2 :=
  (past_blank s).trans (past_dropWhile _ (isDig_hash base hb) _)

theorem leadP_past (s : Bytes) : Past s (leadP s).2 := by
  unfold leadP; split
  · exact numP_past 10 64 (by decide) s
  · exact Past.refl s

theorem rangeMinP_past (m : Nat) (s : Bytes) : Past s (rangeMinP m s).2 := by
  unfold rangeMinP
  split
  · rename_i h
    exact (past_tail h (by decide)).trans ((numP_past 10 16 (by decide) _).trans (past_blank _))
  · exact Past.refl s

theorem rangeP_past (s : Bytes) : Past s (rangeP s).2 := by
  unfold rangeP
  split
  · rename_i h
    have h1 := (past_tail h (by decide)).trans ((numP_past 10 16 (by decide) s.tail).trans
      ((past_blank _).trans (rangeMinP_past (numP 10 16 s.tail).1 _)))
    dsimp only
    split
    · exact h1
    · rename_i h2
      have h2 : hd (rangeMinP (numP 10 16 s.tail).1 ((numP 10 16 s.tail).2.dropWhile isBlank)).2 = chRBrack := by
        simpa using h2
      split <;> exact h1.trans (past_tail h2 (by decide))
  · exact Past.refl s

theorem dropWhile_suffix' (p : UInt8 → Bool) (s : Bytes) : s.dropWhile p <:+ s := List.dropWhile_suffix p

theorem numP_suffix (base bits : Nat) (s : Bytes) : (numP base bits s).2 <:+ s :=
  (dropWhile_suffix' _ _).trans (dropWhile_suffix' _ _)

theorem leadP_suffix (s : Bytes) : (leadP s).2 <:+ s := by
  unfold leadP; split
  · exact numP_suffix 10 64 s
  · exact List.suffix_refl s

theorem longP_suffix (l : Nat) (s : Bytes) : (longP l s).2 <:+ s :=
  (dropWhile_suffix' _ _).trans (dropWhile_suffix' _ _)

theorem tail_suffix' (s : Bytes) : s.tail <:+ s := List.tail_suffix s

theorem rangeMinP_suffix (m : Nat) (s : Bytes) : (rangeMinP m s).2 <:+ s := by
  unfold rangeMinP
  split
  · exact (dropWhile_suffix' _ _).trans ((numP_suffix 10 16 _).trans (tail_suffix' s))
  · exact List.suffix_refl s

theorem rangeP_suffix (s : Bytes) : (rangeP s).2 <:+ s := by
  unfold rangeP
  split
  · have h1 := (rangeMinP_suffix (numP 10 16 s.tail).1 ((numP 10 16 s.tail).2.dropWhile isBlank)).trans
      ((dropWhile_suffix' isBlank _).trans ((numP_suffix 10 16 _).trans (tail_suffix' s)))
    dsimp only
    split
    · exact h1
    · split <;> exact (tail_suffix' _).trans h1
  · exact List.suffix_refl s

theorem valueP_suffix (st : St) (line : Nat) (f : UInt8) (s : Bytes) : (valueP st line f s).2.2 <:+ s := by
  unfold valueP
  split
  · exact longP_suffix _ _
  · split
    · exact longP_suffix _ _
    · split
      · exact numP_suffix 8 64 _
      · split
        · exact numP_suffix 10 64 _
        · exact List.nil_suffix

theorem tickedP_suffix (st : St) (line w d : Nat) (s : Bytes) : (tickedP st line w d s).2.2.2 <:+ s :=
  (dropWhile_suffix' _ _).trans ((valueP_suffix _ _ _ _).trans ((tail_suffix' _).trans (dropWhile_suffix' _ _)))

theorem leadSuffix (s : Bytes) : ((leadP (s.tail.dropWhile isBlank)).2.dropWhile isBlank) <:+ s :=
  (dropWhile_suffix' _ _).trans ((leadP_suffix _).trans ((dropWhile_suffix' _ _).trans (tail_suffix' s)))

theorem assignP_suffix (st : St) (line maxBit minBit : Nat) (s : Bytes) :
    (assignP st line maxBit minBit s).2.2.2 <:+ s := by
  unfold assignP
  dsimp only
  split
  · split
    · exact (tickedP_suffix _ _ _ _ _).trans ((tail_suffix' _).trans (leadSuffix s))
    · exact leadSuffix s
  · exact List.suffix_refl s

theorem not_mem_suffix {s t : Bytes} (h : chNl ∉ s) (ht : t <:+ s) : chNl ∉ t :=
  fun hm => h (ht.subset hm)

theorem lead_nl (s rest : Bytes) :
    leadNumber (s ++ chNl :: rest) = .ok ((leadP s).1, (leadP s).2 ++ chNl :: rest) := by
  unfold leadP leadNumber
  simp only [cur_nl, Res.bind_ok]
  split
  · exact number_nl 10 64 (by decide) s rest
  · rfl

theorem value_nl (st : St) (line : Nat) (f : UInt8) (s rest : Bytes) (hs : chNl ∉ s) :
    parseValue st line f (s ++ chNl :: rest) =
      .ok ((valueP st line f s).1, (valueP st line f s).2.1, (valueP st line f s).2.2 ++ chNl :: rest) := by
  unfold parseValue valueP
  simp only [longNumber_nl 4 (by decide), longNumber_nl 1 (by decide), number_nl 8 64 (by decide),
    number_nl 10 64 (by decide), skipToEol_nl s rest hs, Res.bind_ok, Res.pure_eq]
  split
  · rfl
  · split
    · rfl
    · split
      · rfl
      · split <;> rfl

theorem ticked_nl (st : St) (line w d : Nat) (s rest : Bytes) (hs : chNl ∉ s)
    (hne : s.dropWhile isBlank ≠ []) :
    parseTicked st line w d (s ++ chNl :: rest) =
      .ok ((tickedP st line w d s).1, (tickedP st line w d s).2.1,
        (tickedP st line w d s).2.2.1, (tickedP st line w d s).2.2.2 ++ chNl :: rest) := by
  unfold parseTicked tickedP
  have hnl : chNl ∉ (s.dropWhile isBlank).tail :=
    not_mem_suffix hs ((tail_suffix' _).trans (dropWhile_suffix' _ _))
  simp only [skipBlank_nl, cur_nl, Res.bind_ok, adv_nl _ rest hne, value_nl _ _ _ _ rest hnl, Res.pure_eq]

theorem parseAssign_nl (st : St) (line maxBit minBit : Nat) (s rest : Bytes) (hs : chNl ∉ s) (ht : TickOk s) :
    parseAssign st line maxBit minBit (s ++ chNl :: rest) =
      .ok ((assignP st line maxBit minBit s).1, (assignP st line maxBit minBit s).2.1,
        (assignP st line maxBit minBit s).2.2.1, (assignP st line maxBit minBit s).2.2.2 ++ chNl :: rest) := by
  unfold parseAssign assignP
  simp only [cur_nl, Res.bind_ok]
  by_cases h : hd s = chEq
  · simp only [h, if_true, adv_nl s rest (ne_nil_of_hd h (by decide)), skipBlank_nl, Res.bind_ok, cur_nl,
      lead_nl]
    have h1s := leadSuffix s
    by_cases h2 : hd ((leadP (s.tail.dropWhile isBlank)).2.dropWhile isBlank) = chTick
    · have hpast := (past_tail h (by decide)).trans ((past_blank s.tail).trans ((leadP_past _).trans (past_blank _)))
      have hne := ht.past hpast [] _ (hd_ne_nl h2 (by decide)) (by simp)
      simp only [h2, if_true, adv_nl _ rest (ne_nil_of_hd h2 (by decide)),
        ticked_nl _ _ _ _ _ rest (not_mem_suffix hs ((tail_suffix' _).trans h1s)) hne]
    · simp only [h2, if_false, Res.pure_eq]
  · simp only [h, if_false, Res.pure_eq]

/-! ## Annotations -/

def quotedP (prev : UInt8) : Bytes → Bytes × Bytes
  | [] => ([], [])
  | c :: cs =>
    if c = chQuote ∧ prev ≠ chBackslash then ([], c :: cs)
    else (c :: (quotedP c cs).1, (quotedP c cs).2)

theorem quoted_nl (s rest : Bytes) (hs : chNl ∉ s) : ∀ prev,
    quoted prev (s ++ chNl :: rest) = .ok ((quotedP prev s).1, (quotedP prev s).2 ++ chNl :: rest) := by
  induction s with
  | nil => intro prev; rfl
  | cons c cs ih =>
    intro prev
    have hc : c ≠ chNl := by rintro rfl; exact hs List.mem_cons_self
    simp only [List.cons_append, quoted, quotedP, hc, if_false]
    by_cases h : c = chQuote ∧ prev ≠ chBackslash
    · simp only [h, ne_eq, not_false_eq_true, and_self, if_true]; rfl
    · simp only [h, if_false, ih (fun h => hs (List.mem_cons_of_mem _ h)) c]; rfl

theorem quotedP_suffix (s : Bytes) : ∀ prev, (quotedP prev s).2 <:+ s := by
  induction s with
  | nil => intro prev; exact List.suffix_refl _
  | cons c cs ih =>
    intro prev
    unfold quotedP
    split
    · exact List.suffix_refl _
    · exact (ih c).trans (List.suffix_cons c cs)

def annP (line : Nat) (feature : Bytes) : Nat → St → Bytes → St × Bytes
  | 0, st, s => (st, s)
  | fuel + 1, st, s =>
    let s := s.tail.dropWhile isBlank
    let aname := s.takeWhile isIdent
    let s := (s.dropWhile isIdent).dropWhile isBlank
    if hd s ≠ chEq then (st.report line .error, s)
    else
      let s := s.tail.dropWhile isBlank
      if hd s ≠ chQuote then (st.report line .error, s)
      else
        let q := quotedP chQuote s.tail
        if q.2 = [] then (st.report line .error, q.2)
        else
          let st := { st with trace := st.trace ++ [.annotation line feature aname q.1] }
          let s := q.2.tail.dropWhile isBlank
          if hd s = chComma then annP line feature fuel st s else (st, s)

theorem hd_eq_nl {s : Bytes} (hs : chNl ∉ s) : hd s = chNl ↔ s = [] := by
  cases s with
  | nil => simp [hd]
  | cons c cs =>
    simp only [hd, List.headD_cons, reduceCtorEq, iff_false]
    rintro rfl; exact hs List.mem_cons_self

theorem annotations_nl (line : Nat) (feature rest : Bytes) : ∀ (n fuel : Nat) (st : St) (s : Bytes),
    chNl ∉ s → s ≠ [] → s.length < n → s.length < fuel →
    annotations line feature fuel st (s ++ chNl :: rest) =
      .ok ((annP line feature n st s).1, (annP line feature n st s).2 ++ chNl :: rest) := by
  intro n
  induction n with
  | zero => intro fuel st s _ _ h; omega
  | succ n ih =>
    intro fuel st s hs hne hn hf
    cases fuel with
    | zero => omega
    | succ fuel =>
      unfold annotations annP
      simp only [adv_nl s rest hne, skipBlank_nl, ident_nl, cur_nl, Res.bind_ok, Res.pure_eq]
      have hsuf : ((s.tail.dropWhile isBlank).dropWhile isIdent).dropWhile isBlank <:+ s :=
        (dropWhile_suffix' _ _).trans ((dropWhile_suffix' _ _).trans ((dropWhile_suffix' _ _).trans (tail_suffix' s)))
      generalize ((s.tail.dropWhile isBlank).dropWhile isIdent).dropWhile isBlank = s1 at hsuf
      generalize (s.tail.dropWhile isBlank).takeWhile isIdent = aname
      by_cases h1 : hd s1 = chEq
      · simp only [h1, ne_eq, not_true, if_false, adv_nl s1 rest (ne_nil_of_hd h1 (by decide)),
          skipBlank_nl, cur_nl, Res.bind_ok]
        have hsuf2 : s1.tail.dropWhile isBlank <:+ s :=
          (dropWhile_suffix' _ _).trans ((tail_suffix' _).trans hsuf)
        generalize s1.tail.dropWhile isBlank = s2 at hsuf2
        by_cases h2 : hd s2 = chQuote
        · simp only [h2, not_true, if_false, adv_nl s2 rest (ne_nil_of_hd h2 (by decide)),
            quoted_nl s2.tail rest (not_mem_suffix hs ((tail_suffix' _).trans hsuf2)), Res.bind_ok, cur_nl]
          have hsuf3 : (quotedP chQuote s2.tail).2 <:+ s :=
            (quotedP_suffix _ _).trans ((tail_suffix' _).trans hsuf2)
          generalize (quotedP chQuote s2.tail).1 = value
          generalize (quotedP chQuote s2.tail).2 = s3 at hsuf3
          by_cases h3 : s3 = []
          · subst h3; rfl
          · have h3' : hd s3 ≠ chNl := fun e => h3 ((hd_eq_nl (not_mem_suffix hs hsuf3)).1 e)
            simp only [h3', h3, if_false, adv_nl s3 rest h3, skipBlank_nl, cur_nl, Res.bind_ok]
            have hsuf4 : s3.tail.dropWhile isBlank <:+ s :=
              (dropWhile_suffix' _ _).trans ((tail_suffix' _).trans hsuf3)
            have hlen : (s3.tail.dropWhile isBlank).length < s.length := by
              have e1 := (dropWhile_suffix' isBlank s3.tail).length_le
              have e2 := hsuf3.length_le
              have e3 : 0 < s3.length := List.length_pos_iff.2 h3
              rw [List.length_tail] at e1
              omega
            by_cases h4 : hd (s3.tail.dropWhile isBlank) = chComma
            · simp only [h4, if_true]
              exact ih fuel _ _ (not_mem_suffix hs hsuf4) (ne_nil_of_hd h4 (by decide)) (by omega) (by omega)
            · simp only [h4, if_false]
        · simp only [h2, not_false_eq_true, if_true]
      · simp only [h1, ne_eq, not_false_eq_true, if_true]

theorem annP_suffix (line : Nat) (feature : Bytes) : ∀ (n : Nat) (st : St) (s : Bytes),
    (annP line feature n st s).2 <:+ s := by
  intro n
  induction n with
  | zero => intro st s; exact List.suffix_refl _
  | succ n ih =>
    intro st s
    unfold annP
    dsimp only
    have hsuf : ((s.tail.dropWhile isBlank).dropWhile isIdent).dropWhile isBlank <:+ s :=
      (dropWhile_suffix' _ _).trans ((dropWhile_suffix' _ _).trans ((dropWhile_suffix' _ _).trans (tail_suffix' s)))
    split
    · exact hsuf
    · have h2 := (dropWhile_suffix' isBlank _).trans ((tail_suffix' _).trans hsuf)
      split
      · exact h2
      · have h3 := (quotedP_suffix _ chQuote).trans ((tail_suffix' _).trans h2)
        split
        · exact h3
        · have h4 := (dropWhile_suffix' isBlank _).trans ((tail_suffix' _).trans h3)
          split
          · exact (ih _ _).trans h4
          · exact h4

/-! ## Tail and whole line -/

def endP (st : St) (line : Nat) (s : Bytes) : St :=
  if hd s = chHash ∨ hd s = chCr then st else if s ≠ [] then st.report line .error else st

def annsP (ann : Bool) (st : St) (line : Nat) (feature s : Bytes) : St :=
  if ann then
    let r := annP line feature (s.length + 1) st s
    if hd r.2 ≠ chRBrace then r.1.report line .error else r.1
  else st

def tailP (ann : Bool) (st : St) (line : Nat) (feature s : Bytes) : St :=
  if hd s = chLBrace then annsP ann st line feature s else endP st line s

def lineP (ann : Bool) (cb : List Event → Bool) (st : St) (line : Nat) (s : Bytes) : Res St :=
  let s := s.dropWhile isBlank
  let feature := s.takeWhile isIdent
  let s := (s.dropWhile isIdent).dropWhile isBlank
  if feature.isEmpty then .ok (tailP ann st line feature s)
  else
    match (rangeP s).1 with
    | .noBracket => .ok (st.report line .error)
    | .inverted => .ok (st.report line .skipped)
    | .bits maxBit minBit =>
      let a := assignP st line maxBit minBit ((rangeP s).2.dropWhile isBlank)
      (reportChunks cb line feature minBit a.2.1 a.2.2.1.length 0 a.2.2.1 a.1).bind fun st =>
        .ok (tailP ann st line feature a.2.2.2)

theorem parseEnd_nl (st : St) (line : Nat) (s rest : Bytes) (hs : chNl ∉ s) :
    parseEnd st line (s ++ chNl :: rest) = .ok (endP st line s, rest) := by
  unfold parseEnd endP
  simp only [cur_nl, Res.bind_ok, skipToEol_nl s rest hs, Res.pure_eq]
  by_cases h : hd s = chHash ∨ hd s = chCr
  · simp only [h, if_true]; rfl
  · simp only [h, if_false, ne_eq, hd_eq_nl hs]
    by_cases h2 : s = []
    · subst h2; rfl
    · simp only [h2, not_false_eq_true, if_true]; rfl

theorem parseAnnotations_nl (ann : Bool) (st : St) (line : Nat) (feature s rest : Bytes) (hs : chNl ∉ s)
    (hne : s ≠ []) :
    parseAnnotations ann st line feature (s ++ chNl :: rest) =
      .ok (annsP ann st line feature s, chNl :: rest) := by
  unfold parseAnnotations annsP
  cases ann with
  | false => simp only [Bool.false_eq_true, if_false, skipToEol_nl s rest hs, Res.bind_ok, Res.pure_eq]
  | true =>
    have hlen : s.length < (s ++ chNl :: rest).length + 1 := by simp; omega
    simp only [if_true, annotations_nl line feature rest (s.length + 1) _ st s hs hne (by omega) hlen,
      Res.bind_ok, cur_nl, Res.pure_eq,
      skipToEol_nl _ rest (not_mem_suffix hs (annP_suffix line feature (s.length + 1) st s))]

theorem parseTail_nl (ann : Bool) (st : St) (line : Nat) (feature s rest : Bytes) (hs : chNl ∉ s) :
    parseTail ann st line feature (s ++ chNl :: rest) = .ok (tailP ann st line feature s, rest) := by
  unfold parseTail tailP
  simp only [cur_nl, Res.bind_ok]
  by_cases h : hd s = chLBrace
  · simp only [h, if_true, parseAnnotations_nl ann st line feature s rest hs (ne_nil_of_hd h (by decide)),
      Res.bind_ok]
    exact parseEnd_nl _ line [] rest (by simp)
  · simp only [h, if_false, parseEnd_nl st line s rest hs]

theorem parseLine_nl (ann : Bool) (cb : List Event → Bool) (st : St) (line : Nat) (s rest : Bytes)
    (hs : chNl ∉ s) (ht : TickOk s) :
    parseLine ann cb st line (s ++ chNl :: rest) =
      (lineP ann cb st line s).bind fun st => .ok (st, rest) := by
  unfold parseLine lineP
  simp only [skipBlank_nl, ident_nl, Res.bind_ok]
  have hsuf : ((s.dropWhile isBlank).dropWhile isIdent).dropWhile isBlank <:+ s :=
    (dropWhile_suffix' _ _).trans ((dropWhile_suffix' _ _).trans (dropWhile_suffix' _ _))
  have hpast : Past s (((s.dropWhile isBlank).dropWhile isIdent).dropWhile isBlank) :=
    (past_blank s).trans ((past_dropWhile isIdent (by decide) _).trans (past_blank _))
  generalize ((s.dropWhile isBlank).dropWhile isIdent).dropWhile isBlank = s1 at hsuf hpast
  generalize (s.dropWhile isBlank).takeWhile isIdent = feature
  have hs1 := not_mem_suffix hs hsuf
  split
  · simp only [parseTail_nl ann st line feature s1 rest hs1, Res.bind]
  · simp only [parseRange_nl, Res.bind_ok]
    have hr := (rangeP_suffix s1).trans hsuf
    have hrn := not_mem_suffix hs hr
    have hrp := hpast.trans (rangeP_past s1)
    generalize (rangeP s1).2 = s2 at hr hrn hrp
    cases (rangeP s1).1 with
    | noBracket => simp only [skipToEol_nl s2 rest hrn, Res.bind_ok, Res.bind]; rfl
    | inverted => simp only [skipToEol_nl s2 rest hrn, Res.bind_ok, Res.bind]; rfl
    | bits maxBit minBit =>
      have hd2 := (dropWhile_suffix' isBlank s2).trans hr
      simp only [skipBlank_nl, Res.bind_ok,
        parseAssign_nl st line maxBit minBit _ rest (not_mem_suffix hs hd2) (ht.past (hrp.trans (past_blank _)))]
      have ha := (assignP_suffix st line maxBit minBit (s2.dropWhile isBlank)).trans hd2
      generalize assignP st line maxBit minBit (s2.dropWhile isBlank) = a at ha
      cases reportChunks cb line feature minBit a.2.1 a.2.2.1.length 0 a.2.2.1 a.1 with
      | oob => rfl
      | shift => rfl
      | ok st' =>
        simp only [Res.bind_ok, Res.bind, parseTail_nl ann st' line feature _ rest (not_mem_suffix hs ha)]

end Verif.Fasm
