import Verif.Proofs.FasmLine
/-! # Memory safety of the FASM parser -/
namespace Verif.Fasm

/-- Newline-terminated. -/
def NlT (input : Bytes) : Prop := ∃ body, input = body ++ [chNl]

/-- The remaining input is not a last line whose uncommented part ends in a tick and blanks. -/
def OkTick (input : Bytes) : Prop :=
  ∀ pre blanks, (∀ c ∈ blanks, isBlank c = true) → input = pre ++ chTick :: (blanks ++ [chNl]) →
    chNl ∈ pre ∨ chHash ∈ pre

/-- No read outside the buffer; what is left is newline-terminated and related to the input. -/
def FineR {α : Type} (R : Bytes → Bytes → Prop) (π : α → Bytes) (input : Bytes) : Res α → Prop
  | .ok a => R input (π a) ∧ NlT (π a)
  | .oob => False
  | .shift => True

/-- What is left is a suffix. -/
def Suf (s t : Bytes) : Prop := t <:+ s

/-- What was consumed lies on the current line and contains no `#`. -/
def Near (s t : Bytes) : Prop := ∃ pre, s = pre ++ t ∧ chNl ∉ pre ∧ chHash ∉ pre

class Rel (R : Bytes → Bytes → Prop) : Prop where
  refl : ∀ s, R s s
  trans : ∀ {s t u}, R s t → R t u → R s u

instance : Rel Suf := ⟨fun s => List.suffix_refl s, fun h1 h2 => List.IsSuffix.trans h2 h1⟩
instance : Rel Near where
  refl s := ⟨[], rfl, by simp, by simp⟩
  trans := by
    rintro s t u ⟨p, rfl, h1, h2⟩ ⟨q, rfl, h3, h4⟩
    exact ⟨p ++ q, by simp, by simp [h1, h3], by simp [h2, h4]⟩

theorem Near.suf {s t : Bytes} (h : Near s t) : Suf s t := by
  obtain ⟨p, rfl, _, _⟩ := h; exact ⟨p, rfl⟩

theorem Near.okTick {s t : Bytes} (h : Near s t) (ho : OkTick s) : OkTick t := by
  obtain ⟨p, rfl, h1, h2⟩ := h
  intro pre blanks hb e
  have := ho (p ++ pre) blanks hb (by rw [e]; simp)
  simpa [h1, h2] using this

theorem near_cons {c : UInt8} {s : Bytes} (h1 : c ≠ chNl) (h2 : c ≠ chHash) : Near (c :: s) s :=
  ⟨[c], rfl, by simpa using h1.symm, by simpa using h2.symm⟩

theorem suf_cons {c : UInt8} {s : Bytes} : Suf (c :: s) s := List.suffix_cons c s

theorem NlT.ne_nil {s : Bytes} (h : NlT s) : s ≠ [] := by
  obtain ⟨b, rfl⟩ := h; simp

theorem NlT.tail {c : UInt8} {s : Bytes} (h : NlT (c :: s)) (hne : s ≠ []) : NlT s := by
  obtain ⟨b, hb⟩ := h
  cases b with
  | nil => simp only [List.nil_append, List.cons.injEq] at hb; exact absurd hb.2 hne
  | cons x xs => simp only [List.cons_append, List.cons.injEq] at hb; exact ⟨xs, hb.2⟩

/-- A newline-terminated text whose first character is not a newline has a newline-terminated tail. -/
theorem NlT.adv {c : UInt8} {s : Bytes} (h : NlT (c :: s)) (hc : c ≠ chNl) : NlT s := by
  refine h.tail ?_
  rintro rfl
  obtain ⟨b, hb⟩ := h
  cases b with
  | nil => simp only [List.nil_append, List.cons.injEq] at hb; exact hc hb.1
  | cons x xs => simp at hb

theorem cur_fine {s : Bytes} (h : NlT s) : ∃ c t, s = c :: t ∧ cur s = .ok c := by
  cases s with
  | nil => exact absurd rfl h.ne_nil
  | cons c t => exact ⟨c, t, rfl, rfl⟩

theorem FineR.bind {α β : Type} {R : Bytes → Bytes → Prop} {ρ : α → Bytes} {π : β → Bytes} {s : Bytes} {r : Res α}
    {f : α → Res β} (hr : FineR R ρ s r) (hf : ∀ a, R s (ρ a) → NlT (ρ a) → FineR R π s (f a)) :
    FineR R π s (r >>= f) := by
  match r, hr with
  | .ok a, h => exact hf a h.1 h.2
  | .shift, _ => trivial

theorem FineR.mono {α : Type} {R : Bytes → Bytes → Prop} [Rel R] {π : α → Bytes} {s t : Bytes} {r : Res α}
    (h : FineR R π s r) (hs : R t s) : FineR R π t r := by
  match r, h with
  | .ok u, h => exact ⟨Rel.trans hs h.1, h.2⟩
  | .shift, _ => trivial

theorem FineR.suf {α : Type} {π : α → Bytes} {s : Bytes} {r : Res α} (h : FineR Near π s r) : FineR Suf π s r := by
  match r, h with
  | .ok u, h => exact ⟨h.1.suf, h.2⟩
  | .shift, _ => trivial

theorem cur_bind {α : Type} {R : Bytes → Bytes → Prop} {s s0 : Bytes} {π : α → Bytes} {f : UInt8 → Res α} (h : NlT s)
    (hf : ∀ c t, s = c :: t → FineR R π s0 (f c)) : FineR R π s0 (cur s >>= f) := by
  obtain ⟨c, t, e, hc⟩ := cur_fine h
  rw [hc]
  exact hf c t e

theorem skipBlank_fine (s : Bytes) (h : NlT s) : FineR Near id s (skipBlank s) := by
  induction s with
  | nil => exact absurd rfl h.ne_nil
  | cons c cs ih =>
    unfold skipBlank
    split
    · rename_i hc
      have hn : c ≠ chNl := by rcases hc with rfl | rfl <;> decide
      have hh : c ≠ chHash := by rcases hc with rfl | rfl <;> decide
      exact (ih (h.adv hn)).mono (near_cons hn hh)
    · exact ⟨Rel.refl _, h⟩

theorem skipToEol_fine (s : Bytes) (h : NlT s) : FineR Suf id s (skipToEol s) := by
  induction s with
  | nil => exact absurd rfl h.ne_nil
  | cons c cs ih =>
    unfold skipToEol
    split
    · exact ⟨Rel.refl _, h⟩
    · rename_i hc
      exact (ih (h.adv hc)).mono suf_cons

/-- `skipToEol` stops at a newline. -/
theorem skipToEol_head (s t : Bytes) (h : skipToEol s = .ok t) : ∃ u, t = chNl :: u := by
  induction s with
  | nil => simp [skipToEol] at h
  | cons c cs ih =>
    unfold skipToEol at h
    split at h
    · rename_i hc
      simp only [Res.ok.injEq] at h
      exact ⟨cs, by rw [← h, hc]⟩
    · exact ih h

theorem digitOf_hash : digitOf chHash = 99 := by decide

theorem digits_fine (base bits : Nat) (hb : base ≤ 16) (s : Bytes) : ∀ v, NlT s →
    FineR Near Prod.snd s (digits base bits v s) := by
  induction s with
  | nil => intro v h; exact absurd rfl h.ne_nil
  | cons c cs ih =>
    intro v h
    unfold digits
    split
    · rename_i hc
      have hn : c ≠ chNl := by rintro rfl; rw [digitOf_nl] at hc; omega
      have hh : c ≠ chHash := by rintro rfl; rw [digitOf_hash] at hc; omega
      have := h.adv hn
      split
      · exact (ih _ this).mono (near_cons hn hh)
      · exact (ih _ this).mono (near_cons hn hh)
    · exact ⟨Rel.refl _, h⟩

theorem number_fine (base bits v : Nat) (hb : base ≤ 16) (s : Bytes) (h : NlT s) :
    FineR Near Prod.snd s (number base bits v s) :=
  (skipBlank_fine s h).bind fun t ht hs => (digits_fine base bits hb t v hs).mono ht

theorem longDigits_fine (l2 : Nat) (hb : l2 ≤ 4) (s : Bytes) : ∀ n v, (n % 64 = 0 ∨ v ≠ []) → NlT s →
    FineR Suf Prod.snd s (longDigits l2 n v s) := by
  have h16 : 2 ^ l2 ≤ 16 := by
    calc 2 ^ l2 ≤ 2 ^ 4 := Nat.pow_le_pow_right (by omega) hb
      _ = 16 := rfl
  induction s with
  | nil => intro n v _ h; exact absurd rfl h.ne_nil
  | cons c cs ih =>
    intro n v hv h
    unfold longDigits
    split
    · rename_i hc
      have hn : c ≠ chNl := by rintro rfl; rw [digitOf_nl] at hc; omega
      have := h.adv hn
      split
      · exact (ih n v hv this).mono suf_cons
      · have hne : (if n % 64 = 0 then 0 :: v else v) ≠ [] := by
          split
          · simp
          · rename_i h2; exact hv.resolve_left h2
        dsimp only
        split
        · rename_i he; exact absurd he hne
        · exact (ih _ _ (Or.inr (by simp)) this).mono suf_cons
    · exact ⟨Rel.refl _, h⟩

theorem longNumber_fine (l2 : Nat) (hb : l2 ≤ 4) (s : Bytes) (h : NlT s) : FineR Suf Prod.snd s (longNumber l2 s) :=
  (skipBlank_fine s h).suf.bind fun t ht hs =>
    ((longDigits_fine l2 hb t 0 [] (Or.inl rfl) hs).mono ht).bind fun _ hu hu' => ⟨hu, hu'⟩

theorem ident_fine (s : Bytes) (h : NlT s) : FineR Near Prod.snd s (ident s) := by
  induction s with
  | nil => exact absurd rfl h.ne_nil
  | cons c cs ih =>
    unfold ident
    split
    · rename_i hc
      have hn : c ≠ chNl := by rintro rfl; rw [isIdent_nl] at hc; exact absurd hc (by decide)
      have hh : c ≠ chHash := by rintro rfl; exact absurd hc (by decide)
      exact ((ih (h.adv hn)).mono (near_cons hn hh)).bind fun _ hu hu' => ⟨hu, hu'⟩
    · exact ⟨Rel.refl _, h⟩

theorem rangeMin_fine (m : Nat) (s : Bytes) (h : NlT s) : FineR Near Prod.snd s (rangeMin m s) := by
  unfold rangeMin
  refine cur_bind h fun c t e => ?_
  subst e
  split
  · rename_i hc
    subst hc
    have ha := h.adv (by decide)
    refine ((number_fine 10 16 0 (by decide) t ha).mono (near_cons (by decide) (by decide))).bind fun a hu hu' => ?_
    exact ((skipBlank_fine a.2 hu').mono hu).bind fun _ hv hv' => ⟨hv, hv'⟩
  · exact ⟨Rel.refl _, h⟩

theorem parseRange_fine (s : Bytes) (h : NlT s) : FineR Near Prod.snd s (parseRange s) := by
  unfold parseRange
  refine cur_bind h fun c t e => ?_
  subst e
  split
  · rename_i hc
    subst hc
    have ha := h.adv (by decide)
    refine ((number_fine 10 16 0 (by decide) t ha).mono (near_cons (by decide) (by decide))).bind fun a hu hu' => ?_
    refine ((skipBlank_fine a.2 hu').mono hu).bind fun v hv hv' => ?_
    refine ((rangeMin_fine _ v hv').mono hv).bind fun b hw hw' => ?_
    obtain ⟨b, w⟩ := b
    refine cur_bind hw' fun c x e => ?_
    dsimp only at e hw hw'
    subst e
    split
    · exact ⟨hw, hw'⟩
    · rename_i hc
      have hc : c = chRBrack := by simpa using hc
      subst hc
      have := hw'.adv (by decide)
      split
      · exact ⟨Rel.trans hw (near_cons (by decide) (by decide)), this⟩
      · exact ⟨Rel.trans hw (near_cons (by decide) (by decide)), this⟩
  · exact ⟨Rel.refl _, h⟩

theorem leadNumber_fine (s : Bytes) (h : NlT s) : FineR Near Prod.snd s (leadNumber s) := by
  unfold leadNumber
  refine cur_bind h fun c t e => ?_
  split
  · exact number_fine 10 64 0 (by decide) s h
  · exact ⟨Rel.refl _, h⟩

theorem parseValue_fine (st : St) (line : Nat) (f : UInt8) (s : Bytes) (h : NlT s) :
    FineR Suf (fun r => r.2.2) s (parseValue st line f s) := by
  unfold parseValue
  split
  · exact (longNumber_fine 4 (by decide) s h).bind fun _ hv hv' => ⟨hv, hv'⟩
  · split
    · exact (longNumber_fine 1 (by decide) s h).bind fun _ hv hv' => ⟨hv, hv'⟩
    · split
      · exact (number_fine 8 64 0 (by decide) s h).suf.bind fun _ hv hv' => ⟨hv, hv'⟩
      · split
        · exact (number_fine 10 64 0 (by decide) s h).suf.bind fun _ hv hv' => ⟨hv, hv'⟩
        · exact (skipToEol_fine s h).bind fun _ hv hv' => ⟨hv, hv'⟩

/-- What `skipBlank` skips is blank. -/
theorem skipBlank_split (s t : Bytes) (h : skipBlank s = .ok t) :
    ∃ blanks, (∀ c ∈ blanks, isBlank c = true) ∧ s = blanks ++ t := by
  induction s with
  | nil => simp [skipBlank] at h
  | cons c cs ih =>
    unfold skipBlank at h
    split at h
    · rename_i hc
      obtain ⟨b, hb, e⟩ := ih h
      refine ⟨c :: b, ?_, by rw [e]; rfl⟩
      intro x hx
      rcases List.mem_cons.1 hx with rfl | hx
      · exact decide_eq_true hc
      · exact hb x hx
    · simp only [Res.ok.injEq] at h
      exact ⟨[], by simp, by rw [h]; rfl⟩

/-- After the tick, the format character is not the last character of the text. -/
theorem after_tick {s t : Bytes} {f : UInt8} (h : OkTick (chTick :: s)) (hb : skipBlank s = .ok (f :: t))
    (hs : NlT (f :: t)) : NlT t := by
  refine hs.tail ?_
  rintro rfl
  obtain ⟨b, hbl, e⟩ := skipBlank_split s _ hb
  have hf : f = chNl := by
    obtain ⟨body, he⟩ := hs
    cases body with
    | nil => simpa using he
    | cons x xs => simp at he
  subst hf
  have := h [] b hbl (by rw [e]; rfl)
  simp at this

theorem parseTicked_fine (st : St) (line w d : Nat) (s : Bytes) (hn : NlT (chTick :: s)) (h : OkTick (chTick :: s)) :
    FineR Suf (fun r => r.2.2.2) s (parseTicked st line w d s) := by
  have hs := hn.adv (by decide)
  unfold parseTicked
  have hk := skipBlank_fine s hs
  cases hb : skipBlank s with
  | oob => rw [hb] at hk; exact hk.elim
  | shift => trivial
  | ok t =>
    rw [hb] at hk
    obtain ⟨ht, ht'⟩ := hk
    dsimp only [id] at ht ht'
    rw [Res.bind_ok]
    refine cur_bind ht' fun f u e => ?_
    subst e
    have hu := after_tick h hb ht'
    have hus : Suf s u := Rel.trans ht.suf suf_cons
    refine ((parseValue_fine _ line f u hu).mono hus).bind fun a hv hv' => ?_
    exact ((skipBlank_fine a.2.2 hv').suf.mono hv).bind fun _ hw hw' => ⟨hw, hw'⟩

theorem parseAssign_fine (st : St) (line maxBit minBit : Nat) (s : Bytes) (h : NlT s) (ho : OkTick s) :
    FineR Suf (fun r => r.2.2.2) s (parseAssign st line maxBit minBit s) := by
  unfold parseAssign
  refine cur_bind h fun c t e => ?_
  subst e
  split
  · rename_i hc
    subst hc
    have ha := h.adv (by decide)
    have hk := (skipBlank_fine t ha).mono (near_cons (c := chEq) (by decide) (by decide))
    dsimp only [adv, List.tail_cons]
    cases hb : skipBlank t with
    | oob => rw [hb] at hk; exact hk.elim
    | shift => trivial
    | ok u =>
      rw [hb] at hk
      obtain ⟨hu, hu'⟩ := hk
      dsimp only [id] at hu hu'
      rw [Res.bind_ok]
      have hk := (leadNumber_fine u hu').mono hu
      cases hb2 : leadNumber u with
      | oob => rw [hb2] at hk; exact hk.elim
      | shift => trivial
      | ok p =>
        obtain ⟨a, v⟩ := p
        rw [hb2] at hk
        obtain ⟨hv, hv'⟩ := hk
        rw [Res.bind_ok]
        have hk := (skipBlank_fine v hv').mono hv
        dsimp only
        cases hb3 : skipBlank v with
        | oob => rw [hb3] at hk; exact hk.elim
        | shift => trivial
        | ok w =>
          rw [hb3] at hk
          obtain ⟨hw, hw'⟩ := hk
          dsimp only [id] at hw hw'
          rw [Res.bind_ok]
          refine cur_bind hw' fun c x e => ?_
          subst e
          split
          · rename_i hc
            subst hc
            exact (parseTicked_fine st line _ a x hw' (hw.okTick ho)).mono (Rel.trans hw.suf suf_cons)
          · exact ⟨hw.suf, hw'⟩
  · exact ⟨Rel.refl _, h⟩

theorem quoted_fine (s : Bytes) : ∀ prev, NlT s → FineR Suf Prod.snd s (quoted prev s) := by
  induction s with
  | nil => intro prev h; exact absurd rfl h.ne_nil
  | cons c cs ih =>
    intro prev h
    unfold quoted
    split
    · exact ⟨Rel.refl _, h⟩
    · rename_i hc
      split
      · exact ⟨Rel.refl _, h⟩
      · exact ((ih c (h.adv hc)).mono suf_cons).bind fun _ hv hv' => ⟨hv, hv'⟩

theorem annotations_fine (line : Nat) (feature : Bytes) : ∀ (fuel : Nat) (st : St) (c : UInt8) (s : Bytes),
    NlT (c :: s) → c ≠ chNl → s.length + 1 < fuel →
    FineR Suf Prod.snd (c :: s) (annotations line feature fuel st (c :: s)) := by
  intro fuel
  induction fuel with
  | zero => intro st c s _ _ hl; omega
  | succ fuel ih =>
    intro st c s h hc hl
    unfold annotations
    have ha := h.adv hc
    refine ((skipBlank_fine s ha).suf.mono suf_cons).bind fun u hu hu' => ?_
    refine ((ident_fine u hu').suf.mono hu).bind fun a hv hv' => ?_
    obtain ⟨a, v⟩ := a
    dsimp only at hv hv' ⊢
    refine ((skipBlank_fine v hv').suf.mono hv).bind fun w hw hw' => ?_
    dsimp only [id] at hw hw' ⊢
    refine cur_bind hw' fun c1 x e => ?_
    subst e
    split
    · exact ⟨hw, hw'⟩
    · rename_i h1
      have h1 : c1 = chEq := by simpa using h1
      subst h1
      have hx := hw'.adv (by decide)
      have hxs := Rel.trans hw (suf_cons (c := chEq) (s := x))
      refine ((skipBlank_fine x hx).suf.mono hxs).bind fun y hy hy' => ?_
      dsimp only [id] at hy hy' ⊢
      refine cur_bind hy' fun c2 z e => ?_
      subst e
      split
      · exact ⟨hy, hy'⟩
      · rename_i h2
        have h2 : c2 = chQuote := by simpa using h2
        subst h2
        have hz := hy'.adv (by decide)
        have hzs := Rel.trans hy (suf_cons (c := chQuote) (s := z))
        refine ((quoted_fine z chQuote hz).mono hzs).bind fun val hp hp' => ?_
        obtain ⟨val, p⟩ := val
        dsimp only at hp hp' ⊢
        refine cur_bind hp' fun c3 q e => ?_
        subst e
        split
        · exact ⟨hp, hp'⟩
        · rename_i h3
          have hq := hp'.adv h3
          have hqs := Rel.trans hp (suf_cons (c := c3) (s := q))
          refine ((skipBlank_fine q hq)).suf.bind (s := q) (fun r hr hr' => ?_) |>.mono hqs
          dsimp only [id] at hr hr' ⊢
          refine cur_bind hr' fun c4 r' e => ?_
          subst e
          split
          · rename_i h4
            subst h4
            have hlen2 := List.IsSuffix.length_le hp
            have hlen3 := List.IsSuffix.length_le hr
            simp only [List.length_cons] at hlen2 hlen3
            exact (ih _ chComma r' hr' (by decide) (by omega)).mono hr
          · exact ⟨hr, hr'⟩

theorem parseAnnotations_fine (ann : Bool) (st : St) (line : Nat) (feature s : Bytes)
    (h : NlT (chLBrace :: s)) :
    FineR Suf Prod.snd (chLBrace :: s) (parseAnnotations ann st line feature (chLBrace :: s)) := by
  unfold parseAnnotations
  split
  · refine (annotations_fine line feature _ st _ s h (by decide) (by simp)).bind fun a ht ht' => ?_
    obtain ⟨a, t⟩ := a
    dsimp only at ht ht' ⊢
    refine cur_bind ht' fun c u _ => ?_
    exact ((skipToEol_fine t ht').mono ht).bind fun v hv hv' => ⟨hv, hv'⟩
  · exact (skipToEol_fine _ h).bind fun v hv hv' => ⟨hv, hv'⟩

/-- Outcome of a whole line: what is left follows a newline of the input. -/
def LineFine (input : Bytes) : Res (St × Bytes) → Prop
  | .ok (_, t) => Suf input (chNl :: t) ∧ NlT (chNl :: t)
  | .oob => False
  | .shift => True

theorem skipEol_adv {s s0 : Bytes} (st : St) (h : NlT s) (hs : Suf s0 s) :
    LineFine s0 (skipToEol s >>= fun t => pure (st, adv t)) := by
  have hk := skipToEol_fine s h
  cases he : skipToEol s with
  | oob => rw [he] at hk; exact hk.elim
  | shift => trivial
  | ok t =>
    rw [he] at hk
    obtain ⟨u, rfl⟩ := skipToEol_head s t he
    exact ⟨Rel.trans hs hk.1, hk.2⟩

theorem parseEnd_fine (st : St) (line : Nat) (s s0 : Bytes) (h : NlT s) (hs : Suf s0 s) :
    LineFine s0 (parseEnd st line s) := by
  unfold parseEnd
  obtain ⟨c, t, e, hc⟩ := cur_fine h
  rw [hc, Res.bind_ok]
  split
  · exact skipEol_adv st h hs
  · split
    · exact skipEol_adv _ h hs
    · rename_i h2
      have h2 : c = chNl := by simpa using h2
      subst e h2
      exact ⟨hs, h⟩

theorem FineR.bindLine {α : Type} {R : Bytes → Bytes → Prop} {s s0 : Bytes} {π : α → Bytes} {r : Res α}
    {f : α → Res (St × Bytes)}
    (hr : FineR R π s r) (hf : ∀ a, R s (π a) → NlT (π a) → LineFine s0 (f a)) : LineFine s0 (r >>= f) := by
  match r, hr with
  | .ok a, h => exact hf a h.1 h.2
  | .shift, _ => trivial

theorem parseTail_fine (ann : Bool) (st : St) (line : Nat) (feature s s0 : Bytes) (h : NlT s) (hs : Suf s0 s) :
    LineFine s0 (parseTail ann st line feature s) := by
  unfold parseTail
  obtain ⟨c, t, e, hc⟩ := cur_fine h
  rw [hc, Res.bind_ok]
  split
  · rename_i hc'
    subst e hc'
    exact (parseAnnotations_fine ann st line feature t h).bindLine fun a hu hu' =>
      parseEnd_fine a.1 line a.2 s0 hu' (Rel.trans hs hu)
  · exact parseEnd_fine st line s s0 h hs

theorem reportChunks_not_oob (cb : List Event → Bool) (line : Nat) (name : Bytes) (minBit width total : Nat) :
    ∀ (vs : List Nat) (chunk : Nat) (st : St), reportChunks cb line name minBit width total chunk vs st ≠ .oob := by
  intro vs
  induction vs with
  | nil => intro chunk st h; simp [reportChunks] at h
  | cons v vs ih =>
    intro chunk st
    unfold reportChunks
    dsimp only
    split
    · simp
    · split
      · exact ih _ _
      · simp

theorem parseLine_fine (ann : Bool) (cb : List Event → Bool) (st : St) (line : Nat) (s : Bytes) (h : NlT s)
    (ho : OkTick s) : LineFine s (parseLine ann cb st line s) := by
  unfold parseLine
  refine (skipBlank_fine s h).bindLine fun t ht ht' => ?_
  refine ((ident_fine t ht').mono ht).bindLine fun a hu hu' => ?_
  obtain ⟨feature, u⟩ := a
  dsimp only at hu hu' ⊢
  refine ((skipBlank_fine u hu').mono hu).bindLine fun v hv hv' => ?_
  dsimp only [id] at hv hv' ⊢
  split
  · exact parseTail_fine ann st line feature v s hv' hv.suf
  · refine ((parseRange_fine v hv').mono hv).bindLine fun a hw hw' => ?_
    obtain ⟨range, w⟩ := a
    dsimp only at hw hw' ⊢
    cases range with
    | noBracket => exact skipEol_adv _ hw' hw.suf
    | inverted => exact skipEol_adv _ hw' hw.suf
    | bits maxBit minBit =>
      dsimp only
      refine ((skipBlank_fine w hw').mono hw).bindLine fun x hx hx' => ?_
      refine ((parseAssign_fine st line maxBit minBit x hx' (hx.okTick ho)).mono hx.suf).bindLine fun a hy hy' => ?_
      obtain ⟨st', width, bitset, y⟩ := a
      dsimp only at hy hy' ⊢
      cases hr : reportChunks cb line feature minBit width bitset.length 0 bitset st' with
      | oob => exact absurd hr (reportChunks_not_oob _ _ _ _ _ _ _ _ _)
      | shift => trivial
      | ok st'' => exact parseTail_fine ann st'' line feature y s hy' hy

/-- If the last line ends in a tick and blanks, a `#` precedes them on that line. -/
def SafeText (input : Bytes) : Prop :=
  ∀ pre blanks, (∀ c ∈ blanks, isBlank c = true) → input = pre ++ chTick :: (blanks ++ [chNl]) →
    ∃ a b, pre = a ++ chHash :: b ∧ chNl ∉ b

theorem SafeText.okTick {s : Bytes} (h : SafeText s) : OkTick s := by
  intro pre blanks hb e
  obtain ⟨a, b, rfl, _⟩ := h pre blanks hb e
  exact Or.inr (by simp)

theorem SafeText.suf {s t : Bytes} (h : SafeText s) (hs : Suf s (chNl :: t)) : SafeText t := by
  obtain ⟨u, rfl⟩ := hs
  intro pre blanks hb e
  obtain ⟨a, b, hab, hn⟩ := h (u ++ chNl :: pre) blanks hb (by rw [e]; simp)
  -- the newline before `pre` is not in `b`, so `# b` is a suffix of `pre`
  rw [List.append_eq_append_iff] at hab
  rcases hab with ⟨a', rfl, h2⟩ | ⟨c', h1, h2⟩
  · cases a' with
    | nil => simp only [List.nil_append, List.cons.injEq] at h2; exact absurd h2.1 (by decide)
    | cons x xs =>
      simp only [List.cons_append, List.cons.injEq] at h2
      exact ⟨xs, b, h2.2, hn⟩
  · exfalso
    cases c' with
    | nil => simp only [List.nil_append, List.cons.injEq] at h2; exact absurd h2.1 (by decide)
    | cons x xs =>
      simp only [List.cons_append, List.cons.injEq] at h2
      exact hn (by rw [h2.2]; simp)

theorem parseLines_not_oob (ann : Bool) (cb : List Event → Bool) : ∀ (fuel line : Nat) (st : St) (s : Bytes),
    (s = [] ∨ NlT s) → SafeText s → s.length ≤ fuel → parseLines ann cb fuel line st s ≠ .oob := by
  intro fuel
  induction fuel with
  | zero =>
    intro line st s _ _ hl
    have : s = [] := List.eq_nil_of_length_eq_zero (by omega)
    subst this
    simp [parseLines]
  | succ fuel ih =>
    intro line st s hs hsafe hl
    cases s with
    | nil => simp [parseLines]
    | cons c cs =>
      have hs : NlT (c :: cs) := hs.resolve_left (by simp)
      unfold parseLines
      dsimp only
      have hp := parseLine_fine ann cb st ((line + 1) % 2 ^ 32) (c :: cs) hs hsafe.okTick
      cases he : parseLine ann cb st ((line + 1) % 2 ^ 32) (c :: cs) with
      | oob => rw [he] at hp; exact hp.elim
      | shift => rw [Res.bind_shift]; intro h; cases h
      | ok p =>
        obtain ⟨st', t⟩ := p
        rw [he] at hp
        obtain ⟨h2, h3⟩ := hp
        rw [Res.bind_ok]
        refine ih _ _ _ ?_ (hsafe.suf h2) ?_
        · by_cases ht : t = []
          · exact Or.inl ht
          · exact Or.inr (h3.tail ht)
        · have := List.IsSuffix.length_le h2
          simp only [List.length_cons] at this hl
          show t.length ≤ fuel
          omega

theorem parse_not_oob (ann : Bool) (cb : List Event → Bool) (content : Bytes) (h : SafeText content) :
    parse ann cb content ≠ .oob := by
  unfold parse
  split
  · simp
  · rename_i c hc
    split
    · simp
    · rename_i hn
      have hn : c = chNl := by simpa using hn
      subst hn
      refine parseLines_not_oob ann cb _ _ _ _ (Or.inr ?_) h (Nat.le_refl _)
      rw [List.getLast?_eq_some_iff] at hc
      exact hc

end Verif.Fasm
