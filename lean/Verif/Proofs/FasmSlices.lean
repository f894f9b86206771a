import Verif.Spec.FasmSlices
import Verif.Proofs.FasmTotal4
/-! # What the FASM parser delivers stands in the text -/
namespace Verif.Fasm
open Verif.Spec

/-- Of every outcome. -/
def Post {α : Type} (r : Res α) (Q : α → Prop) : Prop := ∀ a, r = .ok a → Q a

theorem Post.ok {α : Type} {a : α} {Q : α → Prop} (h : Q a) : Post (.ok a) Q := by intro b e; cases e; exact h

theorem Post.bind {α β : Type} {r : Res α} {f : α → Res β} {P : α → Prop} {Q : β → Prop} (h : Post r P)
    (hf : ∀ a, P a → Post (f a) Q) : Post (r >>= f) Q := by
  cases r with
  | ok a => exact hf a (h a rfl)
  | oob => intro b e; cases e
  | shift => intro b e; cases e

theorem Post.mono {α : Type} {r : Res α} {P Q : α → Prop} (h : Post r P) (hpq : ∀ a, P a → Q a) : Post r Q :=
  fun a e => hpq a (h a e)

theorem Post.oob {α : Type} {Q : α → Prop} : Post (.oob : Res α) Q := by intro b e; cases e

/-- From `s` to `t` on the same line. -/
def Here (s t : Bytes) : Prop := ∃ x, s = x ++ t ∧ chNl ∉ x

theorem Here.refl (s : Bytes) : Here s s := ⟨[], rfl, by simp⟩

theorem Here.trans {s t u : Bytes} (h : Here s t) (h' : Here t u) : Here s u := by
  obtain ⟨x, rfl, hx⟩ := h
  obtain ⟨y, rfl, hy⟩ := h'
  exact ⟨x ++ y, by simp, by simp [hx, hy]⟩

theorem Here.cons {c : UInt8} {s : Bytes} (h : c ≠ chNl) : Here (c :: s) s := ⟨[c], rfl, by simpa using h.symm⟩

/-- The current character is known. -/
theorem cur_post (s : Bytes) : Post (cur s) fun c => ∃ t, s = c :: t := by
  cases s with
  | nil => exact Post.oob
  | cons c t => exact Post.ok ⟨t, rfl⟩

theorem skipBlank_post (s : Bytes) : Post (skipBlank s) fun t => ∃ b, Blank b ∧ s = b ++ t := by
  induction s with
  | nil => exact Post.oob
  | cons c cs ih =>
    unfold skipBlank
    split
    · rename_i hc
      refine ih.mono ?_
      rintro t ⟨b, hb, e⟩
      refine ⟨c :: b, ?_, by rw [e]; rfl⟩
      intro x hx
      rcases List.mem_cons.1 hx with rfl | hx
      · exact hc
      · exact hb x hx
    · exact Post.ok ⟨[], (fun _ h => by cases h), rfl⟩

theorem blank_nl {b : Bytes} (h : Blank b) : chNl ∉ b := by
  intro hm
  rcases h _ hm with h | h <;> exact absurd h (by decide)

theorem name_nl {b : Bytes} (h : ∀ c ∈ b, NameChar c) : chNl ∉ b := by
  intro hm
  exact absurd (h _ hm) (by decide)

theorem skipBlank_here (s : Bytes) : Post (skipBlank s) (Here s) :=
  (skipBlank_post s).mono fun _ ⟨b, hb, e⟩ => ⟨b, e, blank_nl hb⟩

theorem ident_post (s : Bytes) : Post (ident s) fun r => s = r.1 ++ r.2 ∧ (∀ c ∈ r.1, NameChar c) ∧
    ∀ c, r.2.head? = some c → ¬ NameChar c := by
  induction s with
  | nil => exact Post.oob
  | cons c cs ih =>
    unfold ident
    split
    · rename_i hc
      refine ih.bind ?_
      rintro ⟨n, r⟩ ⟨e, hn, hr⟩
      refine Post.ok ⟨by rw [e]; rfl, ?_, hr⟩
      intro x hx
      rcases List.mem_cons.1 hx with rfl | hx
      · exact (isIdent_spec _).1 hc
      · exact hn x hx
    · rename_i hc
      refine Post.ok ⟨rfl, (fun _ h => by cases h), ?_⟩
      intro x hx
      cases hx
      rw [← isIdent_spec]
      exact hc

theorem quoted_post (s : Bytes) : ∀ prev, Post (quoted prev s) fun r => s = r.1 ++ r.2 ∧ chNl ∉ r.1 ∧
    ∀ c, r.2.head? = some c → c = chNl ∨ c = chQuote := by
  induction s with
  | nil => intro _; exact Post.oob
  | cons c cs ih =>
    intro prev
    unfold quoted
    split
    · rename_i hc
      exact Post.ok ⟨rfl, by simp, fun x hx => by cases hx; exact .inl hc⟩
    · rename_i hc
      split
      · rename_i hq
        exact Post.ok ⟨rfl, by simp, fun x hx => by cases hx; exact .inr hq.1⟩
      · refine (ih c).bind ?_
        rintro ⟨v, r⟩ ⟨e, hv, hr⟩
        exact Post.ok ⟨by rw [e]; rfl, by simp only [List.mem_cons, not_or]; exact ⟨fun h => hc h.symm, hv⟩, hr⟩

theorem digits_here (base bits : Nat) (hb : base ≤ 16) (s : Bytes) : ∀ v, Post (digits base bits v s) fun r => Here s r.2 := by
  induction s with
  | nil => intro _; exact Post.oob
  | cons c cs ih =>
    intro v
    unfold digits
    split
    · rename_i hc
      have hn : c ≠ chNl := by
        rintro rfl
        rw [digitOf_nl] at hc
        omega
      split
      · exact (ih v).mono fun _ h => (Here.cons hn).trans h
      · exact (ih _).mono fun _ h => (Here.cons hn).trans h
    · exact Post.ok (Here.refl _)

theorem number_here (base bits v : Nat) (hb : base ≤ 16) (s : Bytes) : Post (number base bits v s) fun r => Here s r.2 :=
  (skipBlank_here s).bind fun t ht => (digits_here base bits hb t v).mono fun _ h => ht.trans h

theorem longDigits_here (l2 : Nat) (hb : l2 ≤ 4) (s : Bytes) : ∀ n v, Post (longDigits l2 n v s) fun r => Here s r.2 := by
  induction s with
  | nil => intro _ _; exact Post.oob
  | cons c cs ih =>
    intro n v
    rw [longDigits.eq_def]
    dsimp only
    split
    · rename_i hc
      have hn : c ≠ chNl := by
        rintro rfl
        rw [digitOf_nl] at hc
        have : 2 ^ l2 ≤ 2 ^ 4 := Nat.pow_le_pow_right (by decide) hb
        omega
      split
      · exact (ih _ _).mono fun _ h => (Here.cons hn).trans h
      · split
        · exact Post.oob
        · exact (ih _ _).mono fun _ h => (Here.cons hn).trans h
    · exact Post.ok (Here.refl _)

theorem longNumber_here (l2 : Nat) (hb : l2 ≤ 4) (s : Bytes) : Post (longNumber l2 s) fun r => Here s r.2 :=
  (skipBlank_here s).bind fun t ht => (longDigits_here l2 hb t 0 []).bind fun _ h => Post.ok (ht.trans h)

theorem adv_cons (c : UInt8) (s : Bytes) : adv (c :: s) = s := rfl

theorem rangeMin_here (m : Nat) (s : Bytes) : Post (rangeMin m s) fun r => Here s r.2 := by
  unfold rangeMin
  refine (cur_post s).bind ?_
  rintro c ⟨t, rfl⟩
  split
  · rename_i hc
    refine (number_here 10 16 0 (by decide) _).bind fun a ha => (skipBlank_here _).bind fun u hu => Post.ok ?_
    exact (Here.cons (by rw [hc]; decide)).trans (ha.trans hu)
  · exact Post.ok (Here.refl _)

theorem range_here (s : Bytes) : Post (parseRange s) fun r => Here s r.2 := by
  unfold parseRange
  refine (cur_post s).bind ?_
  rintro c ⟨t, rfl⟩
  split
  · rename_i hc
    refine (number_here 10 16 0 (by decide) _).bind fun a ha => (skipBlank_here _).bind fun u hu => (rangeMin_here _ _).bind fun b hb =>
      (cur_post _).bind ?_
    rintro d ⟨v, hv⟩
    have h : Here (c :: t) b.2 := (Here.cons (by rw [hc]; decide)).trans (ha.trans (hu.trans hb))
    split
    · exact Post.ok h
    · rename_i hd
      have h2 : Here (c :: t) (adv b.2) := by
        refine h.trans ?_
        rw [hv]
        have : d = chRBrack := Classical.not_not.1 hd
        exact Here.cons (by rw [this]; decide)
      split
      · exact Post.ok h2
      · exact Post.ok h2
  · exact Post.ok (Here.refl _)

theorem lead_here (s : Bytes) : Post (leadNumber s) fun r => Here s r.2 := by
  unfold leadNumber
  refine (cur_post s).bind ?_
  rintro c ⟨t, rfl⟩
  split
  · exact number_here 10 64 0 (by decide) _
  · exact Post.ok (Here.refl _)

/-- Further on in the text, on the same line or at a newline. -/
def Along (s t : Bytes) : Prop := Here s t ∨ (t <:+ s ∧ t.head? = some chNl)

theorem Here.suffix {s t : Bytes} (h : Here s t) : t <:+ s := by obtain ⟨x, e, _⟩ := h; exact ⟨x, e.symm⟩

theorem Along.suffix {s t : Bytes} (h : Along s t) : t <:+ s := h.elim Here.suffix And.left

theorem Here.along {s t u : Bytes} (h : Here s t) (h' : Along t u) : Along s u := by
  rcases h' with h' | h'
  · exact .inl (h.trans h')
  · exact .inr ⟨h'.1.trans h.suffix, h'.2⟩

theorem skipToEol_post (s : Bytes) : Post (skipToEol s) fun t => Here s t ∧ t.head? = some chNl := by
  induction s with
  | nil => exact Post.oob
  | cons c cs ih =>
    unfold skipToEol
    split
    · rename_i hc
      exact Post.ok ⟨Here.refl _, by rw [hc]; rfl⟩
    · rename_i hc
      exact ih.mono fun _ h => ⟨(Here.cons hc).trans h.1, h.2⟩

/-- A value: nothing but the diagnostics changes. -/
theorem value_along (st : St) (line : Nat) (f : UInt8) (s : Bytes) :
    Post (parseValue st line f s) fun r => r.1.trace = st.trace ∧ ((f ≠ chNl ∧ Here s r.2.2) ∨ (Here s r.2.2 ∧ r.2.2.head? = some chNl)) := by
  unfold parseValue
  split
  · rename_i hf
    exact (longNumber_here 4 (by decide) s).bind fun _ h => Post.ok ⟨rfl, .inl ⟨by rw [hf]; decide, h⟩⟩
  · split
    · rename_i hf
      exact (longNumber_here 1 (by decide) s).bind fun _ h => Post.ok ⟨rfl, .inl ⟨by rw [hf]; decide, h⟩⟩
    · split
      · rename_i hf
        exact (number_here 8 64 0 (by decide) s).bind fun _ h => Post.ok ⟨rfl, .inl ⟨by rw [hf]; decide, h⟩⟩
      · split
        · rename_i hf
          exact (number_here 10 64 0 (by decide) s).bind fun _ h => Post.ok ⟨rfl, .inl ⟨by rw [hf]; decide, h⟩⟩
        · exact (skipToEol_post s).bind fun _ h => Post.ok ⟨rfl, .inr h⟩

theorem skipBlank_stay {s : Bytes} (h : s.head? = some chNl) : Post (skipBlank s) fun t => t = s := by
  cases s with
  | nil => cases h
  | cons c cs =>
    cases h
    unfold skipBlank
    rw [if_neg (by decide)]
    exact Post.ok rfl

theorem clamp_trace (st : St) (line w : Nat) (i : Bool) : (clampWidth st line w i).1.trace = st.trace := by
  unfold clampWidth
  split <;> rfl

theorem ticked_along (st : St) (line w d : Nat) (s : Bytes) :
    Post (parseTicked st line w d s) fun r => r.1.trace = st.trace ∧ Along s r.2.2.2 := by
  unfold parseTicked
  refine (skipBlank_here s).bind fun t ht => (cur_post t).bind ?_
  rintro f ⟨u, rfl⟩
  dsimp only
  have htr : ∀ i, (clampWidth (if d > w then st.report line .nonCritical else st) line w i).1.trace = st.trace := by
    intro i
    rw [clamp_trace]
    split <;> rfl
  refine (value_along _ line f (adv (f :: u))).bind ?_
  rintro ⟨st', v, x⟩ ⟨h1, h2⟩
  rcases h2 with ⟨hf, h2⟩ | ⟨h2, h3⟩
  · exact (skipBlank_here x).bind fun y hy => Post.ok ⟨h1.trans (htr _), .inl (ht.trans ((Here.cons hf).trans (h2.trans hy)))⟩
  · refine (skipBlank_stay h3).bind ?_
    rintro y rfl
    refine Post.ok ⟨h1.trans (htr _), .inr ⟨?_, h3⟩⟩
    exact h2.suffix.trans ((List.suffix_cons f u).trans ht.suffix)

theorem assign_along (st : St) (line mx mn : Nat) (s : Bytes) :
    Post (parseAssign st line mx mn s) fun r => r.1.trace = st.trace ∧ Along s r.2.2.2 := by
  unfold parseAssign
  refine (cur_post s).bind ?_
  rintro c ⟨t, rfl⟩
  dsimp only
  split
  · rename_i hc
    have h0 : Here (c :: t) t := Here.cons (by rw [hc]; decide)
    refine (skipBlank_here _).bind fun u hu => (lead_here u).bind fun a ha => (skipBlank_here _).bind fun x hx => (cur_post x).bind ?_
    rintro d ⟨y, rfl⟩
    have h1 : Here (c :: t) (d :: y) := h0.trans (hu.trans (ha.trans hx))
    split
    · rename_i hd
      refine (ticked_along _ _ _ _ _).mono ?_
      rintro r ⟨h2, h3⟩
      exact ⟨h2, h1.along ((Here.cons (by rw [hd]; decide)).along h3)⟩
    · exact Post.ok ⟨clamp_trace _ _ _ _, .inl h1⟩
  · refine Post.ok ⟨?_, .inl (Here.refl _)⟩
    split <;> rfl

/-! ## Calls -/

/-- The strings of a call stand at the beginning of what is left of the line, before any newline. -/
inductive StandsIn (s : Bytes) (line : Nat) : Event → Prop where
  | feature {name start width bits} (pre post) (h : s = pre ++ (name ++ post)) (hpre : Blank pre) (hn : IsName name)
      (hpost : ∀ c, post.head? = some c → ¬ NameChar c) : StandsIn s line (.feature line name start width bits)
  | annotation {feature name value} (pre mid eq post) (h : s = pre ++ (feature ++ (mid ++ (name ++ (eq ++ 0x22 :: (value ++ 0x22 :: post))))))
      (hpre : Blank pre) (hf : ∀ c ∈ feature, NameChar c) (hn : ∀ c ∈ name, NameChar c) (heq : ∃ a b, Blank a ∧ Blank b ∧ eq = a ++ 0x3d :: b)
      (hmid : ∃ m a b, mid = m ++ a :: b ∧ (a = 0x7b ∨ a = 0x2c) ∧ Blank b) (hnm : chNl ∉ mid) (hnv : chNl ∉ value) :
      StandsIn s line (.annotation line feature name value)

/-- Calls were added, and all of them stand in `s`. -/
def Adds (s : Bytes) (line : Nat) (st st' : St) : Prop := ∃ evs, st'.trace = st.trace ++ evs ∧ ∀ e ∈ evs, StandsIn s line e

theorem Adds.refl {s : Bytes} {line : Nat} {st st' : St} (h : st'.trace = st.trace) : Adds s line st st' :=
  ⟨[], by rw [h, List.append_nil], fun _ h => by cases h⟩

theorem Adds.trans {s : Bytes} {line : Nat} {a b c : St} (h : Adds s line a b) (h' : Adds s line b c) : Adds s line a c := by
  obtain ⟨x, hx, hx'⟩ := h
  obtain ⟨y, hy, hy'⟩ := h'
  refine ⟨x ++ y, by rw [hy, hx, List.append_assoc], fun e he => ?_⟩
  rcases List.mem_append.1 he with he | he
  · exact hx' e he
  · exact hy' e he

theorem Adds.one {s : Bytes} {line : Nat} {a : St} {e : Event} {st' : St} (ht : st'.trace = a.trace ++ [e]) (h : StandsIn s line e) :
    Adds s line a st' := ⟨[e], ht, fun x hx => by rw [List.mem_singleton.1 hx]; exact h⟩

theorem chunks_adds (cb : List Event → Bool) (line : Nat) (name : Bytes) (mn w total : Nat) (s pre post : Bytes)
    (h : s = pre ++ (name ++ post)) (hpre : Blank pre) (hn : IsName name) (hpost : ∀ c, post.head? = some c → ¬ NameChar c) :
    ∀ (vs : List Nat) (k : Nat) (st : St), Post (reportChunks cb line name mn w total k vs st) fun st' => Adds s line st st' := by
  intro vs
  induction vs with
  | nil => intro k st; exact Post.ok (Adds.refl rfl)
  | cons v vs ih =>
    intro k st
    rw [reportChunks]
    dsimp only
    split
    · intro a e; cases e
    · split
      · exact (ih _ _).mono fun st' h' => (Adds.one rfl (.feature pre post h hpre hn hpost)).trans h'
      · exact Post.ok (Adds.one rfl (.feature pre post h hpre hn hpost))

theorem annotations_adds (line : Nat) (feature s pre : Bytes) (hpre : Blank pre) (hf : ∀ c ∈ feature, NameChar c) :
    ∀ (fuel : Nat) (st : St) (m : Bytes) (a : UInt8) (t : Bytes), s = pre ++ (feature ++ (m ++ a :: t)) → chNl ∉ m → (a = 0x7b ∨ a = 0x2c) →
      Post (annotations line feature fuel st (a :: t)) fun r => Adds s line st r.1 ∧ r.2 <:+ s := by
  intro fuel
  induction fuel with
  | zero => intro _ _ _ _ _ _ _; exact Post.oob
  | succ fuel ih =>
    intro st m a t hs hm ha
    unfold annotations
    have hsuf0 : t <:+ s := ⟨pre ++ (feature ++ (m ++ [a])), by rw [hs]; simp⟩
    have hanl : a ≠ chNl := by rcases ha with rfl | rfl <;> decide
    refine (skipBlank_post _).bind ?_
    rintro u ⟨b, hb, hu⟩
    rw [adv_cons] at hu
    refine (ident_post u).bind ?_
    rintro ⟨aname, v⟩ ⟨hv, hname, _⟩
    dsimp only at hv hname ⊢
    refine (skipBlank_post v).bind ?_
    rintro x ⟨b1, hb1, hx⟩
    refine (cur_post x).bind ?_
    rintro c ⟨y, rfl⟩
    have hsuf1 : c :: y <:+ s := by
      refine List.IsSuffix.trans ?_ hsuf0
      rw [hu, hv, hx]
      exact ⟨b ++ (aname ++ b1), by simp⟩
    split
    · exact Post.ok ⟨Adds.refl rfl, hsuf1⟩
    · rename_i hc
      have hc : c = chEq := Classical.not_not.1 hc
      refine (skipBlank_post _).bind ?_
      rintro z ⟨b2, hb2, hz⟩
      rw [adv_cons] at hz
      refine (cur_post z).bind ?_
      rintro d ⟨q, rfl⟩
      have hsuf2 : d :: q <:+ s := by
        refine List.IsSuffix.trans ?_ ((List.suffix_cons c y).trans hsuf1)
        rw [hz]
        exact ⟨b2, rfl⟩
      split
      · exact Post.ok ⟨Adds.refl rfl, hsuf2⟩
      · rename_i hd
        have hd : d = chQuote := Classical.not_not.1 hd
        refine (quoted_post _ _).bind ?_
        rintro ⟨value, q2⟩ ⟨hq, hnv, hend⟩
        rw [adv_cons] at hq
        dsimp only at hq hnv hend ⊢
        refine (cur_post q2).bind ?_
        rintro e ⟨q3, rfl⟩
        have hsuf3 : e :: q3 <:+ s := by
          refine List.IsSuffix.trans ?_ ((List.suffix_cons d q).trans hsuf2)
          rw [hq]
          exact ⟨value, rfl⟩
        split
        · exact Post.ok ⟨Adds.refl rfl, hsuf3⟩
        · rename_i he
          have he : e = chQuote := (hend e rfl).resolve_left he
          have hstand : StandsIn s line (.annotation line feature aname value) := by
            refine .annotation pre (m ++ a :: b) (b1 ++ 0x3d :: b2) q3 ?_ hpre hf hname ⟨b1, b2, hb1, hb2, rfl⟩ ⟨m, a, b, rfl, ha, hb⟩ ?_ hnv
            · rw [hs, hu, hv, hx, hz, hq, hc, hd, he]
              simp only [List.append_assoc, List.cons_append]
            · simp only [List.mem_append, List.mem_cons, not_or]
              exact ⟨hm, hanl.symm, blank_nl hb⟩
          refine (skipBlank_post _).bind ?_
          rintro w ⟨b3, hb3, hw⟩
          rw [adv_cons] at hw
          refine (cur_post w).bind ?_
          rintro k ⟨w2, rfl⟩
          have hs' : s = pre ++ (feature ++ ((m ++ a :: (b ++ (aname ++ (b1 ++ 0x3d :: (b2 ++ 0x22 :: (value ++ 0x22 :: b3)))))) ++ k :: w2)) := by
            rw [hs, hu, hv, hx, hz, hq, hw, hc, hd, he]
            simp only [List.append_assoc, List.cons_append]
          split
          · rename_i hk
            refine (ih _ _ k w2 hs' ?_ (.inr hk)).mono ?_
            · simp only [List.mem_append, List.mem_cons, not_or]
              refine ⟨hm, hanl.symm, blank_nl hb, name_nl hname, blank_nl hb1, by decide, blank_nl hb2, by decide, hnv, by decide, blank_nl hb3⟩
            · rintro r ⟨h1, h2⟩
              exact ⟨(Adds.one rfl hstand).trans h1, h2⟩
          · refine Post.ok ⟨Adds.one rfl hstand, ?_⟩
            rw [hs']
            exact ⟨pre ++ (feature ++ (m ++ a :: (b ++ (aname ++ (b1 ++ 0x3d :: (b2 ++ 0x22 :: (value ++ 0x22 :: b3))))))), by
              simp only [List.append_assoc, List.cons_append]⟩

/-- What is left after a line stands behind a newline. -/
def Behind (s rest : Bytes) : Prop := ∃ x, s = x ++ chNl :: rest

theorem behind_of {s t : Bytes} (h : t <:+ s) (hh : t.head? = some chNl) : Behind s (adv t) := by
  obtain ⟨x, rfl⟩ := h
  cases t with
  | nil => cases hh
  | cons c t => cases hh; exact ⟨x, rfl⟩

theorem anns_adds (ann : Bool) (line : Nat) (feature s pre m t : Bytes) (hs : s = pre ++ (feature ++ (m ++ 0x7b :: t))) (hpre : Blank pre)
    (hf : ∀ c ∈ feature, NameChar c) (hm : chNl ∉ m) (st : St) :
    Post (parseAnnotations ann st line feature (0x7b :: t)) fun r => Adds s line st r.1 ∧ r.2 <:+ s ∧ r.2.head? = some chNl := by
  unfold parseAnnotations
  split
  · refine (annotations_adds line feature s pre hpre hf _ st m 0x7b t hs hm (.inl rfl)).bind ?_
    rintro ⟨st', u⟩ ⟨h1, h2⟩
    dsimp only at h1 h2 ⊢
    refine (cur_post u).bind ?_
    rintro c ⟨v, rfl⟩
    refine (skipToEol_post _).bind ?_
    rintro w ⟨h3, h4⟩
    refine Post.ok ⟨h1.trans (Adds.refl ?_), h3.suffix.trans h2, h4⟩
    dsimp only
    split <;> rfl
  · refine (skipToEol_post _).bind ?_
    rintro w ⟨h3, h4⟩
    refine Post.ok ⟨Adds.refl rfl, h3.suffix.trans ⟨pre ++ (feature ++ m), ?_⟩, h4⟩
    rw [hs]
    simp

theorem end_adds (st : St) (line : Nat) (t : Bytes) : Post (parseEnd st line t) fun r => r.1.trace = st.trace ∧ Behind t r.2 := by
  unfold parseEnd
  refine (cur_post t).bind ?_
  rintro c ⟨u, rfl⟩
  split
  · exact (skipToEol_post _).bind fun w h => Post.ok ⟨rfl, behind_of h.1.suffix h.2⟩
  · split
    · exact (skipToEol_post _).bind fun w h => Post.ok ⟨rfl, behind_of h.1.suffix h.2⟩
    · rename_i hc
      exact Post.ok ⟨rfl, behind_of (List.suffix_refl _) (by rw [Classical.not_not.1 hc]; rfl)⟩

theorem Behind.suf {s t rest : Bytes} (h : t <:+ s) (hb : Behind t rest) : Behind s rest := by
  obtain ⟨x, rfl⟩ := h
  obtain ⟨y, rfl⟩ := hb
  exact ⟨x ++ y, by simp⟩

/-- `t` is at the end of the name, or further on. -/
theorem tail_adds (ann : Bool) (line : Nat) (feature s pre t0 t : Bytes) (hs : s = pre ++ (feature ++ t0)) (hpre : Blank pre)
    (hf : ∀ c ∈ feature, NameChar c) (ht : Along t0 t) (st : St) :
    Post (parseTail ann st line feature t) fun r => Adds s line st r.1 ∧ Behind s r.2 := by
  have hsuf : t <:+ s := ht.suffix.trans ⟨pre ++ feature, by rw [hs]; simp⟩
  unfold parseTail
  refine (cur_post t).bind ?_
  rintro c ⟨u, rfl⟩
  split
  · rename_i hc
    cases hc
    have hh : Here t0 (chLBrace :: u) := by
      rcases ht with h | h
      · exact h
      · exact absurd (Option.some.inj h.2) (by decide)
    obtain ⟨m, hm, hnl⟩ := hh
    refine (anns_adds ann line feature s pre m u (by rw [hs, hm]) hpre hf hnl st).bind ?_
    rintro ⟨st', v⟩ ⟨h1, h2, h3⟩
    dsimp only at h1 h2 h3 ⊢
    refine (end_adds st' line v).mono ?_
    rintro r ⟨h4, h5⟩
    exact ⟨h1.trans (Adds.refl h4), h5.suf h2⟩
  · refine (end_adds st line _).mono ?_
    rintro r ⟨h4, h5⟩
    exact ⟨Adds.refl h4, h5.suf hsuf⟩

theorem line_adds (ann : Bool) (cb : List Event → Bool) (st : St) (line : Nat) (s : Bytes) :
    Post (parseLine ann cb st line s) fun r => Adds s line st r.1 ∧ Behind s r.2 := by
  unfold parseLine
  refine (skipBlank_post s).bind ?_
  rintro t ⟨pre, hpre, hs⟩
  refine (ident_post t).bind ?_
  rintro ⟨feature, u⟩ ⟨ht, hf, hend⟩
  dsimp only at ht hf hend ⊢
  refine (skipBlank_here u).bind fun v hv => ?_
  have hs' : s = pre ++ (feature ++ u) := by rw [hs, ht]
  have hsufu : u <:+ s := ⟨pre ++ feature, by rw [hs']; simp⟩
  split
  · exact tail_adds ann line feature s pre u v hs' hpre hf (.inl hv) st
  · rename_i hne
    have hname : IsName feature := ⟨by rintro rfl; exact hne rfl, hf⟩
    refine (range_here v).bind ?_
    rintro ⟨range, w⟩ hw
    dsimp only at hw ⊢
    have hsufw : w <:+ s := hw.suffix.trans (hv.suffix.trans hsufu)
    split
    · exact (skipToEol_post _).bind fun x h => Post.ok ⟨Adds.refl rfl, behind_of (h.1.suffix.trans hsufw) h.2⟩
    · exact (skipToEol_post _).bind fun x h => Post.ok ⟨Adds.refl rfl, behind_of (h.1.suffix.trans hsufw) h.2⟩
    · refine (skipBlank_here w).bind fun x hx => (assign_along st line _ _ x).bind ?_
      rintro ⟨st1, width, bits, y⟩ ⟨h1, h2⟩
      dsimp only at h1 h2 ⊢
      refine (chunks_adds cb line feature _ _ _ s pre u hs' hpre hname hend _ _ st1).bind fun st2 h3 => ?_
      refine (tail_adds ann line feature s pre u y hs' hpre hf ?_ st2).mono ?_
      · exact hv.along (hw.along (hx.along h2))
      · rintro r ⟨h4, h5⟩
        exact ⟨(Adds.refl h1).trans (h3.trans h4), h5⟩

/-! ## The line -/

theorem line_cut {l after y z : Bytes} (hl : chNl ∉ l) (hy : chNl ∉ y) (h : y ++ z = l ++ chNl :: after) :
    ∃ z', l = y ++ z' ∧ z = z' ++ chNl :: after := by
  induction y generalizing l with
  | nil => exact ⟨l, rfl, h⟩
  | cons c y ih =>
    cases l with
    | nil =>
      simp only [List.cons_append, List.nil_append, List.cons.injEq] at h
      exact absurd (by rw [h.1]; simp) hy
    | cons d l =>
      simp only [List.cons_append, List.cons.injEq] at h
      obtain ⟨z', h1, h2⟩ := ih (fun hm => hl (List.mem_cons_of_mem _ hm)) (fun hm => hy (List.mem_cons_of_mem _ hm)) h.2
      exact ⟨z', by rw [h.1, h1]; rfl, h2⟩

theorem StandsIn.on {l after : Bytes} {line : Nat} {e : Event} (hl : chNl ∉ l) (h : StandsIn (l ++ chNl :: after) line e) :
    StandsOn l e ∧ eventLine e = line := by
  cases h with
  | feature pre post h hpre hn hpost =>
    rw [← List.append_assoc] at h
    obtain ⟨z, h1, h2⟩ := line_cut hl (by simp only [List.mem_append, not_or]; exact ⟨blank_nl hpre, name_nl hn.2⟩) h.symm
    refine ⟨.feature pre z (by rw [h1, List.append_assoc]) hpre hn ?_, rfl⟩
    intro c hc
    apply hpost
    rw [h2]
    cases z with
    | nil => cases hc
    | cons => exact hc
  | @annotation feature name value pre mid eq post h hpre hf hn heq hmid hnm hnv =>
    have hq : chNl ∉ eq := by
      obtain ⟨a, b, ha, hb, rfl⟩ := heq
      simp only [List.mem_append, List.mem_cons, not_or]
      exact ⟨blank_nl ha, by decide, blank_nl hb⟩
    have h' : (pre ++ (feature ++ (mid ++ (name ++ (eq ++ 0x22 :: (value ++ bytes!"\"")))))) ++ post = l ++ chNl :: after := by
      rw [h]
      simp only [List.append_assoc, List.cons_append, List.nil_append]
    obtain ⟨z, h1, _⟩ := line_cut hl (by
      simp only [List.mem_append, List.mem_cons, List.not_mem_nil, not_or]
      exact ⟨blank_nl hpre, name_nl hf, hnm, name_nl hn, hq, by decide, hnv, by decide, not_false⟩) h'
    refine ⟨.annotation pre mid eq z ?_ hpre hf hn heq hmid, rfl⟩
    rw [h1]
    simp only [List.append_assoc, List.cons_append, List.nil_append]

/-- A text with a newline begins with a line. -/
theorem first_line (s : Bytes) (h : chNl ∈ s) : ∃ l after, s = l ++ chNl :: after ∧ chNl ∉ l := by
  induction s with
  | nil => cases h
  | cons c s ih =>
    by_cases hc : c = chNl
    · exact ⟨[], s, by rw [hc]; rfl, by simp⟩
    · obtain ⟨l, after, h1, h2⟩ := ih ((List.mem_cons.1 h).resolve_left fun e => hc e.symm)
      exact ⟨c :: l, after, by rw [h1]; rfl, by simp only [List.mem_cons, not_or]; exact ⟨fun e => hc e.symm, h2⟩⟩

/-! ## The text -/

/-- Where every call so far stands. -/
def Placed (content : Bytes) (exact : Prop) (e : Event) : Prop :=
  ∃ before l, IsLineOf content before l ∧ StandsOn l e ∧ eventLine e ≤ before.count chNl + 1 ∧
    (exact → eventLine e = before.count chNl + 1)

theorem lines_placed (ann : Bool) (cb : List Event → Bool) (content : Bytes) (hcount : content.count chNl < 2 ^ 32)
    (exact : Prop) (hex : exact → ∀ before l, IsLineOf content before l → ¬ Dangles l) :
    ∀ (fuel line : Nat) (st : St) (before s : Bytes), content = before ++ s → (before = [] ∨ before.getLast? = some chNl) →
      line ≤ before.count chNl → (exact → line = before.count chNl) → (∀ e ∈ st.trace, Placed content exact e) →
      Post (parseLines ann cb fuel line st s) fun st' => ∀ e ∈ st'.trace, Placed content exact e := by
  intro fuel
  induction fuel with
  | zero =>
    intro line st before s _ _ _ _ h
    cases s with
    | nil => exact Post.ok h
    | cons c cs => exact Post.oob
  | succ fuel ih =>
    intro line st before s hs hb hl hle h
    cases hs0 : s with
    | nil => exact Post.ok h
    | cons c cs =>
      rw [parseLines.eq_def]
      dsimp only
      rw [← hs0]
      have hmem : ∀ r, parseLine ann cb st ((line + 1) % 2 ^ 32) s = .ok r → chNl ∈ s := by
        intro r hr
        obtain ⟨x, hx⟩ := (line_adds ann cb st _ s r hr).2
        rw [hx]; simp
      cases hp : parseLine ann cb st ((line + 1) % 2 ^ 32) s with
      | oob => exact Post.oob
      | shift => intro a e; cases e
      | ok r =>
        obtain ⟨l, after, hline, hnl⟩ := first_line s (hmem r hp)
        obtain ⟨⟨evs, htr, hev⟩, x, hx⟩ := line_adds ann cb st _ s r hp
        have hisline : IsLineOf content before l := ⟨hnl, hb, after, by rw [hs, hline]⟩
        have hcnt : before.count chNl + 1 ≤ content.count chNl := by
          rw [hs, hline, List.count_append, List.count_append, List.count_cons_self]
          omega
        have hmod : (line + 1) % 2 ^ 32 = line + 1 := Nat.mod_eq_of_lt (by omega)
        rw [hmod] at hp hev ⊢
        simp only [Res.bind_ok]
        refine ih (line + 1) r.1 (before ++ (x ++ [chNl])) r.2 ?_ ?_ ?_ ?_ ?_
        · rw [hs, hx]; simp
        · exact .inr (by simp [List.getLast?_append])
        · simp only [List.count_append, List.count_singleton_self]
          omega
        · intro he
          have hd := hex he before l hisline
          rw [dangles_iff] at hd
          rw [hline, parseLine_nl' ann cb st (line + 1) l after hnl hd] at hp
          revert hp
          cases lineP ann cb st (line + 1) l with
          | oob => intro hp; cases hp
          | shift => intro hp; cases hp
          | ok st' =>
            intro hp
            cases hp
            have hxl : x = l := by
              have : x ++ [chNl] ++ after = l ++ [chNl] ++ after := by
                rw [List.append_assoc, List.append_assoc]
                exact hx.symm.trans hline
              exact List.append_cancel_right (List.append_cancel_right this)
            subst hxl
            rw [List.count_append, List.count_append, List.count_singleton_self, List.count_eq_zero_of_not_mem hnl, hle he]
        · intro e he
          rw [htr] at he
          rcases List.mem_append.1 he with he | he
          · exact h e he
          · have hst := hev e he
            rw [hline] at hst
            obtain ⟨h1, h2⟩ := hst.on hnl
            exact ⟨before, l, hisline, h1, by omega, fun hE => by rw [h2, hle hE]⟩

theorem parse_placed (ann : Bool) (cb : List Event → Bool) (content : Bytes) (hcount : content.count chNl < 2 ^ 32)
    (exact : Prop) (hex : exact → ∀ before l, IsLineOf content before l → ¬ Dangles l) :
    Post (parse ann cb content) fun st => ∀ e ∈ st.trace, Placed content exact e := by
  unfold parse
  cases content.getLast? with
  | none => exact Post.ok fun _ h => by cases h
  | some c =>
    dsimp only
    split
    · exact Post.ok fun _ h => by cases h
    · exact lines_placed ann cb content hcount exact hex _ 0 {} [] content rfl (.inl rfl) (by simp) (fun _ => by simp)
        fun _ h => by cases h

end Verif.Fasm
