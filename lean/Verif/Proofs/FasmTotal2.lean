import Verif.Proofs.FasmTotal
/-! # Annotations, endings and whole lines of any shape -/
namespace Verif.Fasm
open Verif.Spec

/-! ## Annotations -/

abbrev Ann := (Nat → Bytes) × Bytes × Bytes

def AnnOk (a : Ann) : Prop := (∀ i, Blank (a.1 i)) ∧ (∀ c ∈ a.2.1, NameChar c) ∧ Quotable a.2.2

/-- The list after its opening character. -/
def annBody' : List Ann → Bytes
  | [] => []
  | [a] => annotationText a.1 a.2
  | a :: b :: as => annotationText a.1 a.2 ++ 0x2c :: annBody' (b :: as)

theorem annBody'_eq (as : List Ann) :
    (bytes!"," : Bytes).intercalate (as.map fun a => annotationText a.1 a.2) = annBody' as := by
  induction as with
  | nil => rfl
  | cons a as ih =>
    cases as with
    | nil => simp [annBody', List.intercalate]
    | cons b bs =>
      rw [annBody', ← ih]
      simp [List.intercalate]

theorem annP_step (line : Nat) (feature : Bytes) (a : Ann) (ha : AnnOk a) (n : Nat) (st : St) (c : UInt8) (tl : Bytes)
    (htl : isBlank (hd tl) = false) :
    annP line feature (n + 1) st (c :: (annotationText a.1 a.2 ++ tl)) =
      (if hd tl = chComma then
        annP line feature n { st with trace := st.trace ++ [.annotation line feature a.2.1 a.2.2] } tl
       else ({ st with trace := st.trace ++ [.annotation line feature a.2.1 a.2.2] }, tl)) := by
  obtain ⟨g, an, av⟩ := a
  obtain ⟨hg, hname, hq⟩ := ha
  have hnm : ∀ c ∈ an, isIdent c = true := fun c hc => (isIdent_spec c).2 (hname c hc)
  dsimp only at hg ⊢
  rw [annP]
  dsimp only [List.tail_cons]
  have e1 : (annotationText g (an, av) ++ tl).dropWhile isBlank =
      an ++ (g 1 ++ 0x3d :: (g 2 ++ 0x22 :: (av ++ 0x22 :: (g 3 ++ tl)))) ∨
      (an = [] ∧ (annotationText g (an, av) ++ tl).dropWhile isBlank =
        0x3d :: (g 2 ++ 0x22 :: (av ++ 0x22 :: (g 3 ++ tl)))) := by
    unfold annotationText
    simp only [List.append_assoc, List.cons_append]
    cases hn : an with
    | nil =>
      right
      refine ⟨rfl, ?_⟩
      rw [List.nil_append, ← List.append_assoc]
      exact dropBlank _ _ (blank_append (hg 0) (hg 1)) (by rw [hd_cons]; decide)
    | cons x xs =>
      left
      refine dropBlank _ _ (hg 0) ?_
      exact ident_not_blank (hnm x (by rw [hn]; exact List.mem_cons_self))
  have e2 : ((annotationText g (an, av) ++ tl).dropWhile isBlank).takeWhile isIdent = an ∧
      (((annotationText g (an, av) ++ tl).dropWhile isBlank).dropWhile isIdent).dropWhile isBlank =
        0x3d :: (g 2 ++ 0x22 :: (av ++ 0x22 :: (g 3 ++ tl))) := by
    rcases e1 with e1 | ⟨e0, e1⟩
    · rw [e1]
      have := span_eq isIdent an (g 1 ++ 0x3d :: (g 2 ++ 0x22 :: (av ++ 0x22 :: (g 3 ++ tl)))) hnm isIdent_nl
        (hd_append _ _ _ (blank_not_ident (hg 1)) (by rw [hd_cons]; decide))
      rw [this.1, this.2]
      exact ⟨rfl, dropBlank (g 1) _ (hg 1) (by rw [hd_cons]; decide)⟩
    · rw [e1, e0]
      have := span_eq isIdent [] (0x3d :: (g 2 ++ 0x22 :: (av ++ 0x22 :: (g 3 ++ tl)))) (by simp) isIdent_nl
        (by rw [hd_cons]; decide)
      rw [List.nil_append] at this
      rw [this.1, this.2]
      exact ⟨rfl, dropBlank [] _ blank_nil (by rw [hd_cons]; decide)⟩
  have e3 := dropBlank (g 2) (0x22 :: (av ++ 0x22 :: (g 3 ++ tl))) (hg 2) (by rw [hd_cons]; decide)
  have e4 := dropBlank (g 3) tl (hg 3) htl
  simp only [e2.1, e2.2, hd_cons, ne_eq, not_true, if_false, List.tail_cons, e3, quotable_text hq, e4,
    reduceCtorEq]

def annEvents' (line : Nat) (feature : Bytes) (as : List Ann) : List Event :=
  as.map fun a => .annotation line feature a.2.1 a.2.2

theorem annP_text' (line : Nat) (feature e : Bytes) : ∀ (as : List Ann), as ≠ [] → (∀ a ∈ as, AnnOk a) →
    ∀ (n : Nat) (st : St) (c : UInt8), as.length ≤ n →
    annP line feature n st (c :: (annBody' as ++ 0x7d :: e)) =
      ({ st with trace := st.trace ++ annEvents' line feature as }, 0x7d :: e) := by
  intro as
  induction as with
  | nil => intro h; exact absurd rfl h
  | cons a as ih =>
    intro _ hwf n st c hn
    have ha := hwf a List.mem_cons_self
    cases n with
    | zero => simp at hn
    | succ n =>
      cases as with
      | nil =>
        rw [annBody', annP_step line feature a ha n st c (0x7d :: e) (by rw [hd_cons]; decide)]
        rw [if_neg (by rw [hd_cons]; decide)]
        rfl
      | cons b bs =>
        rw [annBody', List.append_assoc, List.cons_append, annP_step line feature a ha n st c _ (by rw [hd_cons]; decide)]
        rw [if_pos (hd_cons _ _), ih (by simp) (fun x hx => hwf x (List.mem_cons_of_mem _ hx)) n _ _
          (by simp only [List.length_cons] at hn ⊢; omega)]
        simp [annEvents']

theorem annBody'_length : ∀ (as : List Ann), as.length ≤ (annBody' as).length := by
  intro as
  induction as with
  | nil => simp
  | cons a as ih =>
    cases as with
    | nil => simp [annBody', annotationText]; omega
    | cons b bs =>
      simp only [annBody', List.length_append, List.length_cons] at ih ⊢
      omega

theorem quotedP_split (s : Bytes) : ∀ prev, s = (quotedP prev s).1 ++ (quotedP prev s).2 ∧
    ((quotedP prev s).2 ≠ [] → (∃ r, (quotedP prev s).2 = 0x22 :: r) ∧
      (quotedP prev s).1.getLastD prev ≠ 0x5c ∧
      ∀ pre post, (quotedP prev s).1 = pre ++ 0x22 :: post → pre.getLastD prev = 0x5c) := by
  induction s with
  | nil => intro prev; exact ⟨rfl, fun h => absurd rfl h⟩
  | cons c cs ih =>
    intro prev
    unfold quotedP
    split
    · rename_i h
      refine ⟨rfl, fun _ => ⟨⟨cs, by rw [h.1]⟩, h.2, ?_⟩⟩
      intro pre post e
      cases pre <;> cases e
    · rename_i h
      obtain ⟨h1, h2⟩ := ih c
      refine ⟨by dsimp only; rw [List.cons_append, ← h1], fun hne => ?_⟩
      obtain ⟨h3, h4, h5⟩ := h2 hne
      have hl : ∀ l : Bytes, (c :: l).getLastD prev = l.getLastD c := fun l => by cases l <;> rfl
      refine ⟨h3, by rw [hl]; exact h4, ?_⟩
      intro pre post e
      cases pre with
      | nil =>
        simp only [List.nil_append, List.cons.injEq] at e
        cases hp : decide (prev = chBackslash) with
        | true => exact of_decide_eq_true hp
        | false => exact absurd ⟨e.1, of_decide_eq_false hp⟩ h
      | cons x pre =>
        simp only [List.cons_append, List.cons.injEq] at e
        rw [e.1.symm, hl]
        exact h5 pre post e.2

theorem quotable_of {s : Bytes} (hs : chNl ∉ s) (h : (quotedP chQuote s).2 ≠ []) :
    Quotable (quotedP chQuote s).1 ∧ ∃ r, (quotedP chQuote s).2 = 0x22 :: r ∧ s = (quotedP chQuote s).1 ++ 0x22 :: r := by
  obtain ⟨h1, h2⟩ := quotedP_split s chQuote
  obtain ⟨⟨r, hr⟩, h4, h5⟩ := h2 h
  refine ⟨⟨?_, ?_, ?_⟩, r, hr, by rw [← hr]; exact h1⟩
  · intro hm; exact hs (by rw [h1]; exact List.mem_append_left _ hm)
  · intro e
    rw [List.getLastD_eq_getLast?, e] at h4
    exact h4 rfl
  · intro pre post e
    have := h5 pre post e
    rw [List.getLastD_eq_getLast?] at this
    cases hl : pre.getLast? with
    | none => rw [hl] at this; exact absurd this (by decide)
    | some x => rw [hl] at this; simp only [Option.getD_some] at this; rw [this]

/-- The state after a failure in the annotations. -/
def AnnFail (line : Nat) (st st' : St) : Prop :=
  ∃ anns : List Event, (∀ e ∈ anns, isFeature e = false) ∧ st'.trace = st.trace ++ anns ∧ st'.result = .error ∧
    ∃ k, st'.diags = st.diags ++ List.replicate (k + 1) (line, .error)

theorem max_error (s : Sev) : s.max .error = .error := by cases s <;> rfl

theorem AnnFail.report (line : Nat) (st : St) : AnnFail line st (st.report line .error) :=
  ⟨[], by simp, by simp [St.report], by simp [St.report, max_error], 0, by simp [St.report]⟩

theorem takeDrop (p : UInt8 → Bool) (s : Bytes) : s = s.takeWhile p ++ s.dropWhile p :=
  (List.takeWhile_append_dropWhile).symm

theorem takeWhile_all (p : UInt8 → Bool) : ∀ (s : Bytes), ∀ c ∈ s.takeWhile p, p c = true := by
  intro s
  induction s with
  | nil => intro c hc; cases hc
  | cons x xs ih =>
    intro c hc
    rw [List.takeWhile_cons] at hc
    split at hc
    · rename_i hx
      rcases List.mem_cons.1 hc with rfl | hc
      · exact hx
      · exact ih c hc
    · cases hc

theorem takeBlank (s : Bytes) : Blank (s.takeWhile isBlank) := by
  intro c hc
  have := takeWhile_all isBlank s c hc
  simpa [isBlank] using this

theorem hd_dropWhile (p : UInt8 → Bool) (hp : p chNl = false) : ∀ (s : Bytes), p (hd (s.dropWhile p)) = false := by
  intro s
  induction s with
  | nil => exact hp
  | cons x xs ih =>
    rw [List.dropWhile_cons]
    split
    · exact ih
    · rename_i h; rw [hd_cons]; simpa using h

theorem annP_cases (line : Nat) (feature : Bytes) : ∀ (n : Nat) (st : St) (c : UInt8) (t : Bytes),
    chNl ∉ t → t.length < n →
    AnnFail line st (annP line feature n st (c :: t)).1 ∨
    ∃ as : List Ann, as ≠ [] ∧ (∀ a ∈ as, AnnOk a) ∧ t = annBody' as ++ (annP line feature n st (c :: t)).2 ∧
      (annP line feature n st (c :: t)).1 = { st with trace := st.trace ++ annEvents' line feature as } := by
  intro n
  induction n with
  | zero => intro st c t _ h; omega
  | succ n ih =>
    intro st c t hnl hlen
    rw [annP]
    dsimp only [List.tail_cons]
    obtain ⟨s1, e1⟩ : ∃ s, t.dropWhile isBlank = s := ⟨_, rfl⟩
    simp only [e1]
    obtain ⟨s2, e2⟩ : ∃ s, s1.dropWhile isIdent = s := ⟨_, rfl⟩
    simp only [e2]
    obtain ⟨s3, e3⟩ : ∃ s, s2.dropWhile isBlank = s := ⟨_, rfl⟩
    simp only [e3]
    have d1 : t = t.takeWhile isBlank ++ s1 := by rw [← e1]; exact takeDrop _ _
    have d2 : s1 = s1.takeWhile isIdent ++ s2 := by rw [← e2]; exact takeDrop _ _
    have d3 : s2 = s2.takeWhile isBlank ++ s3 := by rw [← e3]; exact takeDrop _ _
    by_cases h1 : hd s3 = chEq
    · rw [if_neg (by simpa using h1)]
      have d4 := hd_ne_nl h1 (by decide)
      obtain ⟨s5, e5⟩ : ∃ s, s3.tail.dropWhile isBlank = s := ⟨_, rfl⟩
      simp only [e5]
      have d5 : s3.tail = s3.tail.takeWhile isBlank ++ s5 := by rw [← e5]; exact takeDrop _ _
      by_cases h2 : hd s5 = chQuote
      · rw [if_neg (by simpa using h2)]
        have d6 := hd_ne_nl h2 (by decide)
        have hsub : chNl ∉ s5.tail := by
          intro hm
          refine hnl ?_
          rw [d1, d2, d3, d4, d5, d6]
          simp [hm]
        by_cases h3 : (quotedP chQuote s5.tail).2 = []
        · rw [if_pos h3]
          exact Or.inl (AnnFail.report line st)
        · rw [if_neg h3]
          obtain ⟨hq, r, hr, d7⟩ := quotable_of hsub h3
          rw [hr, List.tail_cons]
          obtain ⟨s8, e8⟩ : ∃ s, r.dropWhile isBlank = s := ⟨_, rfl⟩
          simp only [e8]
          have d8 : r = r.takeWhile isBlank ++ s8 := by rw [← e8]; exact takeDrop _ _
          generalize hv : (quotedP chQuote s5.tail).1 = v at hq d7
          -- this annotation
          have ht : t = annotationText (gaps (t.takeWhile isBlank) (s2.takeWhile isBlank) (s3.tail.takeWhile isBlank)
              (r.takeWhile isBlank) [] [] [] [] [] [] [] []) (s1.takeWhile isIdent, v) ++ s8 := by
            simp only [annotationText, gaps, List.append_assoc, List.cons_append]
            rw [← d8]
            change t = _ ++ (_ ++ (_ ++ 0x3d :: (_ ++ 0x22 :: (v ++ 0x22 :: r))))
            have d6' : s5 = 0x22 :: (v ++ 0x22 :: r) := by rw [← d7]; exact d6
            have d4' : s3 = 0x3d :: (s3.tail.takeWhile isBlank ++ s5) := by rw [← d5]; exact d4
            rw [← d6', ← d4', ← d3, ← d2]
            exact d1
          have hok : AnnOk (gaps (t.takeWhile isBlank) (s2.takeWhile isBlank) (s3.tail.takeWhile isBlank)
              (r.takeWhile isBlank) [] [] [] [] [] [] [] [], s1.takeWhile isIdent, v) :=
            ⟨gaps_blank (takeBlank _) (takeBlank _) (takeBlank _) (takeBlank _) blank_nil blank_nil blank_nil blank_nil
              blank_nil blank_nil blank_nil blank_nil,
             fun c hc => (isIdent_spec c).1 (takeWhile_all isIdent _ c hc), hq⟩
          by_cases h4 : hd s8 = chComma
          · rw [if_pos h4]
            have d9 := hd_ne_nl h4 (by decide)
            have hlen8 : s8.tail.length < n := by
              have := congrArg List.length ht
              rw [List.length_append] at this
              have h9 := congrArg List.length d9
              rw [List.length_cons] at h9
              omega
            have hnl8 : chNl ∉ s8.tail := by
              intro hm
              refine hnl ?_
              rw [ht, d9]
              simp [hm]
            rw [d9]
            rcases ih { st with trace := st.trace ++ [.annotation line feature (s1.takeWhile isIdent) v] } chComma s8.tail
                hnl8 hlen8 with hf | ⟨as, hne, has, hbody, hst⟩
            · obtain ⟨anns, ha1, ha2, ha3, k, ha4⟩ := hf
              refine Or.inl ⟨.annotation line feature (s1.takeWhile isIdent) v :: anns, ?_, ?_, ha3, k, ha4⟩
              · intro e he
                rcases List.mem_cons.1 he with rfl | he
                · rfl
                · exact ha1 e he
              · rw [ha2]; simp
            · refine Or.inr ⟨(gaps (t.takeWhile isBlank) (s2.takeWhile isBlank) (s3.tail.takeWhile isBlank)
                (r.takeWhile isBlank) [] [] [] [] [] [] [] [], s1.takeWhile isIdent, v) :: as, by simp, ?_, ?_, ?_⟩
              · intro a ha
                rcases List.mem_cons.1 ha with rfl | ha
                · exact hok
                · exact has a ha
              · cases as with
                | nil => exact absurd rfl hne
                | cons b bs =>
                  rw [annBody', List.append_assoc, List.cons_append, ← hbody]
                  change t = _ ++ chComma :: s8.tail
                  rw [← d9]
                  exact ht
              · rw [hst]
                simp [annEvents']
          · rw [if_neg h4]
            refine Or.inr ⟨[(gaps (t.takeWhile isBlank) (s2.takeWhile isBlank) (s3.tail.takeWhile isBlank)
              (r.takeWhile isBlank) [] [] [] [] [] [] [] [], s1.takeWhile isIdent, v)], by simp, ?_, ht, rfl⟩
            intro a ha
            rw [List.mem_singleton.1 ha]
            exact hok
      · rw [if_pos h2]
        exact Or.inl (AnnFail.report line st)
    · rw [if_pos h1]
      exact Or.inl (AnnFail.report line st)

/-! ## Endings -/

theorem tail_ending (ann : Bool) (st : St) (line : Nat) (feature : Bytes) {post : Bytes} {as : List (Bytes × Bytes)}
    (h : Ending ann post as) :
    tailP ann st line feature post =
      { st with trace := st.trace ++ as.map fun a => .annotation line feature a.1 a.2 } := by
  cases h with
  | done => simp [tailP, endP, hd]; intro h; exact absurd h (by decide)
  | comment s => simp [tailP, endP, hd]; intro h; exact absurd h (by decide)
  | cr s => simp [tailP, endP, hd]; intro h; exact absurd h (by decide)
  | brace s h => subst h; simp [tailP, annsP, hd]
  | annotations as s h has =>
    subst h
    have e1 : annotationList as ++ s = 0x7b :: (annBody' as ++ 0x7d :: s) := by
      simp [annotationList, annBody'_eq]
    rw [e1]
    unfold tailP annsP
    rw [if_pos (hd_cons _ _), if_pos rfl]
    have hlen := annBody'_length as
    rw [annP_text' line feature s as has.1 has.2 _ st _ (by simp; omega)]
    simp [hd_cons, annEvents', List.map_map]

theorem tail_other (ann : Bool) (st : St) (line : Nat) (feature post : Bytes) (hnl : chNl ∉ post)
    (h : ¬ ∃ as, Ending ann post as) : AnnFail line st (tailP ann st line feature post) := by
  cases post with
  | nil => exact absurd ⟨[], .done⟩ h
  | cons c t =>
    have hnlt : chNl ∉ t := fun hm => hnl (List.mem_cons_of_mem _ hm)
    unfold tailP
    rw [hd_cons]
    by_cases hc : c = chLBrace
    · subst hc
      rw [if_pos rfl]
      unfold annsP
      cases ann with
      | false => exact absurd ⟨[], .brace t rfl⟩ h
      | true =>
        rw [if_pos rfl]
        dsimp only
        rcases annP_cases line feature ((chLBrace :: t).length + 1) st chLBrace t hnlt (by simp; omega) with
          hf | ⟨as, hne, has, hbody, hst⟩
        · split
          · obtain ⟨anns, ha1, ha2, ha3, k, ha4⟩ := hf
            refine ⟨anns, ha1, ha2, by simp [St.report, max_error], k + 1, ?_⟩
            simp only [St.report, ha4, List.append_assoc]
            rw [List.replicate_succ' (n := k + 1)]
          · exact hf
        · split
          · rw [hst]
            refine ⟨annEvents' line feature as, ?_, rfl, max_error _, 0, rfl⟩
            intro e he
            obtain ⟨a, _, rfl⟩ := List.mem_map.1 he
            rfl
          · rename_i hb
            have hb : hd (annP line feature ((chLBrace :: t).length + 1) st (chLBrace :: t)).2 = chRBrace := by
              simpa using hb
            have hsplit := hd_ne_nl hb (by decide)
            refine absurd ⟨as.map (·.2), ?_⟩ h
            have hbr : t = annBody' as ++ 0x7d :: (annP line feature ((chLBrace :: t).length + 1) st (chLBrace :: t)).2.tail := by
              rw [hsplit] at hbody
              exact hbody
            have := Ending.annotations (ann := true) as
              (annP line feature ((chLBrace :: t).length + 1) st (chLBrace :: t)).2.tail rfl ⟨hne, has⟩
            have e1 : ∀ u, t = annBody' as ++ 0x7d :: u → annotationList as ++ u = chLBrace :: t := by
              intro u hu
              rw [hu]
              simp [annotationList, annBody'_eq]
            rw [e1 _ hbr] at this
            exact this
    · rw [if_neg hc]
      unfold endP
      rw [hd_cons]
      by_cases h2 : c = chHash ∨ c = chCr
      · rcases h2 with rfl | rfl
        · exact absurd ⟨[], .comment t⟩ h
        · exact absurd ⟨[], .cr t⟩ h
      · rw [if_neg h2, if_pos (by simp)]
        exact AnnFail.report line st

end Verif.Fasm
