import Verif.Spec.FasmGrammar
/-! # Every line has one of the shapes of `Spec/FasmGrammar.lean` -/
namespace Verif.Spec

theorem split_pred (P : UInt8 → Prop) (s : Bytes) :
    ∃ a r, s = a ++ r ∧ (∀ c ∈ a, P c) ∧ ∀ c, r.head? = some c → ¬ P c := by
  induction s with
  | nil => exact ⟨[], [], rfl, by simp, by simp⟩
  | cons x xs ih =>
    by_cases hx : P x
    · obtain ⟨a, r, e, h1, h2⟩ := ih
      refine ⟨x :: a, r, by rw [e]; rfl, ?_, h2⟩
      intro c hc
      rcases List.mem_cons.1 hc with rfl | hc
      · exact hx
      · exact h1 c hc
    · refine ⟨[], x :: xs, rfl, by simp, ?_⟩
      intro c hc
      rw [List.head?_cons, Option.some.injEq] at hc
      rw [← hc]; exact hx

theorem split_blank (s : Bytes) :
    ∃ a r, s = a ++ r ∧ Blank a ∧ ∀ c, r.head? = some c → ¬ BlankChar c := split_pred BlankChar s

theorem blank_nil : Blank [] := fun _ h => absurd h List.not_mem_nil

/-- A number with the white space around it. -/
theorem split_num (radix : Nat) (s : Bytes) :
    ∃ g d h r, s = g ++ (d ++ (h ++ r)) ∧ Blank g ∧ DigitString radix d ∧ Blank h ∧
      ∀ c, r.head? = some c → ¬ BlankChar c ∧ (h = [] ∨ d = [] → ¬ DigitChar radix c) := by
  obtain ⟨g, s1, e1, hg, h1⟩ := split_blank s
  obtain ⟨d, s2, e2, hd, h2⟩ := split_pred (DigitChar radix) s1
  obtain ⟨h, s3, e3, hh, h3⟩ := split_blank s2
  by_cases hdn : d = []
  · subst hdn
    rw [List.nil_append] at e2
    subst e2
    exact ⟨g, [], [], s1, by rw [e1]; rfl, hg, (fun _ h => absurd h List.not_mem_nil), blank_nil,
      fun c hc => ⟨h1 c hc, fun _ => h2 c hc⟩⟩
  · refine ⟨g, d, h, s3, by rw [e1, e2, e3], hg, hd, hh, fun c hc => ⟨h3 c hc, fun hor => ?_⟩⟩
    rcases hor with hor | hor
    · rw [hor, List.nil_append] at e3
      exact h2 c (by rw [e3]; exact hc)
    · exact absurd hor hdn

/-- Gaps given one by one. -/
def gaps (g0 g1 g2 g3 g4 g5 g6 g7 g8 g9 g10 g11 : Bytes) : Nat → Bytes
  | 0 => g0 | 1 => g1 | 2 => g2 | 3 => g3 | 4 => g4 | 5 => g5 | 6 => g6 | 7 => g7 | 8 => g8 | 9 => g9
  | 10 => g10 | 11 => g11 | _ => []

theorem gaps_blank {g0 g1 g2 g3 g4 g5 g6 g7 g8 g9 g10 g11 : Bytes} (h0 : Blank g0) (h1 : Blank g1) (h2 : Blank g2)
    (h3 : Blank g3) (h4 : Blank g4) (h5 : Blank g5) (h6 : Blank g6) (h7 : Blank g7) (h8 : Blank g8) (h9 : Blank g9)
    (h10 : Blank g10) (h11 : Blank g11) (i : Nat) : Blank (gaps g0 g1 g2 g3 g4 g5 g6 g7 g8 g9 g10 g11 i) := by
  unfold gaps
  split <;> first | assumption | exact blank_nil

/-- The value part: a shape of what follows name and range. -/
theorem split_value (s : Bytes) (hs : ∀ c, s.head? = some c → ¬ BlankChar c) :
    (∀ c, s.head? = some c → c ≠ 0x3d) ∨
    (∃ g7 d g8 post, s = 0x3d :: (g7 ++ (d ++ (g8 ++ post))) ∧ Blank g7 ∧ Blank g8 ∧ DigitString 10 d ∧
      ∀ c, post.head? = some c → ¬ BlankChar c ∧ c ≠ 0x27 ∧ (g8 = [] ∨ d = [] → ¬ DigitChar 10 c)) ∨
    (∃ g7 w g8 g9 b g10 d g11 post,
      s = 0x3d :: (g7 ++ (w ++ (g8 ++ 0x27 :: (g9 ++ Base.letter b :: (g10 ++ (d ++ (g11 ++ post))))))) ∧
      Blank g7 ∧ Blank g8 ∧ Blank g9 ∧ Blank g10 ∧ Blank g11 ∧ DigitString 10 w ∧ DigitString b.radix d ∧
      ∀ c, post.head? = some c → ¬ BlankChar c ∧ (g11 = [] ∨ d = [] → ¬ DigitChar b.radix c)) ∨
    (∃ g7 w g8 g9 c post, s = 0x3d :: (g7 ++ (w ++ (g8 ++ 0x27 :: (g9 ++ c :: post)))) ∧
      Blank g7 ∧ Blank g8 ∧ Blank g9 ∧ DigitString 10 w ∧ ¬ BlankChar c ∧ ¬ FormatLetter c) ∨
    (∃ g7 w g8 g9, s = 0x3d :: (g7 ++ (w ++ (g8 ++ 0x27 :: g9))) ∧
      Blank g7 ∧ Blank g8 ∧ Blank g9 ∧ DigitString 10 w) := by
  cases s with
  | nil => exact Or.inl (by simp)
  | cons x s1 =>
    by_cases hx : x = 0x3d
    · subst hx
      right
      obtain ⟨g7, w, g8, s2, e1, h7, hw, h8, hs2⟩ := split_num 10 s1
      cases s2 with
      | nil =>
        exact Or.inl ⟨g7, w, g8, [], by rw [e1], h7, h8, hw, by simp⟩
      | cons y s3 =>
        have hy := hs2 y rfl
        by_cases hyt : y = 0x27
        · subst hyt
          obtain ⟨g9, s4, e2, h9, hs4⟩ := split_blank s3
          cases s4 with
          | nil =>
            refine Or.inr (Or.inr (Or.inr ⟨g7, w, g8, g9, ?_, h7, h8, h9, hw⟩))
            rw [e1, e2, List.append_nil]
          | cons z s5 =>
            by_cases hz : FormatLetter z
            · obtain ⟨b, rfl⟩ := hz
              obtain ⟨g10, d, g11, post, e3, h10, hd, h11, hp⟩ := split_num b.radix s5
              exact Or.inr (Or.inl ⟨g7, w, g8, g9, b, g10, d, g11, post, by rw [e1, e2, e3], h7, h8, h9, h10, h11,
                hw, hd, hp⟩)
            · exact Or.inr (Or.inr (Or.inl ⟨g7, w, g8, g9, z, s5, by rw [e1, e2], h7, h8, h9, hw, hs4 z rfl, hz⟩))
        · refine Or.inl ⟨g7, w, g8, y :: s3, by rw [e1], h7, h8, hw, ?_⟩
          intro c hc
          rw [List.head?_cons, Option.some.injEq] at hc
          subst hc
          exact ⟨hy.1, hyt, hy.2⟩
    · refine Or.inl ?_
      intro c hc
      rw [List.head?_cons, Option.some.injEq] at hc
      rw [← hc]; exact hx

/-- The range part. -/
theorem split_range (s : Bytes) (hs : ∀ c, s.head? = some c → ¬ BlankChar c) :
    (∀ c, s.head? = some c → c ≠ 0x5b) ∨
    (∃ g2 g3 g4 g5 g6 r post, Blank g2 ∧ Blank g3 ∧ Blank g4 ∧ Blank g5 ∧ Blank g6 ∧ RangeText.Shaped r ∧ r ≠ .absent ∧
      (∀ g0 g1 g7 g8 g9 g10 g11, s = r.text (gaps g0 g1 g2 g3 g4 g5 g6 g7 g8 g9 g10 g11) ++ post) ∧
      ∀ c, post.head? = some c → ¬ BlankChar c) ∨
    (∃ g2 g3 g4 g5 r post, Blank g2 ∧ Blank g3 ∧ Blank g4 ∧ Blank g5 ∧ RangeText.Shaped r ∧
      ∀ g0 g1 g6 g7 g8 g9 g10 g11, s = r.openText (gaps g0 g1 g2 g3 g4 g5 g6 g7 g8 g9 g10 g11) ++ post ∧
        BreaksRange (gaps g0 g1 g2 g3 g4 g5 g6 g7 g8 g9 g10 g11) r post) := by
  cases s with
  | nil => exact Or.inl (by simp)
  | cons x s1 =>
    by_cases hx : x = 0x5b
    · subst hx
      right
      obtain ⟨g2, d, g3, s2, e1, h2, hd, h3, hs2⟩ := split_num 10 s1
      cases s2 with
      | nil =>
        right
        refine ⟨g2, g3, [], [], .bit d, [], h2, h3, blank_nil, blank_nil, hd, ?_⟩
        intro g0 g1 g6 g7 g8 g9 g10 g11
        exact ⟨by simp [RangeText.openText, gaps, e1], by simp, by simp⟩
      | cons y s3 =>
        have hy := hs2 y rfl
        by_cases hc : y = 0x3a
        · subst hc
          obtain ⟨g4, lo, g5, s4, e2, h4, hlo, h5, hs4⟩ := split_num 10 s3
          cases s4 with
          | nil =>
            right
            refine ⟨g2, g3, g4, g5, .span d lo, [], h2, h3, h4, h5, ⟨hd, hlo⟩, ?_⟩
            intro g0 g1 g6 g7 g8 g9 g10 g11
            exact ⟨by simp [RangeText.openText, gaps, e1, e2], by simp, by simp⟩
          | cons z s5 =>
            have hz := hs4 z rfl
            by_cases hcl : z = 0x5d
            · subst hcl
              obtain ⟨g6, post, e3, h6, hp⟩ := split_blank s5
              left
              refine ⟨g2, g3, g4, g5, g6, .span d lo, post, h2, h3, h4, h5, h6, ⟨hd, hlo⟩, by simp, ?_, hp⟩
              intro g0 g1 g7 g8 g9 g10 g11
              simp [RangeText.text, gaps, e1, e2, e3]
            · right
              refine ⟨g2, g3, g4, g5, .span d lo, z :: s5, h2, h3, h4, h5, ⟨hd, hlo⟩, ?_⟩
              intro g0 g1 g6 g7 g8 g9 g10 g11
              refine ⟨by simp [RangeText.openText, gaps, e1, e2], by simp, ?_⟩
              intro c hc
              rw [List.head?_cons, Option.some.injEq] at hc
              subst hc
              exact ⟨hz.1, hcl, hz.2⟩
        · by_cases hcl : y = 0x5d
          · subst hcl
            obtain ⟨g6, post, e3, h6, hp⟩ := split_blank s3
            left
            refine ⟨g2, g3, [], [], g6, .bit d, post, h2, h3, blank_nil, blank_nil, h6, hd, by simp, ?_, hp⟩
            intro g0 g1 g7 g8 g9 g10 g11
            simp [RangeText.text, gaps, e1, e3]
          · right
            refine ⟨g2, g3, [], [], .bit d, y :: s3, h2, h3, blank_nil, blank_nil, hd, ?_⟩
            intro g0 g1 g6 g7 g8 g9 g10 g11
            refine ⟨by simp [RangeText.openText, gaps, e1], by simp, ?_⟩
            intro c hc'
            rw [List.head?_cons, Option.some.injEq] at hc'
            subst hc'
            exact ⟨hy.1, hcl, hc, hy.2⟩
    · refine Or.inl ?_
      intro c hc
      rw [List.head?_cons, Option.some.injEq] at hc
      rw [← hc]; exact hx

/-- Every line has a shape. -/
theorem shape_exists (l : Bytes) : ∃ s : LineShape, s.Ok ∧ s.text = l := by
  obtain ⟨g0, s1, e0, h0, hs1⟩ := split_blank l
  obtain ⟨name, s2, e1, hname, hs2⟩ := split_pred NameChar s1
  by_cases hn : name = []
  · subst hn
    rw [List.nil_append] at e1
    subst e1
    exact ⟨.bare (gaps g0 [] [] [] [] [] [] [] [] [] [] []) s1,
      ⟨gaps_blank h0 blank_nil blank_nil blank_nil blank_nil blank_nil blank_nil blank_nil blank_nil blank_nil
        blank_nil blank_nil, fun c hc => ⟨hs1 c hc, hs2 c hc⟩⟩, e0.symm⟩
  have hN : IsName name := ⟨hn, hname⟩
  obtain ⟨g1, s3, e2, h1, hs3⟩ := split_blank s2
  have hl : l = g0 ++ (name ++ (g1 ++ s3)) := by rw [e0, e1, e2]
  -- the range
  have hrange : (∃ g2 g3 g4 g5 r post, Blank g2 ∧ Blank g3 ∧ Blank g4 ∧ Blank g5 ∧ RangeText.Shaped r ∧
      ∀ g0 g1 g6 g7 g8 g9 g10 g11, s3 = r.openText (gaps g0 g1 g2 g3 g4 g5 g6 g7 g8 g9 g10 g11) ++ post ∧
        BreaksRange (gaps g0 g1 g2 g3 g4 g5 g6 g7 g8 g9 g10 g11) r post) ∨
      (∃ g2 g3 g4 g5 g6 r post, Blank g2 ∧ Blank g3 ∧ Blank g4 ∧ Blank g5 ∧ Blank g6 ∧ RangeText.Shaped r ∧
        (∀ g0 g1 g7 g8 g9 g10 g11, s3 = r.text (gaps g0 g1 g2 g3 g4 g5 g6 g7 g8 g9 g10 g11) ++ post) ∧
        (∀ c, post.head? = some c → ¬ BlankChar c) ∧
        (r = .absent → ∀ c, post.head? = some c → c ≠ 0x5b ∧ (g1 = [] → ¬ NameChar c))) := by
    rcases split_range s3 hs3 with h | ⟨g2, g3, g4, g5, g6, r, post, h2, h3, h4, h5, h6, hr, hne, ht, hp⟩ | h
    · refine Or.inr ⟨[], [], [], [], [], .absent, s3, blank_nil, blank_nil, blank_nil, blank_nil, blank_nil, trivial,
        fun _ _ _ _ _ _ _ => rfl, hs3, fun _ c hc => ⟨h c hc, fun hg => ?_⟩⟩
      subst hg
      exact hs2 c (by rw [e2]; exact hc)
    · exact Or.inr ⟨g2, g3, g4, g5, g6, r, post, h2, h3, h4, h5, h6, hr, ht, hp, fun h => absurd h hne⟩
    · exact Or.inl h
  rcases hrange with ⟨g2, g3, g4, g5, r, post, h2, h3, h4, h5, hr, hb⟩ |
      ⟨g2, g3, g4, g5, g6, r, s4, h2, h3, h4, h5, h6, hr, ht, hs4, habs⟩
  · obtain ⟨e3, hb⟩ := hb g0 g1 [] [] [] [] [] []
    refine ⟨.openRange (gaps g0 g1 g2 g3 g4 g5 [] [] [] [] [] []) name r post,
      ⟨gaps_blank h0 h1 h2 h3 h4 h5 blank_nil blank_nil blank_nil blank_nil blank_nil blank_nil, hN, hr, hb⟩, ?_⟩
    rw [hl, e3]
    simp [LineShape.text, gaps]
  by_cases hinv : r.Inverted
  · refine ⟨.inverted (gaps g0 g1 g2 g3 g4 g5 g6 [] [] [] [] []) name r s4,
      ⟨gaps_blank h0 h1 h2 h3 h4 h5 h6 blank_nil blank_nil blank_nil blank_nil blank_nil, hN, hr, hinv⟩, ?_⟩
    rw [hl, ht g0 g1 [] [] [] [] []]
    simp [LineShape.text, gaps]
  rcases split_value s4 hs4 with h | ⟨g7, d, g8, post, e4, h7, h8, hd, hp⟩ |
      ⟨g7, w, g8, g9, b, g10, d, g11, post, e4, h7, h8, h9, h10, h11, hw, hd, hp⟩ |
      ⟨g7, w, g8, g9, c, post, e4, h7, h8, h9, hw, hc1, hc2⟩ | ⟨g7, w, g8, g9, e4, h7, h8, h9, hw⟩
  · refine ⟨.feature (gaps g0 g1 g2 g3 g4 g5 g6 [] [] [] [] []) ⟨name, r, .absent⟩ s4,
      ⟨gaps_blank h0 h1 h2 h3 h4 h5 h6 blank_nil blank_nil blank_nil blank_nil blank_nil,
        ⟨hn, hname, hr, trivial⟩, hinv, ?_⟩, ?_⟩
    · intro c hc
      refine ⟨hs4 c hc, h c hc, ?_⟩
      cases r with
      | absent => exact habs rfl c hc
      | bit _ => trivial
      | span _ _ => trivial
    · rw [hl, ht g0 g1 [] [] [] [] []]
      simp [LineShape.text, FeatureText.text, ValueText.text, gaps]
  · refine ⟨.feature (gaps g0 g1 g2 g3 g4 g5 g6 g7 g8 [] [] []) ⟨name, r, .plain d⟩ post,
      ⟨gaps_blank h0 h1 h2 h3 h4 h5 h6 h7 h8 blank_nil blank_nil blank_nil,
        ⟨hn, hname, hr, hd⟩, hinv, hp⟩, ?_⟩
    rw [hl, ht g0 g1 g7 g8 [] [] [], e4]
    simp [LineShape.text, FeatureText.text, ValueText.text, gaps]
  · refine ⟨.feature (gaps g0 g1 g2 g3 g4 g5 g6 g7 g8 g9 g10 g11) ⟨name, r, .based w b d⟩ post,
      ⟨gaps_blank h0 h1 h2 h3 h4 h5 h6 h7 h8 h9 h10 h11,
        ⟨hn, hname, hr, hw, hd⟩, hinv, hp⟩, ?_⟩
    rw [hl, ht g0 g1 g7 g8 g9 g10 g11, e4]
    simp [LineShape.text, FeatureText.text, ValueText.text, gaps]
  · refine ⟨.badFormat (gaps g0 g1 g2 g3 g4 g5 g6 g7 g8 g9 [] []) name r w c post,
      ⟨gaps_blank h0 h1 h2 h3 h4 h5 h6 h7 h8 h9 blank_nil blank_nil, hN, hr, hinv, hw, hc1, hc2⟩, ?_⟩
    rw [hl, ht g0 g1 g7 g8 g9 [] [], e4]
    simp [LineShape.text, gaps]
  · refine ⟨.dangling (gaps g0 g1 g2 g3 g4 g5 g6 g7 g8 g9 [] []) name r w,
      ⟨gaps_blank h0 h1 h2 h3 h4 h5 h6 h7 h8 h9 blank_nil blank_nil, hN, hr, hinv, hw⟩, ?_⟩
    rw [hl, ht g0 g1 g7 g8 g9 [] [], e4]
    simp [LineShape.text, gaps]

end Verif.Spec
