import Verif.Proofs.Tidy.Regex
import Verif.Model.Tidy.Work
import Verif.Spec.Tidy.Work
/-! Include directives found by the pattern. -/
namespace Verif.Tidy
open Verif.Spec.Tidy Re

theorem isSpace_iff (c : UInt8) : Text.isSpace c = true ↔ c = 0x20 ∨ (9 ≤ c.toNat ∧ c.toNat ≤ 13) := by
  unfold Text.isSpace
  simp [UInt8.le_iff_toNat_le]

theorem isLetter_iff (c : UInt8) : isLetter c = true ↔ Letter c := by
  unfold isLetter Letter
  simp [UInt8.le_iff_toNat_le]

theorem isDigit_iff (c : UInt8) : isDigit c = true ↔ 0x30 ≤ c.toNat ∧ c.toNat ≤ 0x39 := by
  unfold isDigit
  simp [UInt8.le_iff_toNat_le]

/-- Characters of the stem of an include path. -/
def stemChar (c : UInt8) : Bool := isDigit c || isLetter c || c = 0x5f || c = 0x2f || c = 0x2d

theorem stemChar_iff (c : UInt8) : stemChar c = true ↔ (0x30 ≤ c.toNat ∧ c.toNat ≤ 0x39) ∨ Letter c ∨ c = 0x5f ∨ c = 0x2f ∨ c = 0x2d := by
  unfold stemChar
  simp only [Bool.or_eq_true, isDigit_iff, isLetter_iff, decide_eq_true_eq, or_assoc]

/-- Two ways to take characters of a class up to one outside. -/
theorem span_unique {p : UInt8 → Bool} {w w' r r' : Bytes} {c c' : UInt8} (hw : ∀ d ∈ w, p d = true) (hw' : ∀ d ∈ w', p d = true)
    (hc : p c = false) (hc' : p c' = false) (h : w ++ c :: r = w' ++ c' :: r') : w = w' ∧ c = c' ∧ r = r' := by
  induction w generalizing w' with
  | nil =>
    cases w' with
    | nil => simp only [List.nil_append, List.cons.injEq] at h; exact ⟨rfl, h⟩
    | cons d w' =>
      simp only [List.nil_append, List.cons_append, List.cons.injEq] at h
      have := hw' d (by simp)
      rw [← h.1, hc] at this
      cases this
  | cons d w ih =>
    cases w' with
    | nil =>
      simp only [List.nil_append, List.cons_append, List.cons.injEq] at h
      have := hw d (by simp)
      rw [h.1, hc'] at this
      cases this
    | cons e w' =>
      simp only [List.cons_append, List.cons.injEq] at h
      obtain ⟨h1, h2⟩ := ih (fun x hx => hw x (by simp [hx])) (fun x hx => hw' x (by simp [hx])) h.2
      exact ⟨by rw [h.1, h1], h2⟩

/-- What the include pattern does at a position. -/
theorem includeRe_iff (s t : Pos) : Derives includeRe s t ↔ ∃ ws ws' stem ext,
    (∀ c ∈ ws, Text.isSpace c = true) ∧ (∀ c ∈ ws', Text.isSpace c = true) ∧ ws' ≠ [] ∧ stem ≠ [] ∧ ext ≠ [] ∧
    (∀ c ∈ stem, stemChar c = true) ∧ (∀ c ∈ ext, isLetter c = true) ∧ t.group = stem ++ bytes!"." ++ ext ∧
    s.rest = bytes!"#" ++ ws ++ bytes!"include" ++ ws' ++ bytes!"\"" ++ t.group ++ bytes!"\"" ++ t.rest ∧
    t.left = (bytes!"#" ++ ws ++ bytes!"include" ++ ws' ++ bytes!"\"" ++ t.group ++ bytes!"\"").reverse ++ s.left := by
  have hstem : (fun c => isDigit c || isLetter c || decide (c = 0x5f) || decide (c = 0x2f) || decide (c = 0x2d)) = stemChar := rfl
  unfold includeRe
  simp only [all, derives_seq]
  simp only [hstem]
  constructor
  · rintro ⟨s1, h1, s2, h2, s3, h3, s4, h4, s5, h5, s6, h6, s7, h7, s8, h8, s9, h9, s10, h10, s11, h11, s12, h12, h13⟩
    obtain ⟨e1, f1⟩ := derives_chr.1 h1
    obtain ⟨ws, g2, e2, f2⟩ := derives_star_set.1 h2
    obtain ⟨e3, f3⟩ := derives_chr.1 h3
    obtain ⟨e4, f4⟩ := derives_chr.1 h4
    obtain ⟨e5, f5⟩ := derives_chr.1 h5
    obtain ⟨e6, f6⟩ := derives_chr.1 h6
    obtain ⟨e7, f7⟩ := derives_chr.1 h7
    obtain ⟨e8, f8⟩ := derives_chr.1 h8
    obtain ⟨e9, f9⟩ := derives_chr.1 h9
    obtain ⟨ws', n10, g10, e10, f10⟩ := derives_plus_set.1 h10
    obtain ⟨e11, f11⟩ := derives_chr.1 h11
    obtain ⟨u, w, d12, e12, k1, k2, f12, grp⟩ := derives_cap.1 h12
    obtain ⟨e13, f13⟩ := derives_chr.1 h13
    simp only [derives_seq] at d12
    obtain ⟨u1, m1, u2, m2, m3⟩ := d12
    obtain ⟨stem, n1, c1, e14, f14⟩ := derives_plus_set.1 m1
    obtain ⟨e15, f15⟩ := derives_chr.1 m2
    obtain ⟨ext, n3, c3, e16, f16⟩ := derives_plus_set.1 m3
    have hw : w = stem ++ bytes!"." ++ ext := by
      have h' := e12
      rw [e14, e15, e16, k1] at h'
      have : stem ++ 0x2e :: (ext ++ s12.rest) = (stem ++ bytes!"." ++ ext) ++ s12.rest := by simp
      rw [this] at h'
      exact (List.append_cancel_right h').symm
    have hg : t.group = w := by rw [f13]; exact grp
    refine ⟨ws, ws', stem, ext, g2, g10, n10, n1, n3, c1, c3, by rw [hg, hw], ?_, ?_⟩
    · rw [hg, e1, e2, e3, e4, e5, e6, e7, e8, e9, e10, e11, e12, e13]
      simp
    · have l13 := congrArg Pos.left f13
      have l11 := congrArg Pos.left f11
      have l10 := congrArg Pos.left f10
      have l9 := congrArg Pos.left f9
      have l8 := congrArg Pos.left f8
      have l7 := congrArg Pos.left f7
      have l6 := congrArg Pos.left f6
      have l5 := congrArg Pos.left f5
      have l4 := congrArg Pos.left f4
      have l3 := congrArg Pos.left f3
      have l2 := congrArg Pos.left f2
      have l1 := congrArg Pos.left f1
      simp only [Pos.move] at l13 l11 l10 l9 l8 l7 l6 l5 l4 l3 l2 l1
      rw [l13, f12, l11, l10, l9, l8, l7, l6, l5, l4, l3, l2, l1, hg]
      simp
  · rintro ⟨ws, ws', stem, ext, g2, g10, n10, n1, n3, c1, c3, hg, hs, hl⟩
    have hs' : s.rest = 0x23 :: (ws ++ (0x69 :: 0x6e :: 0x63 :: 0x6c :: 0x75 :: 0x64 :: 0x65 :: (ws' ++ (0x22 :: (stem ++ (0x2e :: (ext ++ (0x22 :: t.rest)))))))) := by
      rw [hs, hg]
      simp
    obtain ⟨r12, e12⟩ : ∃ r, r = 0x22 :: t.rest := ⟨_, rfl⟩
    let p1 := s.move bytes!"#" (ws ++ (0x69 :: 0x6e :: 0x63 :: 0x6c :: 0x75 :: 0x64 :: 0x65 :: (ws' ++ (0x22 :: (stem ++ (0x2e :: (ext ++ (0x22 :: t.rest))))))))
    let p2 := p1.move ws (0x69 :: 0x6e :: 0x63 :: 0x6c :: 0x75 :: 0x64 :: 0x65 :: (ws' ++ (0x22 :: (stem ++ (0x2e :: (ext ++ (0x22 :: t.rest)))))))
    let p3 := p2.move bytes!"i" (0x6e :: 0x63 :: 0x6c :: 0x75 :: 0x64 :: 0x65 :: (ws' ++ (0x22 :: (stem ++ (0x2e :: (ext ++ (0x22 :: t.rest)))))))
    let p4 := p3.move bytes!"n" (0x63 :: 0x6c :: 0x75 :: 0x64 :: 0x65 :: (ws' ++ (0x22 :: (stem ++ (0x2e :: (ext ++ (0x22 :: t.rest)))))))
    let p5 := p4.move bytes!"c" (0x6c :: 0x75 :: 0x64 :: 0x65 :: (ws' ++ (0x22 :: (stem ++ (0x2e :: (ext ++ (0x22 :: t.rest)))))))
    let p6 := p5.move bytes!"l" (0x75 :: 0x64 :: 0x65 :: (ws' ++ (0x22 :: (stem ++ (0x2e :: (ext ++ (0x22 :: t.rest)))))))
    let p7 := p6.move bytes!"u" (0x64 :: 0x65 :: (ws' ++ (0x22 :: (stem ++ (0x2e :: (ext ++ (0x22 :: t.rest)))))))
    let p8 := p7.move bytes!"d" (0x65 :: (ws' ++ (0x22 :: (stem ++ (0x2e :: (ext ++ (0x22 :: t.rest)))))))
    let p9 := p8.move bytes!"e" (ws' ++ (0x22 :: (stem ++ (0x2e :: (ext ++ (0x22 :: t.rest))))))
    let p10 := p9.move ws' (0x22 :: (stem ++ (0x2e :: (ext ++ (0x22 :: t.rest)))))
    let p11 := p10.move bytes!"\"" (stem ++ (0x2e :: (ext ++ (0x22 :: t.rest))))
    let u1 := p11.move stem (0x2e :: (ext ++ (0x22 :: t.rest)))
    let u2 := u1.move bytes!"." (ext ++ (0x22 :: t.rest))
    let u3 := u2.move ext (0x22 :: t.rest)
    let p12 : Pos := { u3 with group := stem ++ bytes!"." ++ ext }
    refine ⟨p1, derives_chr.2 ⟨hs', rfl⟩, p2, derives_star_set.2 ⟨ws, g2, rfl, rfl⟩, p3, derives_chr.2 ⟨rfl, rfl⟩, p4, derives_chr.2 ⟨rfl, rfl⟩,
      p5, derives_chr.2 ⟨rfl, rfl⟩, p6, derives_chr.2 ⟨rfl, rfl⟩, p7, derives_chr.2 ⟨rfl, rfl⟩, p8, derives_chr.2 ⟨rfl, rfl⟩,
      p9, derives_chr.2 ⟨rfl, rfl⟩, p10, derives_plus_set.2 ⟨ws', n10, g10, rfl, rfl⟩, p11, derives_chr.2 ⟨rfl, rfl⟩, p12, ?_, ?_⟩
    · refine derives_cap.2 ⟨u3, stem ++ bytes!"." ++ ext, ?_, by simp [p11, p12, u3, u2, u1, Pos.move], rfl, rfl, by simp [p12, u3, u2, u1, Pos.move], rfl⟩
      simp only [derives_seq]
      exact ⟨u1, derives_plus_set.2 ⟨stem, n1, c1, rfl, rfl⟩, u2, derives_chr.2 ⟨rfl, rfl⟩, derives_plus_set.2 ⟨ext, n3, c3, rfl, rfl⟩⟩
    · refine derives_chr.2 ⟨rfl, ?_⟩
      obtain ⟨tl, tr, tg⟩ := t
      simp only at hg hl
      rw [hl, hg]
      simp [p12, u3, u2, u1, p11, p10, p9, p8, p7, p6, p5, p4, p3, p2, p1, Pos.move]

end Verif.Tidy
