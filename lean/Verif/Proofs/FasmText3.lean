import Verif.Proofs.FasmText2
/-! # The texts of every line shape -/
namespace Verif.Fasm
open Verif.Spec

/-! ## Messages -/

theorem nextChar_hd (s : Bytes) : nextChar s = hd s := rfl

theorem lastD (r : RangeText) : printD r.last = dec r.last :=
  printD_small _ (Nat.lt_of_lt_of_le (Nat.mod_lt _ (by decide)) (by decide))

theorem firstD (r : RangeText) : printD r.first = dec r.first :=
  printD_small _ (Nat.lt_of_lt_of_le (Nat.mod_lt _ (by decide)) (by decide))

theorem printRange_eq (name : Bytes) (r : RangeText) (hn : ∀ c ∈ name, NameChar c) :
    printRange name r.last r.first = featureShown name r := by
  unfold printRange featureShown
  rw [printS_ident name hn, lastD, firstD]
  rfl

theorem lit_ascii (s : String) : lit s = ascii s := rfl

theorem lit_append (a b : String) : lit a ++ lit b = ascii (a ++ b) := by
  unfold lit ascii
  rw [String.toList_append, List.map_append]

theorem ascii_append (a b : String) : ascii a ++ ascii b = ascii (a ++ b) := lit_append a b

/-- `line: body newline` with the pieces joined. -/
theorem about_eq (p : Bytes) (line : Nat) (hp : p = dec line) (a b : String) (m body : Bytes)
    (hb : body ++ ascii "\n" = ascii a ++ (m ++ ascii b)) :
    p ++ (ascii (": " ++ a) ++ (m ++ ascii b)) = about line body := by
  unfold about
  rw [List.append_assoc, hb, ← ascii_append, hp]
  simp only [List.append_assoc]

theorem msgNewline_eq (line : Nat) (hl : line < 2 ^ 31) (c : UInt8) :
    msgNewline line c = about line (ascii "expected newline, got '" ++ [c] ++ ascii "'") := by
  unfold msgNewline
  rw [List.append_assoc, List.append_assoc]
  exact about_eq _ line (printD_small line hl) "expected newline, got '" "'\n" [c] _ (by simp only [List.append_assoc]; rfl)

theorem msgBrace_eq (line : Nat) (hl : line < 2 ^ 31) (c : UInt8) :
    msgBrace line c = about line (ascii "annotations: expected ',' or '}'; got '" ++ [c] ++ ascii "'") := by
  unfold msgBrace
  rw [List.append_assoc, List.append_assoc]
  exact about_eq _ line (printD_small line hl) "annotations: expected ',' or '}'; got '" "'\n" [c] _
    (by simp only [List.append_assoc]; rfl)

theorem msgUnfinished_eq (line : Nat) (hl : line < 2 ^ 31) :
    msgUnfinished line = about line (ascii "annotation not finished before end of line") := by
  unfold msgUnfinished about
  rw [printD_small line hl, List.append_assoc, List.append_assoc]
  rfl

theorem msgAnnotationEq_eq (line : Nat) (hl : line < 2 ^ 31) (name : Bytes) (hn : ∀ c ∈ name, NameChar c) :
    msgAnnotationEq line name = about line (ascii "annotation " ++ name ++ ascii ": expected '='") := by
  unfold msgAnnotationEq
  rw [List.append_assoc, List.append_assoc, printS_ident name hn]
  exact about_eq _ line (printD_small line hl) "annotation " ": expected '='\n" name _ (by simp only [List.append_assoc]; rfl)

theorem msgNotQuoted_eq (line : Nat) (hl : line < 2 ^ 31) (feature name : Bytes) (hf : ∀ c ∈ feature, NameChar c)
    (hn : ∀ c ∈ name, NameChar c) :
    msgNotQuoted line feature name = about line (feature ++ ascii " : annotation '" ++ name ++ ascii "': value not quoted") := by
  unfold msgNotQuoted about
  rw [printD_small line hl, printS_ident name hn, printS_ident feature hf]
  simp only [List.append_assoc]
  rfl

theorem msgBase_eq (line : Nat) (c : UInt8) : msgBase line c = baseText line c := by
  unfold msgBase baseText
  rw [List.append_assoc, List.append_assoc]
  exact about_eq _ line (dec_eq line) "unknown base signifier '" "'; expected one of b, d, h, o\n" [c] _
    (by simp only [List.append_assoc]; rfl)

theorem msgBracket_eq (line : Nat) (shown : Bytes) :
    msgBracket line shown = about line (ascii "ERR expected ']' : '" ++ upToNul shown ++ ascii "'") := by
  unfold msgBracket
  rw [List.append_assoc, List.append_assoc]
  exact about_eq _ line (dec_eq line) "ERR expected ']' : '" "'\n" (printS shown) _ (by simp only [List.append_assoc]; rfl)

theorem msgInverted_eq (line : Nat) (name : Bytes) (r : RangeText) (hn : ∀ c ∈ name, NameChar c) :
    msgInverted line name r.last r.first = about line (ascii "SKIP inverted range " ++ featureShown name r) := by
  unfold msgInverted
  rw [printRange_eq name r hn, List.append_assoc, List.append_assoc]
  exact about_eq _ line (dec_eq line) "SKIP inverted range " "\n" (featureShown name r) _ (by simp only [List.append_assoc])

theorem msgNoAssignment_eq (line : Nat) (name : Bytes) (r : RangeText) (hn : ∀ c ∈ name, NameChar c) :
    msgNoAssignment line name r.last r.first =
      about line (ascii "INFO Range of bits " ++ featureShown name r ++ ascii ", but no assignment") := by
  unfold msgNoAssignment
  rw [printRange_eq name r hn, List.append_assoc, List.append_assoc]
  exact about_eq _ line (dec_eq line) "INFO Range of bits " ", but no assignment\n" (featureShown name r) _
    (by simp only [List.append_assoc]; rfl)

theorem msgTooWide_eq (line : Nat) (f : FeatureText) (hn : ∀ c ∈ f.name, NameChar c) :
    msgTooWide line f.name f.range.last f.range.first (f.range.last - f.range.first + 1) = f.wideText line := by
  unfold msgTooWide FeatureText.wideText about RangeText.size
  rw [printRange_eq f.name f.range hn, dec_eq, dec_eq]
  simp only [List.append_assoc]
  rfl

theorem msgMoreBits_eq (line d : Nat) (name : Bytes) (r : RangeText) (hn : ∀ c ∈ name, NameChar c) :
    msgMoreBits line d name r.last r.first (r.last - r.first + 1) =
      about line (ascii "WARN Attempt to assign more bits (" ++ dec d ++ ascii "') for " ++
        featureShown name r ++ ascii " with supported bit width of " ++ dec r.size) := by
  unfold msgMoreBits about RangeText.size
  rw [printRange_eq name r hn, dec_eq, dec_eq, dec_eq]
  simp only [List.append_assoc]
  rfl

/-! ## Assignment -/

theorem moreT_eq (line : Nat) (name : Bytes) (r : RangeText) (w : Bytes) (hn : ∀ c ∈ name, NameChar c) :
    moreT line (numVal 10 w % 2 ^ 64) name r.last r.first (r.last - r.first + 1) = widthSays line name r w := by
  unfold moreT widthSays
  rw [msgMoreBits_eq line _ name r hn]
  rfl

theorem assignT_ticked (line : Nat) (name : Bytes) (mx mn v : Nat) (t u : Bytes)
    (h1 : (leadP (t.dropWhile isBlank)).1 = v)
    (h2 : (leadP (t.dropWhile isBlank)).2.dropWhile isBlank = chTick :: u) :
    assignT line name mx mn (chEq :: t) = tickedT line name mx mn (mx - mn + 1) v u := by
  unfold assignT
  simp only [hd_cons, if_true, List.tail_cons, h1, h2]

theorem assignT_shaped (g : Nat → Bytes) (hg : ∀ i, Blank (g i)) (line : Nat) (f : FeatureText)
    (hn : ∀ c ∈ f.name, NameChar c) (hwf : f.value.Shaped) (post : Bytes) (hf : Follows g f post) :
    assignT line f.name f.range.last f.range.first (f.value.text g ++ post) =
      f.noteTexts line ++ if clamps' f then [f.wideText line] else [] := by
  have hb := hd_nb fun c hc => (hf c hc).1
  have hwide := msgTooWide_eq line f hn
  have hna := msgNoAssignment_eq line f.name f.range hn
  have hmore := fun w => moreT_eq line f.name f.range w hn
  generalize f.wideText line = wt at hwide
  obtain ⟨name, range, value⟩ := f
  dsimp only at hwide hna hmore
  cases value with
  | absent =>
    have heq : hd post ≠ chEq := hd_ne (by decide) fun c hc => (hf c hc).2.1
    simp only [ValueText.text, List.nil_append, FeatureText.noteTexts, clamps', Bool.and_false]
    unfold assignT
    rw [if_neg heq, hna]
    simp
  | plain d =>
    have htick : hd post ≠ chTick := hd_ne (by decide) fun c hc => (hf c hc).2.1
    have hl := leadP_gap (g 7) d (g 8) post (hg 7) hwf (hg 8)
      ⟨hb, fun h => hd_nd (by decide) fun c hc => (hf c hc).2.2 h⟩
    simp only [ValueText.text, List.cons_append, List.append_assoc, FeatureText.noteTexts, clamps', Bool.and_true]
    unfold assignT
    simp only [hd_cons, if_true, List.tail_cons, hl.1, hl.2, htick, if_false]
    unfold clampT
    rw [hwide]
    by_cases hw : range.size > 64
    · have hw' : range.last - range.first + 1 > 64 := hw
      simp [hw, hw']
    · have hw' : ¬ range.last - range.first + 1 > 64 := hw
      simp only [hw, hw', false_and, if_false, decide_false, Bool.false_eq_true]
      rfl
  | based w b d =>
    obtain ⟨h1, h3⟩ := hwf
    simp only [ValueText.text, List.cons_append, List.append_assoc]
    have hletter : isBlank b.letter = false := by cases b <;> decide
    have hlead := leadP_gap (g 7) w (g 8) (0x27 :: (g 9 ++ b.letter :: (g 10 ++ (d ++ (g 11 ++ post))))) (hg 7) h1 (hg 8)
      (NumEnd.of_delim (by decide) (by decide))
    have h9 := dropBlank (g 9) (b.letter :: (g 10 ++ (d ++ (g 11 ++ post)))) (hg 9) (by rw [hd_cons]; exact hletter)
    rw [assignT_ticked _ _ _ _ _ _ _ hlead.1 hlead.2]
    unfold tickedT
    simp only [h9, hd_cons]
    rw [hmore w]
    unfold clampT FeatureText.noteTexts
    rw [hwide]
    simp only [clamps', RangeText.size]
    cases b <;> simp only [Base.letter, valueT] <;> by_cases hB : range.last - range.first + 1 > 64 <;> simp [hB]

/-! ## Endings -/

/-- Up to the name of an annotation. -/
theorem annName (c : UInt8) (g0 name g1 s : Bytes) (h0 : Blank g0) (hn : ∀ c ∈ name, NameChar c) (h1 : Blank g1)
    (hb : isBlank (hd s) = false) (hi : g1 = [] ∨ name = [] → isIdent (hd s) = false) :
    let t := (c :: (g0 ++ (name ++ (g1 ++ s)))).tail.dropWhile isBlank
    t.takeWhile isIdent = name ∧ (t.dropWhile isIdent).dropWhile isBlank = s := by
  have hnm : ∀ c ∈ name, isIdent c = true := fun c hc => (isIdent_spec c).2 (hn c hc)
  dsimp only [List.tail_cons]
  cases name with
  | nil =>
    rw [List.nil_append, ← List.append_assoc, dropBlank _ _ (blank_append h0 h1) hb]
    have := span_eq isIdent [] s (by simp) isIdent_nl (hi (Or.inr rfl))
    rw [List.nil_append] at this
    rw [this.1, this.2]
    exact ⟨rfl, dropBlank [] s blank_nil hb⟩
  | cons x xs =>
    rw [dropBlank g0 _ h0 (by rw [List.cons_append, hd_cons]; exact ident_not_blank (hnm x List.mem_cons_self))]
    have hi' : isIdent (hd (g1 ++ s)) = false := by
      cases g1 with
      | nil => exact hi (Or.inl rfl)
      | cons y ys => exact blank_not_ident h1 y List.mem_cons_self
    have := span_eq isIdent (x :: xs) (g1 ++ s) hnm isIdent_nl hi'
    rw [this.1, this.2]
    exact ⟨rfl, dropBlank g1 s h1 hb⟩

theorem annT_noEquals (line : Nat) (feature : Bytes) (n : Nat) (c : UInt8) (g0 name g1 s : Bytes) (h0 : Blank g0)
    (hn : ∀ c ∈ name, NameChar c) (h1 : Blank g1) (hb : isBlank (hd s) = false)
    (hi : g1 = [] ∨ name = [] → isIdent (hd s) = false) (hc : hd s ≠ chEq) :
    annT line feature (n + 1) (c :: (g0 ++ (name ++ (g1 ++ s)))) = ([msgAnnotationEq line name], s) := by
  have h := annName c g0 name g1 s h0 hn h1 hb hi
  dsimp only [List.tail_cons] at h
  rw [annT]
  simp only [List.tail_cons, h.1, h.2, hc, ne_eq, not_false_eq_true, if_true]

theorem annT_noQuote (line : Nat) (feature : Bytes) (n : Nat) (c : UInt8) (g0 name g1 g2 s : Bytes) (h0 : Blank g0)
    (hn : ∀ c ∈ name, NameChar c) (h1 : Blank g1) (h2 : Blank g2) (hb : isBlank (hd s) = false) (hc : hd s ≠ chQuote) :
    annT line feature (n + 1) (c :: (g0 ++ (name ++ (g1 ++ 0x3d :: (g2 ++ s))))) = ([msgNotQuoted line feature name], s) := by
  have h := annName c g0 name g1 (0x3d :: (g2 ++ s)) h0 hn h1 (by rw [hd_cons]; decide) (fun _ => by rw [hd_cons]; decide)
  dsimp only [List.tail_cons] at h
  rw [annT]
  simp only [h.1, h.2, hd_cons, ne_eq, not_true, if_false, List.tail_cons, dropBlank g2 s h2 hb, hc, not_false_eq_true, if_true]

theorem quotedP_open : ∀ (v : Bytes) (prev : UInt8), prev ≠ chBackslash ∨ prev = chBackslash →
    (∀ pre post, v = pre ++ 0x22 :: post → pre.getLastD prev = 0x5c) → (quotedP prev v).2 = [] := by
  intro v
  induction v with
  | nil => intro prev _ _; rfl
  | cons c cs ih =>
    intro prev _ h
    unfold quotedP
    rw [if_neg]
    · refine ih c (Classical.em _ |>.symm) ?_
      intro pre post e
      have := h (c :: pre) post (by rw [e]; rfl)
      have hl : (c :: pre).getLastD prev = pre.getLastD c := by cases pre <;> rfl
      rw [hl] at this
      exact this
    · rintro ⟨rfl, hp⟩
      exact hp (h [] cs rfl)

theorem annT_unfinished (line : Nat) (feature : Bytes) (n : Nat) (c : UInt8) (g0 name g1 g2 v : Bytes) (h0 : Blank g0)
    (hn : ∀ c ∈ name, NameChar c) (h1 : Blank g1) (h2 : Blank g2)
    (hv : ∀ pre post, v = pre ++ 0x22 :: post → pre.getLast? = some 0x5c) :
    annT line feature (n + 1) (c :: (g0 ++ (name ++ (g1 ++ 0x3d :: (g2 ++ 0x22 :: v))))) = ([msgUnfinished line], []) := by
  have h := annName c g0 name g1 (0x3d :: (g2 ++ 0x22 :: v)) h0 hn h1 (by rw [hd_cons]; decide) (fun _ => by rw [hd_cons]; decide)
  have hq : (quotedP chQuote v).2 = [] := by
    refine quotedP_open v chQuote (Classical.em _ |>.symm) ?_
    intro pre post e
    rw [List.getLastD_eq_getLast?, hv pre post e]
    rfl
  dsimp only [List.tail_cons] at h
  rw [annT]
  simp only [h.1, h.2, hd_cons, ne_eq, not_true, if_false, List.tail_cons,
    dropBlank g2 (0x22 :: v) h2 (by rw [hd_cons]; decide), hq, if_true]

theorem annT_step (line : Nat) (feature : Bytes) (a : Ann) (ha : AnnOk a) (n : Nat) (c : UInt8) (tl : Bytes)
    (htl : isBlank (hd tl) = false) :
    annT line feature (n + 1) (c :: (annotationText a.1 a.2 ++ tl)) =
      (if hd tl = chComma then annT line feature n tl else ([], tl)) := by
  obtain ⟨g, an, av⟩ := a
  obtain ⟨hg, hname, hq⟩ := ha
  dsimp only at hg hname hq ⊢
  have e : annotationText g (an, av) ++ tl = g 0 ++ (an ++ (g 1 ++ 0x3d :: (g 2 ++ 0x22 :: (av ++ 0x22 :: (g 3 ++ tl))))) := by
    simp [annotationText]
  rw [e]
  have h := annName c (g 0) an (g 1) (0x3d :: (g 2 ++ 0x22 :: (av ++ 0x22 :: (g 3 ++ tl)))) (hg 0) hname (hg 1)
    (by rw [hd_cons]; decide) (fun _ => by rw [hd_cons]; decide)
  dsimp only [List.tail_cons] at h
  rw [annT]
  simp only [h.1, h.2, hd_cons, ne_eq, not_true, if_false, List.tail_cons,
    dropBlank (g 2) (0x22 :: (av ++ 0x22 :: (g 3 ++ tl))) (hg 2) (by rw [hd_cons]; decide), quotable_text hq, reduceCtorEq,
    dropBlank (g 3) tl (hg 3) htl]

/-- Past the annotations that are all right. -/
theorem annT_before (line : Nat) (feature s : Bytes) : ∀ (as : List Ann), AnnotationsFine as → ∀ (n : Nat) (c : UInt8),
    ∃ c', annT line feature (n + as.length) (c :: (annotationsBefore as ++ s)) = annT line feature n (c' :: s) := by
  intro as
  induction as with
  | nil => intro _ n c; exact ⟨c, rfl⟩
  | cons a as ih =>
    intro h n c
    have e : annotationsBefore (a :: as) ++ s = annotationText a.1 a.2 ++ 0x2c :: (annotationsBefore as ++ s) := by
      simp [annotationsBefore]
    rw [e, List.length_cons, ← Nat.add_assoc, annT_step line feature a (h a List.mem_cons_self) _ c _ (by rw [hd_cons]; decide),
      if_pos (hd_cons _ _)]
    exact ih (fun x hx => h x (List.mem_cons_of_mem _ hx)) n _

theorem before_length (as : List Ann) : as.length ≤ (annotationsBefore as).length := by
  induction as with
  | nil => simp
  | cons a as ih =>
    have e : annotationsBefore (a :: as) = annotationText a.1 a.2 ++ 0x2c :: annotationsBefore as := by
      simp [annotationsBefore]
    rw [e]
    simp only [List.length_append, List.length_cons]
    omega

theorem annBody'_snoc (a : Ann) : ∀ (as : List Ann), annBody' (as ++ [a]) = annotationsBefore as ++ annotationText a.1 a.2 := by
  intro as
  induction as with
  | nil => simp [annBody', annotationsBefore]
  | cons b bs ih =>
    have e : annotationsBefore (b :: bs) = annotationText b.1 b.2 ++ 0x2c :: annotationsBefore bs := by
      simp [annotationsBefore]
    cases bs with
    | nil => simp [annBody', annotationsBefore]
    | cons x xs =>
      rw [e, List.cons_append, List.cons_append, annBody', ← List.cons_append, ih]
      simp

theorem annotationList_snoc (as : List Ann) (a : Ann) (s : Bytes) :
    annotationList (as ++ [a]) ++ s = 0x7b :: (annotationsBefore as ++ (annotationText a.1 a.2 ++ 0x7d :: s)) := by
  unfold annotationList
  rw [annBody'_eq, annBody'_snoc]
  simp

theorem braceSays_eq (line : Nat) (hl : line < 2 ^ 31) (s : Bytes) :
    (if hd s ≠ chRBrace then [msgBrace line (hd s)] else []) = braceSays line s := by
  unfold braceSays
  rw [nextChar_hd, msgBrace_eq line hl]
  by_cases h : hd s = chRBrace
  · rw [if_neg (by simpa using h), if_pos h]
  · rw [if_pos h, if_neg h]

/-- The texts of what follows a brace, by what follows the good annotations. -/
theorem annsT_before (line : Nat) (feature : Bytes) (as : List Ann) (has : AnnotationsFine as) (s : Bytes) (ts : List Bytes) (u : Bytes)
    (h : ∀ n c, annT line feature (n + 1) (c :: s) = (ts, u)) (hl : line < 2 ^ 31) :
    tailT true line feature (0x7b :: (annotationsBefore as ++ s)) = ts ++ braceSays line u := by
  unfold tailT annsT
  rw [if_pos (hd_cons _ _), if_pos rfl]
  have hlen := before_length as
  obtain ⟨n, hn⟩ : ∃ n, (0x7b :: (annotationsBefore as ++ s)).length + 1 = (n + 1) + as.length := by
    refine ⟨(0x7b :: (annotationsBefore as ++ s)).length - as.length, ?_⟩
    simp only [List.length_cons, List.length_append]
    omega
  obtain ⟨c', hc⟩ := annT_before line feature s as has (n + 1) 0x7b
  dsimp only
  rw [hn, hc, h, braceSays_eq line hl]

theorem ending_says (ann : Bool) (line : Nat) (hl : line < 2 ^ 31) (feature : Bytes) (hf : ∀ c ∈ feature, NameChar c)
    {post : Bytes} {ts : List Bytes} (h : EndingSays ann line feature post ts) : tailT ann line feature post = ts := by
  cases h with
  | fine s as h =>
    cases h with
    | done => rfl
    | comment s => rfl
    | cr s => rfl
    | brace s h => subst h; rfl
    | annotations as s h has =>
      subst h
      obtain ⟨bs, a, rfl⟩ : ∃ bs a, as = bs ++ [a] := ⟨as.dropLast, as.getLast has.1, (List.dropLast_concat_getLast has.1).symm⟩
      rw [annotationList_snoc]
      have := annsT_before line feature bs (fun x hx => has.2 x (List.mem_append_left _ hx))
        (annotationText a.1 a.2 ++ 0x7d :: s) [] (0x7d :: s) (fun n c => by
          rw [annT_step line feature a (has.2 a (by simp)) n c _ (by rw [hd_cons]; decide),
            if_neg (by rw [hd_cons]; decide)]) hl
      rw [this]
      rfl
  | other c s h =>
    unfold tailT endT
    rw [hd_cons, if_neg h.1, if_neg (by rintro (e | e); exact h.2.1 e; exact h.2.2 e), if_pos (by simp), msgNewline_eq line hl]
  | unclosed as a s h has hb hc hc' =>
    subst h
    have := annsT_before line feature as (fun x hx => has x (List.mem_append_left _ hx))
      (annotationText a.1 a.2 ++ s) [] s (fun n c => by
        rw [annT_step line feature a (has a (by simp)) n c _ (hd_nb hb)]; exact if_neg hc) hl
    rw [this]
    rfl
  | noEquals as g0 name g1 s h has h0 hn h1 hb hc hi =>
    subst h
    rw [annsT_before line feature as has _ _ _ (fun n c => annT_noEquals line feature n c g0 name g1 s h0 hn h1 (hd_nb hb)
      (fun h => hd_ni (hi h)) hc) hl, msgAnnotationEq_eq line hl name hn]
    rfl
  | noQuote as g0 name g1 g2 s h has h0 hn h1 h2 hb hc =>
    subst h
    rw [annsT_before line feature as has _ _ _ (fun n c => annT_noQuote line feature n c g0 name g1 g2 s h0 hn h1 h2 (hd_nb hb) hc) hl,
      msgNotQuoted_eq line hl feature name hf hn]
    rfl
  | unfinished as g0 name g1 g2 v h has h0 hn h1 h2 hv =>
    subst h
    rw [annsT_before line feature as has _ _ _ (fun n c => annT_unfinished line feature n c g0 name g1 g2 v h0 hn h1 h2 hv) hl,
      msgUnfinished_eq line hl]
    rfl

/-! ## Every ending has its texts -/

/-- Where annotations stop. -/
def Stops (u : Bytes) : Prop :=
  (∃ (a : Ann) (s : Bytes), AnnOk a ∧ u = annotationText a.1 a.2 ++ s ∧ NoBlankAt s ∧ nextChar s ≠ 0x2c) ∨
  (∃ g0 name g1 s, Blank g0 ∧ (∀ c ∈ name, NameChar c) ∧ Blank g1 ∧ NoBlankAt s ∧ nextChar s ≠ 0x3d ∧
    (g1 = [] ∨ name = [] → ∀ c, s.head? = some c → ¬ NameChar c) ∧ u = g0 ++ (name ++ (g1 ++ s))) ∨
  (∃ g0 name g1 g2 s, Blank g0 ∧ (∀ c ∈ name, NameChar c) ∧ Blank g1 ∧ Blank g2 ∧ NoBlankAt s ∧ nextChar s ≠ 0x22 ∧
    u = g0 ++ (name ++ (g1 ++ 0x3d :: (g2 ++ s)))) ∨
  (∃ g0 name g1 g2 v, Blank g0 ∧ (∀ c ∈ name, NameChar c) ∧ Blank g1 ∧ Blank g2 ∧
    (∀ pre post, v = pre ++ 0x22 :: post → pre.getLast? = some 0x5c) ∧ u = g0 ++ (name ++ (g1 ++ 0x3d :: (g2 ++ 0x22 :: v))))

theorem noBlank_drop (s : Bytes) : NoBlankAt (s.dropWhile isBlank) := by
  intro c hc hb
  have := hd_dropWhile isBlank isBlank_nl s
  cases hs : s.dropWhile isBlank with
  | nil => rw [hs] at hc; cases hc
  | cons x xs =>
    rw [hs] at hc this
    cases hc
    rw [hd_cons] at this
    exact of_decide_eq_false this hb

theorem quotedP_open_rev : ∀ (v : Bytes) (prev : UInt8), (quotedP prev v).2 = [] →
    ∀ pre post, v = pre ++ 0x22 :: post → pre.getLastD prev = 0x5c := by
  intro v
  induction v with
  | nil => intro prev _ pre post e; cases pre <;> cases e
  | cons c cs ih =>
    intro prev h pre post e
    unfold quotedP at h
    split at h
    · cases h
    · rename_i hno
      cases pre with
      | nil =>
        simp only [List.nil_append, List.cons.injEq] at e
        exact Classical.not_not.1 fun hp => hno ⟨e.1, hp⟩
      | cons x pre =>
        simp only [List.cons_append, List.cons.injEq] at e
        have hl : (x :: pre).getLastD prev = pre.getLastD x := by cases pre <;> rfl
        rw [hl, ← e.1]
        exact ih c h pre post e.2

theorem stops_exist : ∀ (n : Nat) (t : Bytes), t.length < n → chNl ∉ t →
    ∃ (as : List Ann) (u : Bytes), AnnotationsFine as ∧ t = annotationsBefore as ++ u ∧ Stops u := by
  intro n
  induction n with
  | zero => intro t h; omega
  | succ n ih =>
    intro t hlen hnl
    have d1 : t = t.takeWhile isBlank ++ t.dropWhile isBlank := takeDrop _ _
    generalize hg0 : t.takeWhile isBlank = g0 at d1
    have b0 : Blank g0 := hg0 ▸ takeBlank t
    generalize t.dropWhile isBlank = s1 at d1
    have d2 : s1 = s1.takeWhile isIdent ++ s1.dropWhile isIdent := takeDrop _ _
    have hnm : ∀ c ∈ s1.takeWhile isIdent, NameChar c := fun c hc => (isIdent_spec c).1 (takeWhile_all isIdent _ c hc)
    generalize s1.takeWhile isIdent = name at d2 hnm
    have hi := hd_dropWhile isIdent isIdent_nl s1
    generalize s1.dropWhile isIdent = s2 at d2 hi
    have d3 : s2 = s2.takeWhile isBlank ++ s2.dropWhile isBlank := takeDrop _ _
    have b1 : Blank (s2.takeWhile isBlank) := takeBlank s2
    have nb3 := noBlank_drop s2
    generalize s2.takeWhile isBlank = g1 at d3 b1
    generalize s2.dropWhile isBlank = s3 at d3 nb3
    have et : t = g0 ++ (name ++ (g1 ++ s3)) := by rw [d1, d2, d3]
    by_cases h1 : hd s3 = chEq
    · have d4 := hd_ne_nl h1 (by decide)
      have d5 : s3.tail = s3.tail.takeWhile isBlank ++ s3.tail.dropWhile isBlank := takeDrop _ _
      have b2 : Blank (s3.tail.takeWhile isBlank) := takeBlank s3.tail
      have nb5 := noBlank_drop s3.tail
      generalize s3.tail.takeWhile isBlank = g2 at d5 b2
      generalize s3.tail.dropWhile isBlank = s5 at d5 nb5
      have et : t = g0 ++ (name ++ (g1 ++ 0x3d :: (g2 ++ s5))) := by rw [et, d4, d5]
      by_cases h2 : hd s5 = chQuote
      · have d6 := hd_ne_nl h2 (by decide)
        have hsub : chNl ∉ s5.tail := by
          intro hm
          refine hnl ?_
          rw [et, d6]
          simp [hm]
        have et : t = g0 ++ (name ++ (g1 ++ 0x3d :: (g2 ++ 0x22 :: s5.tail))) := by rw [et, d6]; rfl
        by_cases h3 : (quotedP chQuote s5.tail).2 = []
        · refine ⟨[], t, by simp [AnnotationsFine], rfl, Or.inr (Or.inr (Or.inr ⟨g0, name, g1, g2, s5.tail, b0, hnm, b1, b2, ?_, et⟩))⟩
          intro pre post e
          have := quotedP_open_rev s5.tail chQuote h3 pre post e
          rw [List.getLastD_eq_getLast?] at this
          cases hl : pre.getLast? with
          | none => rw [hl] at this; exact absurd this (by decide)
          | some x => rw [hl] at this; simp only [Option.getD_some] at this; rw [this]
        · obtain ⟨hq, r, _, d7⟩ := quotable_of hsub h3
          generalize (quotedP chQuote s5.tail).1 = v at hq d7
          have d8 : r = r.takeWhile isBlank ++ r.dropWhile isBlank := takeDrop _ _
          have b3 : Blank (r.takeWhile isBlank) := takeBlank r
          have nb8 := noBlank_drop r
          generalize r.takeWhile isBlank = g3 at d8 b3
          generalize r.dropWhile isBlank = s8 at d8 nb8
          have et : t = annotationText (gaps g0 g1 g2 g3 [] [] [] [] [] [] [] []) (name, v) ++ s8 := by
            rw [et, d7, d8]
            simp [annotationText, gaps]
          have hok : AnnOk (gaps g0 g1 g2 g3 [] [] [] [] [] [] [] [], name, v) :=
            ⟨gaps_blank b0 b1 b2 b3 blank_nil blank_nil blank_nil blank_nil blank_nil blank_nil blank_nil blank_nil, hnm, hq⟩
          by_cases h4 : hd s8 = chComma
          · have d9 := hd_ne_nl h4 (by decide)
            have hlen8 : s8.tail.length < n := by
              have h8 := congrArg List.length et
              rw [List.length_append] at h8
              have h9 := congrArg List.length d9
              rw [List.length_cons] at h9
              omega
            have hnl8 : chNl ∉ s8.tail := by
              intro hm
              refine hnl ?_
              rw [et, d9]
              simp [hm]
            obtain ⟨as, u, has, e, hst⟩ := ih s8.tail hlen8 hnl8
            refine ⟨(gaps g0 g1 g2 g3 [] [] [] [] [] [] [] [], name, v) :: as, u, ?_, ?_, hst⟩
            · intro a ha
              rcases List.mem_cons.1 ha with rfl | ha
              · exact hok
              · exact has a ha
            · rw [et, d9, e]
              simp [annotationsBefore, chComma]
          · exact ⟨[], t, by simp [AnnotationsFine], rfl, Or.inl ⟨_, s8, hok, et, nb8, h4⟩⟩
      · exact ⟨[], t, by simp [AnnotationsFine], rfl, Or.inr (Or.inr (Or.inl ⟨g0, name, g1, g2, s5, b0, hnm, b1, b2, nb5, h2, et⟩))⟩
    · refine ⟨[], t, by simp [AnnotationsFine], rfl, Or.inr (Or.inl ⟨g0, name, g1, s3, b0, hnm, b1, nb3, h1, ?_, et⟩)⟩
      rintro hor c hc hid
      cases s3 with
      | nil => cases hc
      | cons x xs =>
        cases hc
        rcases hor with rfl | rfl
        · rw [List.nil_append] at d3
          rw [d3, hd_cons, (isIdent_spec _).2 hid] at hi
          cases hi
        · -- no name: the blanks before and after it are the same blanks
          rw [List.nil_append] at d2
          cases g1 with
          | nil =>
            rw [List.nil_append] at d3
            rw [d3, hd_cons, (isIdent_spec _).2 hid] at hi
            cases hi
          | cons y ys =>
            -- `s1` does not start with a blank
            have hb1 := noBlank_drop t
            have e1 : t.dropWhile isBlank = s1 := by
              have := takeDrop isBlank t
              rw [hg0] at this
              exact List.append_cancel_left (this.symm.trans d1)
            rw [e1, d2, d3] at hb1
            exact absurd (by simpa [BlankChar] using b1 y List.mem_cons_self) (hb1 y rfl)

theorem ending_exists (ann : Bool) (line : Nat) (feature post : Bytes) (hnl : chNl ∉ post) :
    ∃ ts, EndingSays ann line feature post ts := by
  cases post with
  | nil => exact ⟨_, .fine _ _ .done⟩
  | cons c t =>
    by_cases hc : c = 0x7b
    · subst hc
      cases ann with
      | false => exact ⟨_, .fine _ _ (.brace t rfl)⟩
      | true =>
        obtain ⟨as, u, has, rfl, hst⟩ := stops_exist (t.length + 1) t (Nat.lt_succ_self _) (fun h => hnl (List.mem_cons_of_mem _ h))
        rcases hst with ⟨a, s, hok, rfl, hb, hc⟩ | ⟨g0, name, g1, s, h0, hn, h1, hb, hc, hi, rfl⟩ |
          ⟨g0, name, g1, g2, s, h0, hn, h1, h2, hb, hc, rfl⟩ | ⟨g0, name, g1, g2, v, h0, hn, h1, h2, hv, rfl⟩
        · have hfine : AnnotationsFine (as ++ [a]) := by
            intro x hx
            rcases List.mem_append.1 hx with hx | hx
            · exact has x hx
            · rw [List.mem_singleton.1 hx]; exact hok
          by_cases hcl : nextChar s = 0x7d
          · have d := hd_ne_nl (c := 0x7d) hcl (by decide)
            rw [d]
            have := annotationList_snoc as a s.tail
            rw [← this]
            exact ⟨_, .fine _ _ (.annotations (as ++ [a]) s.tail rfl ⟨by simp, hfine⟩)⟩
          · exact ⟨_, .unclosed as a s rfl hfine hb hc hcl⟩
        · exact ⟨_, .noEquals as g0 name g1 s rfl has h0 hn h1 hb hc hi⟩
        · exact ⟨_, .noQuote as g0 name g1 g2 s rfl has h0 hn h1 h2 hb hc⟩
        · exact ⟨_, .unfinished as g0 name g1 g2 v rfl has h0 hn h1 h2 hv⟩
    · by_cases h2 : c = 0x23
      · subst h2; exact ⟨_, .fine _ _ (.comment t)⟩
      · by_cases h3 : c = 0x0d
        · subst h3; exact ⟨_, .fine _ _ (.cr t)⟩
        · exact ⟨_, .other c t ⟨hc, h2, h3⟩⟩

end Verif.Fasm
