import Verif.Proofs.FasmInv
/-! # Annotations -/
namespace Verif.Fasm
open Verif.Spec

/-! ## Rendered annotations -/

theorem quotedP_text (rest : Bytes) : ∀ (v : Bytes) (prev : UInt8),
    v.getLastD prev ≠ 0x5c →
    (∀ pre post, v = pre ++ 0x22 :: post → pre.getLastD prev = 0x5c) →
    quotedP prev (v ++ 0x22 :: rest) = (v, 0x22 :: rest) := by
  intro v
  induction v with
  | nil =>
    intro prev h _
    unfold quotedP
    exact if_pos ⟨rfl, h⟩
  | cons c cs ih =>
    intro prev h hq
    have hno : ¬ (c = chQuote ∧ prev ≠ chBackslash) := by
      rintro ⟨rfl, hp⟩
      exact hp (hq [] cs rfl)
    have hl : ∀ l : Bytes, (c :: l).getLastD prev = l.getLastD c := fun l => by cases l <;> rfl
    have := ih c (by rw [← hl]; exact h) (by
      intro pre post e
      have := hq (c :: pre) post (by rw [e]; rfl)
      rw [hl] at this
      exact this)
    rw [List.cons_append, quotedP, if_neg hno, this]

theorem quotable_text {v : Bytes} (h : Quotable v) (rest : Bytes) :
    quotedP chQuote (v ++ 0x22 :: rest) = (v, 0x22 :: rest) := by
  obtain ⟨_, h2, h3⟩ := h
  refine quotedP_text rest v chQuote ?_ ?_
  · cases hl : v.getLast? with
    | none =>
      rw [List.getLast?_eq_none_iff] at hl
      subst hl
      decide
    | some x =>
      rw [List.getLastD_eq_getLast?, hl]
      rintro rfl
      exact h2 hl
  · intro pre post e
    rw [List.getLastD_eq_getLast?, h3 pre post e]; rfl

/-- Well-formed annotation. -/
def AnnWf (a : Bytes × Bytes) : Prop := (∀ c ∈ a.1, NameChar c) ∧ Quotable a.2

def annEvents (line : Nat) (feature : Bytes) (as : List (Bytes × Bytes)) : List Event :=
  as.map fun a => .annotation line feature a.1 a.2

/-- The list after its opening character. -/
def annBody (g : Nat → Bytes) : List (Bytes × Bytes) → Bytes
  | [] => []
  | [a] => annotationText g a
  | a :: b :: as => annotationText g a ++ 0x2c :: annBody g (b :: as)

theorem annBody_eq (g : Nat → Bytes) (as : List (Bytes × Bytes)) :
    (bytes!"," : Bytes).intercalate (as.map (annotationText g)) = annBody g as := by
  induction as with
  | nil => rfl
  | cons a as ih =>
    cases as with
    | nil => simp [annBody, List.intercalate]
    | cons b bs =>
      rw [annBody, ← ih]
      simp [List.intercalate]

theorem annP_text (line : Nat) (feature : Bytes) (g : Nat → Bytes) (hg : ∀ i, Blank (g i)) (e : Bytes) :
    ∀ (as : List (Bytes × Bytes)), as ≠ [] → (∀ a ∈ as, AnnWf a) → ∀ (n : Nat) (st : St) (c : UInt8),
    as.length ≤ n →
    annP line feature n st (c :: (annBody g as ++ 0x7d :: e)) =
      ({ st with trace := st.trace ++ annEvents line feature as }, 0x7d :: e) := by
  intro as
  induction as with
  | nil => intro h; exact absurd rfl h
  | cons a as ih =>
    intro _ hwf n st c hn
    obtain ⟨hname, hq⟩ := hwf a List.mem_cons_self
    cases n with
    | zero => simp at hn
    | succ n =>
      have hnm : ∀ c ∈ a.1, isIdent c = true := fun c hc => (isIdent_spec c).2 (hname c hc)
      -- one item followed by `tl`, whose head is not blank
      have key : ∀ tl : Bytes, isBlank (hd tl) = false →
          annP line feature (n + 1) st (c :: (annotationText g a ++ tl)) =
            (if hd tl = chComma then
              annP line feature n { st with trace := st.trace ++ [.annotation line feature a.1 a.2] } tl
             else ({ st with trace := st.trace ++ [.annotation line feature a.1 a.2] }, tl)) := by
        intro tl htl
        rw [annP]
        dsimp only [List.tail_cons]
        have e1 : (annotationText g a ++ tl).dropWhile isBlank =
            a.1 ++ (g 1 ++ 0x3d :: (g 2 ++ 0x22 :: (a.2 ++ 0x22 :: (g 3 ++ tl)))) ∨
            (a.1 = [] ∧ (annotationText g a ++ tl).dropWhile isBlank =
              0x3d :: (g 2 ++ 0x22 :: (a.2 ++ 0x22 :: (g 3 ++ tl)))) := by
          unfold annotationText
          simp only [List.append_assoc, List.cons_append]
          cases hn : a.1 with
          | nil =>
            right
            refine ⟨rfl, ?_⟩
            rw [List.nil_append, ← List.append_assoc]
            refine dropBlank _ _ ?_ (by rw [hd_cons]; decide)
            intro c hc
            rcases List.mem_append.1 hc with h | h
            · exact hg 0 c h
            · exact hg 1 c h
          | cons x xs =>
            left
            refine dropBlank _ _ (hg 0) ?_
            exact ident_not_blank (hnm x (by rw [hn]; exact List.mem_cons_self))
        have e2 : ((annotationText g a ++ tl).dropWhile isBlank).takeWhile isIdent = a.1 ∧
            (((annotationText g a ++ tl).dropWhile isBlank).dropWhile isIdent).dropWhile isBlank =
              0x3d :: (g 2 ++ 0x22 :: (a.2 ++ 0x22 :: (g 3 ++ tl))) := by
          rcases e1 with e1 | ⟨e0, e1⟩
          · rw [e1]
            have := span_eq isIdent a.1 (g 1 ++ 0x3d :: (g 2 ++ 0x22 :: (a.2 ++ 0x22 :: (g 3 ++ tl)))) hnm isIdent_nl
              (hd_append _ _ _ (blank_not_ident (hg 1)) (by rw [hd_cons]; decide))
            rw [this.1, this.2]
            exact ⟨rfl, dropBlank (g 1) _ (hg 1) (by rw [hd_cons]; decide)⟩
          · rw [e1, e0]
            have := span_eq isIdent [] (0x3d :: (g 2 ++ 0x22 :: (a.2 ++ 0x22 :: (g 3 ++ tl)))) (by simp) isIdent_nl
              (by rw [hd_cons]; decide)
            rw [List.nil_append] at this
            rw [this.1, this.2]
            exact ⟨rfl, dropBlank [] _ (by intro c hc; cases hc) (by rw [hd_cons]; decide)⟩
        have e3 := dropBlank (g 2) (0x22 :: (a.2 ++ 0x22 :: (g 3 ++ tl))) (hg 2) (by rw [hd_cons]; decide)
        have e4 := dropBlank (g 3) tl (hg 3) htl
        simp only [e2.1, e2.2, hd_cons, ne_eq, not_true, if_false, List.tail_cons, e3, quotable_text hq, e4,
          reduceCtorEq]
      cases as with
      | nil =>
        rw [annBody, key (0x7d :: e) (by rw [hd_cons]; decide)]
        rw [if_neg (by rw [hd_cons]; decide)]
        rfl
      | cons b bs =>
        rw [annBody, List.append_assoc, List.cons_append, key _ (by rw [hd_cons]; decide)]
        rw [if_pos (hd_cons _ _), ih (by simp) (fun x hx => hwf x (List.mem_cons_of_mem _ hx)) n _ _
          (by simp only [List.length_cons] at hn ⊢; omega)]
        simp [annEvents]

theorem annBody_length (g : Nat → Bytes) : ∀ (as : List (Bytes × Bytes)), as.length ≤ (annBody g as).length := by
  intro as
  induction as with
  | nil => simp
  | cons a as ih =>
    cases as with
    | nil => simp [annBody, annotationText]; omega
    | cons b bs =>
      simp only [annBody, List.length_append, List.length_cons] at ih ⊢
      omega

theorem tailP_ann (line : Nat) (feature : Bytes) (g : Nat → Bytes) (hg : ∀ i, Blank (g i)) (as : List (Bytes × Bytes))
    (hne : as ≠ []) (hwf : ∀ a ∈ as, AnnWf a) (e : Bytes) (st : St) :
    tailP true st line feature (annotationsText g as ++ e) =
      { st with trace := st.trace ++ annEvents line feature as } := by
  have e1 : annotationsText g as ++ e = 0x7b :: (annBody g as ++ 0x7d :: e) := by
    simp [annotationsText, annBody_eq]
  rw [e1]
  unfold tailP annsP
  rw [if_pos (hd_cons _ _), if_pos rfl]
  have hlen := annBody_length g as
  rw [annP_text line feature g hg e as hne hwf _ st _ (by simp; omega)]
  simp only [hd_cons, ne_eq, not_true, if_false]

theorem ann_noNl (g : Nat → Bytes) (hg : ∀ i, Blank (g i)) : ∀ (as : List (Bytes × Bytes)), (∀ a ∈ as, AnnWf a) →
    (0x0a : UInt8) ∉ annBody g as := by
  have hb := fun i => (blank_not_mem (hg i)).1
  intro as
  have hone : ∀ a, AnnWf a → (0x0a : UInt8) ∉ annotationText g a := by
    intro a ha
    have := (name_not_mem ha.1).1
    simp [annotationText, hb, this, ha.2.1]
  induction as with
  | nil => intro _; simp [annBody]
  | cons a as ih =>
    intro h
    have h1 := hone a (h a List.mem_cons_self)
    have h2 := ih fun x hx => h x (List.mem_cons_of_mem _ hx)
    cases as with
    | nil => exact h1
    | cons b bs => simp [annBody, h1, h2]

theorem ann_line (g : Nat → Bytes) (hg : ∀ i, Blank (g i)) (f : FeatureText) (hf : f.WellFormed)
    (as : List (Bytes × Bytes)) (hwf : ∀ a ∈ as, AnnWf a) (e : Bytes) (he : LineEnd e) :
    Line (f.text g ++ annotationsText g as ++ e) := by
  have e1 : annotationsText g as = (0x7b :: annBody g as) ++ bytes!"}" := by
    simp [annotationsText, annBody_eq]
  have hn : (0x0a : UInt8) ∉ annotationsText g as := by
    rw [e1]; simp [ann_noNl g hg as hwf]
  refine ⟨noNl_append (noNl_append (text_noNl g hg f hf) hn) he.1, strict_end ?_ he⟩
  rw [e1, ← List.append_assoc]
  exact strict_of _ bytes!"}" (by decide) 0x7d (by simp) (by decide)

/-! ## The annotation callback does not influence the features -/

def feats (tr : List Event) : List Event := tr.filter isFeature

/-- States that agree on the feature calls. -/
def SameFeats (a b : St) : Prop := feats a.trace = feats b.trace

theorem feats_snoc_feature (tr : List Event) (l : Nat) (n : Bytes) (s w : Int) (b : Nat) :
    feats (tr ++ [.feature l n s w b]) = feats tr ++ [.feature l n s w b] := by
  simp [feats, isFeature]

theorem feats_snoc_ann (tr : List Event) (l : Nat) (f n v : Bytes) :
    feats (tr ++ [.annotation l f n v]) = feats tr := by
  simp [feats, isFeature]

/-- Two outcomes that agree on the feature calls. -/
def SameRes : Res St → Res St → Prop
  | .ok a, .ok b => SameFeats a b
  | .oob, .oob => True
  | .shift, .shift => True
  | _, _ => False

theorem reportChunks_same (cb : List Event → Bool) (hcb : ∀ tr, cb tr = cb (feats tr)) (line : Nat) (name : Bytes)
    (mn w total : Nat) : ∀ (cs : List Nat) (i : Nat) (a b : St), SameFeats a b →
    SameRes (reportChunks cb line name mn w total i cs a) (reportChunks cb line name mn w total i cs b) := by
  intro cs
  induction cs with
  | nil => intro i a b h; exact h
  | cons c cs ih =>
    intro i a b h
    unfold reportChunks
    dsimp only
    split
    · trivial
    · generalize toInt32 (mn + i * 64) = s
      generalize toInt32 (valueWidth w total i) = ww
      generalize c &&& (2 ^ 64 - 1) >>> (64#32 - BitVec.ofNat 32 (valueWidth w total i)).toNat = bb
      have hs : feats (a.trace ++ [.feature line name s ww bb]) = feats (b.trace ++ [.feature line name s ww bb]) := by
        rw [feats_snoc_feature, feats_snoc_feature, show feats a.trace = feats b.trace from h]
      rw [hcb (a.trace ++ _), hcb (b.trace ++ _), hs]
      split
      · exact ih _ _ _ hs
      · exact hs

theorem annP_feats (line : Nat) (feature : Bytes) : ∀ (n : Nat) (st : St) (s : Bytes),
    feats (annP line feature n st s).1.trace = feats st.trace := by
  intro n
  induction n with
  | zero => intro st s; rfl
  | succ n ih =>
    intro st s
    unfold annP
    dsimp only
    split
    · rfl
    · split
      · rfl
      · split
        · rfl
        · split
          · rw [ih, feats_snoc_ann]
          · exact feats_snoc_ann _ _ _ _ _

theorem tailP_feats (ann : Bool) (st : St) (line : Nat) (feature s : Bytes) :
    feats (tailP ann st line feature s).trace = feats st.trace := by
  unfold tailP
  split
  · unfold annsP
    split
    · dsimp only
      split
      · exact annP_feats _ _ _ _ _
      · exact annP_feats _ _ _ _ _
    · rfl
  · unfold endP
    split
    · rfl
    · split <;> rfl

theorem report_trace (st : St) (line : Nat) (sev : Sev) : (st.report line sev).trace = st.trace := rfl

theorem assignP_trace (st : St) (line mx mn : Nat) (s : Bytes) : (assignP st line mx mn s).1.trace = st.trace := by
  have hc : ∀ st line w i, (clampWidth st line w i).1.trace = st.trace := by
    intro st line w i; unfold clampWidth; split <;> rfl
  have hv : ∀ st line f s, (valueP st line f s).1.trace = st.trace := by
    intro st line f s; unfold valueP
    split
    · rfl
    · split
      · rfl
      · split
        · rfl
        · split <;> rfl
  unfold assignP
  dsimp only
  split
  · split
    · unfold tickedP
      dsimp only
      rw [hv, hc]
      split <;> rfl
    · exact hc _ _ _ _
  · dsimp only
    split <;> rfl

theorem assignP_rest (a b : St) (line line' mx mn : Nat) (s : Bytes) :
    (assignP a line mx mn s).2 = (assignP b line' mx mn s).2 := by
  have hv : ∀ (a b : St) line line' f s, (valueP a line f s).2 = (valueP b line' f s).2 := by
    intro a b line line' f s; unfold valueP
    split
    · rfl
    · split
      · rfl
      · split
        · rfl
        · split <;> rfl
  have hc : ∀ (a b : St) line line' w i, (clampWidth a line w i).2 = (clampWidth b line' w i).2 := by
    intro a b line line' w i; unfold clampWidth; split <;> rfl
  unfold assignP
  dsimp only
  split
  · split
    · unfold tickedP
      dsimp only
      rw [hv _ {} line 0, hv _ {} line' 0, hc _ {} line 0, hc _ {} line' 0]
    · dsimp only
      rw [hc a b line line']
  · rfl

theorem lineP_same (cb : List Event → Bool) (hcb : ∀ tr, cb tr = cb (feats tr)) (a1 a2 : Bool) (a b : St)
    (line : Nat) (s : Bytes) (h : SameFeats a b) : SameRes (lineP a1 cb a line s) (lineP a2 cb b line s) := by
  unfold lineP
  dsimp only
  split
  · show feats _ = feats _
    rw [tailP_feats, tailP_feats]; exact h
  · split
    · exact h
    · exact h
    · rename_i mx mn _
      generalize (rangeP _).2.dropWhile isBlank = u
      rw [assignP_rest b a line line mx mn u]
      have hs : SameFeats (assignP a line mx mn u).1 (assignP b line mx mn u).1 := by
        unfold SameFeats
        rw [assignP_trace, assignP_trace]; exact h
      generalize (List.takeWhile isIdent _) = nm
      have := reportChunks_same cb hcb line nm mn (assignP a line mx mn u).2.1
        (assignP a line mx mn u).2.2.1.length (assignP a line mx mn u).2.2.1 0 _ _ hs
      revert this
      generalize reportChunks cb line _ mn _ _ 0 _ (assignP a line mx mn u).1 = r1
      generalize reportChunks cb line _ mn _ _ 0 _ (assignP b line mx mn u).1 = r2
      intro this
      cases r1 <;> cases r2 <;> simp only [SameRes] at this <;> simp only [Res.bind, SameRes]
      show feats _ = feats _
      rw [tailP_feats, tailP_feats]; exact this

theorem linesP_same (cb : List Event → Bool) (hcb : ∀ tr, cb tr = cb (feats tr)) (a1 a2 : Bool) :
    ∀ (ls : List Bytes) (line : Nat) (a b : St), SameFeats a b →
      SameRes (linesP a1 cb line a ls) (linesP a2 cb line b ls) := by
  intro ls
  induction ls with
  | nil => intro line a b h; exact h
  | cons l ls ih =>
    intro line a b h
    unfold linesP
    have := lineP_same cb hcb a1 a2 a b ((line + 1) % 2 ^ 32) l h
    cases h1 : lineP a1 cb a ((line + 1) % 2 ^ 32) l <;> cases h2 : lineP a2 cb b ((line + 1) % 2 ^ 32) l <;>
      rw [h1, h2] at this <;> simp only [SameRes] at this <;> simp only [Res.bind]
    · exact ih _ _ _ this
    all_goals trivial

end Verif.Fasm
