import Verif.Proofs.FasmText
/-! # The texts of one line -/
namespace Verif.Fasm
open Verif.Spec

/-- Range with the numbers of an inverted one. -/
def rangeMP (s : Bytes) : RangeM × Bytes :=
  if hd s = chLBrack then
    let n1 := numP 10 16 s.tail
    let r := rangeMinP n1.1 (n1.2.dropWhile isBlank)
    if hd r.2 ≠ chRBrack then (.noBracket, r.2)
    else if n1.1 < r.1 then (.inverted n1.1 r.1, r.2.tail)
    else (.bits n1.1 r.1, r.2.tail)
  else (.bits 0 0, s)

theorem rangeMP_plain (s : Bytes) : rangeP s = ((rangeMP s).1.plain, (rangeMP s).2) := by
  unfold rangeP rangeMP
  split
  · dsimp only
    split
    · rfl
    · split <;> rfl
  · rfl

theorem parseRangeM_nl (s rest : Bytes) :
    parseRangeM (s ++ chNl :: rest) = .ok ((rangeMP s).1, (rangeMP s).2 ++ chNl :: rest) := by
  unfold parseRangeM rangeMP
  simp only [cur_nl, Res.bind_ok]
  by_cases h : hd s = chLBrack
  · simp only [h, if_true, adv_nl s rest (ne_nil_of_hd h (by decide)),
      number_nl 10 16 (by decide), skipBlank_nl, rangeMin_nl, Res.bind_ok, cur_nl, Res.pure_eq]
    generalize rangeMinP _ _ = r
    by_cases h2 : hd r.2 = chRBrack
    · rw [adv_nl _ rest (ne_nil_of_hd h2 (by decide))]
      simp only [h2, ne_eq, not_true, if_false]
      split <;> rfl
    · simp only [h2, ne_eq, not_false_eq_true, if_true]
  · simp only [h, if_false, Res.pure_eq]

/-- Append texts. -/
def Log.add (o : Log) (st : St) (ts : List Bytes) : Log := ⟨st, o.out ++ ts⟩

theorem Log.add_nil (o : Log) : o.add o.st [] = o := by
  cases o; simp [Log.add]

theorem Log.add_add (o : Log) (st st' : St) (ts us : List Bytes) : (o.add st ts).add st' us = o.add st' (ts ++ us) := by
  simp [Log.add]

theorem Log.print_add (o : Log) (line : Nat) (sev : Sev) (t : Bytes) : o.print line sev t = o.add (o.st.report line sev) [t] := rfl

@[simp] theorem Log.add_st (o : Log) (st : St) (ts : List Bytes) : (o.add st ts).st = st := rfl

def valueT (line : Nat) (f : UInt8) : List Bytes :=
  if f = 0x68 then [] else if f = 0x62 then [] else if f = 0x6f then [] else if f = 0x64 then [] else [msgBase line f]

def clampT (line : Nat) (name : Bytes) (mx mn w : Nat) (i : Bool) : List Bytes :=
  if w > 64 ∧ i then [msgTooWide line name mx mn w] else []

def moreT (line d : Nat) (name : Bytes) (mx mn w : Nat) : List Bytes :=
  if d > w then [msgMoreBits line d name mx mn w] else []

def tickedT (line : Nat) (name : Bytes) (mx mn w d : Nat) (s : Bytes) : List Bytes :=
  let s2 := s.dropWhile isBlank
  moreT line d name mx mn w ++ (clampT line name mx mn w (hd s2 = 0x64 ∨ hd s2 = 0x6f) ++ valueT line (hd s2))

def assignT (line : Nat) (name : Bytes) (mx mn : Nat) (s : Bytes) : List Bytes :=
  if hd s = chEq then
    let v := leadP (s.tail.dropWhile isBlank)
    let s1 := v.2.dropWhile isBlank
    if hd s1 = chTick then tickedT line name mx mn (mx - mn + 1) v.1 s1.tail
    else clampT line name mx mn (mx - mn + 1) true
  else if mn ≠ mx then [msgNoAssignment line name mx mn] else []

theorem valueM_nl (o : Log) (line : Nat) (f : UInt8) (s rest : Bytes) (hs : chNl ∉ s) :
    parseValueM o line f (s ++ chNl :: rest) =
      .ok (o.add (valueP o.st line f s).1 (valueT line f), (valueP o.st line f s).2.1,
        (valueP o.st line f s).2.2 ++ chNl :: rest) := by
  unfold parseValueM valueP valueT
  simp only [longNumber_nl 4 (by decide), longNumber_nl 1 (by decide), number_nl 8 64 (by decide),
    number_nl 10 64 (by decide), skipToEol_nl s rest hs, Res.bind_ok, Res.pure_eq]
  split
  · rw [Log.add_nil]
  · split
    · rw [Log.add_nil]
    · split
      · rw [Log.add_nil]
      · split
        · rw [Log.add_nil]
        · rfl

theorem clampM_eq (o : Log) (line : Nat) (name : Bytes) (mx mn w : Nat) (i : Bool) :
    clampWidthM o line name mx mn w i = (o.add (clampWidth o.st line w i).1 (clampT line name mx mn w i), (clampWidth o.st line w i).2) := by
  unfold clampWidthM clampWidth clampT
  split
  · rfl
  · rw [Log.add_nil]

theorem moreM_eq (o : Log) (line d : Nat) (name : Bytes) (mx mn w : Nat) :
    (if d > w then o.print line .nonCritical (msgMoreBits line d name mx mn w) else o) =
      o.add (if d > w then o.st.report line .nonCritical else o.st) (moreT line d name mx mn w) := by
  unfold moreT
  split
  · rfl
  · rw [Log.add_nil]

theorem tickedM_nl (o : Log) (line : Nat) (name : Bytes) (mx mn w d : Nat) (s rest : Bytes) (hs : chNl ∉ s)
    (hne : s.dropWhile isBlank ≠ []) :
    parseTickedM o line name mx mn w d (s ++ chNl :: rest) =
      .ok (o.add (tickedP o.st line w d s).1 (tickedT line name mx mn w d s), (tickedP o.st line w d s).2.1,
        (tickedP o.st line w d s).2.2.1, (tickedP o.st line w d s).2.2.2 ++ chNl :: rest) := by
  unfold parseTickedM tickedP tickedT
  have hnl : chNl ∉ (s.dropWhile isBlank).tail :=
    not_mem_suffix hs ((tail_suffix' _).trans (dropWhile_suffix' _ _))
  simp only [skipBlank_nl, cur_nl, Res.bind_ok, adv_nl _ rest hne, moreM_eq, clampM_eq, Log.add_st, Log.add_add,
    valueM_nl _ _ _ _ rest hnl, Res.pure_eq, List.append_assoc]

theorem assignM_nl (o : Log) (line : Nat) (name : Bytes) (mx mn : Nat) (s rest : Bytes) (hs : chNl ∉ s) (ht : ¬ AssignDangles s) :
    parseAssignM o line name mx mn (s ++ chNl :: rest) =
      .ok (o.add (assignP o.st line mx mn s).1 (assignT line name mx mn s), (assignP o.st line mx mn s).2.1,
        (assignP o.st line mx mn s).2.2.1, (assignP o.st line mx mn s).2.2.2 ++ chNl :: rest) := by
  unfold parseAssignM assignP assignT
  simp only [cur_nl, Res.bind_ok]
  by_cases h : hd s = chEq
  · simp only [h, if_true, adv_nl s rest (ne_nil_of_hd h (by decide)), skipBlank_nl, Res.bind_ok, cur_nl,
      lead_nl]
    have h1s := leadSuffix s
    by_cases h2 : hd ((leadP (s.tail.dropWhile isBlank)).2.dropWhile isBlank) = chTick
    · have hne : ((leadP (s.tail.dropWhile isBlank)).2.dropWhile isBlank).tail.dropWhile isBlank ≠ [] :=
        fun e => ht ⟨h, h2, e⟩
      simp only [h2, if_true, adv_nl _ rest (ne_nil_of_hd h2 (by decide)),
        tickedM_nl _ _ _ _ _ _ _ _ rest (not_mem_suffix hs ((tail_suffix' _).trans h1s)) hne]
    · simp only [h2, if_false, Res.pure_eq, clampM_eq]
  · simp only [h, if_false, Res.pure_eq]
    split
    · rfl
    · rw [Log.add_nil]

/-! ## Annotations -/

/-- Texts and where the loop stops. -/
def annT (line : Nat) (feature : Bytes) : Nat → Bytes → List Bytes × Bytes
  | 0, s => ([], s)
  | fuel + 1, s =>
    let s := s.tail.dropWhile isBlank
    let aname := s.takeWhile isIdent
    let s := (s.dropWhile isIdent).dropWhile isBlank
    if hd s ≠ chEq then ([msgAnnotationEq line aname], s)
    else
      let s := s.tail.dropWhile isBlank
      if hd s ≠ chQuote then ([msgNotQuoted line feature aname], s)
      else
        let q := quotedP chQuote s.tail
        if q.2 = [] then ([msgUnfinished line], q.2)
        else
          let s := q.2.tail.dropWhile isBlank
          if hd s = chComma then annT line feature fuel s else ([], s)

theorem annT_rest (line : Nat) (feature : Bytes) : ∀ (n : Nat) (st : St) (s : Bytes),
    (annP line feature n st s).2 = (annT line feature n s).2 := by
  intro n
  induction n with
  | zero => intro st s; rfl
  | succ n ih =>
    intro st s
    unfold annP annT
    dsimp only
    split
    · rfl
    · split
      · rfl
      · split
        · rfl
        · split
          · exact ih _ _
          · rfl

theorem annotationsM_nl (line : Nat) (feature rest : Bytes) : ∀ (n fuel : Nat) (o : Log) (s : Bytes),
    chNl ∉ s → s ≠ [] → s.length < n → s.length < fuel →
    annotationsM line feature fuel o (s ++ chNl :: rest) =
      .ok (o.add (annP line feature n o.st s).1 (annT line feature n s).1, (annT line feature n s).2 ++ chNl :: rest) := by
  intro n
  induction n with
  | zero => intro fuel o s _ _ h; omega
  | succ n ih =>
    intro fuel o s hs hne hn hf
    cases fuel with
    | zero => omega
    | succ fuel =>
      unfold annotationsM annP annT
      simp only [adv_nl s rest hne, skipBlank_nl, ident_nl, cur_nl, Res.bind_ok, Res.pure_eq]
      have hsuf : ((s.tail.dropWhile isBlank).dropWhile isIdent).dropWhile isBlank <:+ s :=
        (dropWhile_suffix' _ _).trans ((dropWhile_suffix' _ _).trans ((dropWhile_suffix' _ _).trans (tail_suffix' s)))
      generalize ((s.tail.dropWhile isBlank).dropWhile isIdent).dropWhile isBlank = s1 at hsuf
      generalize (s.tail.dropWhile isBlank).takeWhile isIdent = aname
      by_cases h1 : hd s1 = chEq
      · simp only [h1, ne_eq, not_true, if_false, adv_nl s1 rest (ne_nil_of_hd h1 (by decide)),
          skipBlank_nl, cur_nl, Res.bind_ok]
        have hsuf2 : s1.tail.dropWhile isBlank <:+ s :=
          (dropWhile_suffix' _ _).trans ((tail_suffix' _).trans hsuf)
        generalize s1.tail.dropWhile isBlank = s2 at hsuf2
        by_cases h2 : hd s2 = chQuote
        · simp only [h2, not_true, if_false, adv_nl s2 rest (ne_nil_of_hd h2 (by decide)),
            quoted_nl s2.tail rest (not_mem_suffix hs ((tail_suffix' _).trans hsuf2)), Res.bind_ok, cur_nl]
          have hsuf3 : (quotedP chQuote s2.tail).2 <:+ s :=
            (quotedP_suffix _ _).trans ((tail_suffix' _).trans hsuf2)
          generalize (quotedP chQuote s2.tail).1 = value
          generalize (quotedP chQuote s2.tail).2 = s3 at hsuf3
          by_cases h3 : s3 = []
          · subst h3; rfl
          · have h3' : hd s3 ≠ chNl := fun e => h3 ((hd_eq_nl (not_mem_suffix hs hsuf3)).1 e)
            simp only [h3', h3, if_false, adv_nl s3 rest h3, skipBlank_nl, cur_nl, Res.bind_ok]
            have hsuf4 : s3.tail.dropWhile isBlank <:+ s :=
              (dropWhile_suffix' _ _).trans ((tail_suffix' _).trans hsuf3)
            have hlen : (s3.tail.dropWhile isBlank).length < s.length := by
              have e1 := (dropWhile_suffix' isBlank s3.tail).length_le
              have e2 := hsuf3.length_le
              have e3 : 0 < s3.length := List.length_pos_iff.2 h3
              rw [List.length_tail] at e1
              omega
            by_cases h4 : hd (s3.tail.dropWhile isBlank) = chComma
            · simp only [h4, if_true]
              exact ih fuel _ _ (not_mem_suffix hs hsuf4) (ne_nil_of_hd h4 (by decide)) (by omega) (by omega)
            · simp only [h4, if_false]
              simp only [Log.add, List.append_nil]
        · simp only [h2, not_false_eq_true, if_true]
          rfl
      · simp only [h1, ne_eq, not_false_eq_true, if_true]
        rfl

def annsT (ann : Bool) (line : Nat) (feature s : Bytes) : List Bytes :=
  if ann then
    let r := annT line feature (s.length + 1) s
    r.1 ++ if hd r.2 ≠ chRBrace then [msgBrace line (hd r.2)] else []
  else []

def endT (line : Nat) (s : Bytes) : List Bytes :=
  if hd s = chHash ∨ hd s = chCr then [] else if s ≠ [] then [msgNewline line (hd s)] else []

def tailT (ann : Bool) (line : Nat) (feature s : Bytes) : List Bytes :=
  if hd s = chLBrace then annsT ann line feature s else endT line s

theorem endM_nl (o : Log) (line : Nat) (s rest : Bytes) (hs : chNl ∉ s) :
    parseEndM o line (s ++ chNl :: rest) = .ok (o.add (endP o.st line s) (endT line s), rest) := by
  unfold parseEndM endP endT
  simp only [cur_nl, Res.bind_ok, skipToEol_nl s rest hs, Res.pure_eq]
  by_cases h : hd s = chHash ∨ hd s = chCr
  · simp only [h, if_true, Log.add_nil]; rfl
  · simp only [h, if_false, ne_eq, hd_eq_nl hs]
    by_cases h2 : s = []
    · subst h2
      simp only [not_true, if_false, Log.add_nil]
      rfl
    · simp only [h2, not_false_eq_true, if_true]; rfl

theorem annsM_nl (ann : Bool) (o : Log) (line : Nat) (feature s rest : Bytes) (hs : chNl ∉ s) (hne : s ≠ []) :
    parseAnnotationsM ann o line feature (s ++ chNl :: rest) =
      .ok (o.add (annsP ann o.st line feature s) (annsT ann line feature s), chNl :: rest) := by
  unfold parseAnnotationsM annsP annsT
  cases ann with
  | false => simp only [Bool.false_eq_true, if_false, skipToEol_nl s rest hs, Res.bind_ok, Res.pure_eq, Log.add_nil]
  | true =>
    have hlen : s.length < (s ++ chNl :: rest).length + 1 := by simp; omega
    have hsuf := annP_suffix line feature (s.length + 1) o.st s
    rw [annT_rest] at hsuf
    simp only [if_true, annotationsM_nl line feature rest (s.length + 1) _ o s hs hne (by omega) hlen,
      Res.bind_ok, cur_nl, Res.pure_eq, skipToEol_nl _ rest (not_mem_suffix hs hsuf), annT_rest]
    split
    · rw [Log.print_add, Log.add_add]; rfl
    · rw [List.append_nil]

theorem tailM_nl (ann : Bool) (o : Log) (line : Nat) (feature s rest : Bytes) (hs : chNl ∉ s) :
    parseTailM ann o line feature (s ++ chNl :: rest) = .ok (o.add (tailP ann o.st line feature s) (tailT ann line feature s), rest) := by
  unfold parseTailM tailP tailT
  simp only [cur_nl, Res.bind_ok]
  by_cases h : hd s = chLBrace
  · simp only [h, if_true, annsM_nl ann o line feature s rest hs (ne_nil_of_hd h (by decide)),
      Res.bind_ok]
    have := endM_nl (o.add (annsP ann o.st line feature s) (annsT ann line feature s)) line [] rest (by simp)
    rw [Log.add_add] at this
    simpa [endT, endP, hd] using this
  · simp only [h, if_false, endM_nl o line s rest hs]

/-! ## The line -/

/-- The characters shown when a bracket is missing: from the name on, as much as is left of the line, and one more. -/
def shownT (start s2 : Bytes) : Bytes := start.take (start.length - s2.length) ++ [hd s2]

def bodyT (ann : Bool) (line : Nat) (start feature s : Bytes) : List Bytes :=
  if feature.isEmpty then tailT ann line feature s
  else
    match (rangeMP s).1 with
    | .noBracket => [msgBracket line (shownT start (rangeMP s).2)]
    | .inverted mx mn => [msgInverted line feature mx mn]
    | .bits mx mn =>
      let a := assignP {} line mx mn ((rangeMP s).2.dropWhile isBlank)
      assignT line feature mx mn ((rangeMP s).2.dropWhile isBlank) ++ tailT ann line feature a.2.2.2

def lineT (ann : Bool) (line : Nat) (s : Bytes) : List Bytes :=
  bodyT ann line (s.dropWhile isBlank) ((s.dropWhile isBlank).takeWhile isIdent)
    (((s.dropWhile isBlank).dropWhile isIdent).dropWhile isBlank)

theorem valueP_st (a b : St) (line : Nat) (f : UInt8) (s : Bytes) : (valueP a line f s).2 = (valueP b line f s).2 := by
  unfold valueP
  split
  · rfl
  · split
    · rfl
    · split
      · rfl
      · split <;> rfl

theorem assignP_st (a b : St) (line mx mn : Nat) (s : Bytes) :
    (assignP a line mx mn s).2.2 = (assignP b line mx mn s).2.2 := by
  unfold assignP
  dsimp only
  split
  · split
    · unfold tickedP
      dsimp only
      rw [valueP_st _ (clampWidth (if (leadP (s.tail.dropWhile isBlank)).1 > mx - mn + 1 then b.report line .nonCritical else b) line
        (mx - mn + 1) _).1]
    · rfl
  · rfl

theorem shown_nl (start s2 rest : Bytes) (h : s2 <:+ start) :
    (start ++ chNl :: rest).take ((start ++ chNl :: rest).length - (s2 ++ chNl :: rest).length + 1) = shownT start s2 := by
  obtain ⟨u, rfl⟩ := h
  have e : ((u ++ s2) ++ chNl :: rest).length - (s2 ++ chNl :: rest).length + 1 = u.length + 1 := by
    simp only [List.length_append, List.length_cons]; omega
  rw [e, List.append_assoc, List.take_length_add_append]
  unfold shownT
  have e2 : (u ++ s2).length - s2.length = u.length := by simp
  rw [e2, List.take_left]
  cases s2 <;> rfl

theorem lineM_nl (ann : Bool) (cb : List Event → Bool) (o : Log) (line : Nat) (s rest : Bytes)
    (hs : chNl ∉ s) (ht : ¬ LineDangles s) :
    parseLineM ann cb o line (s ++ chNl :: rest) =
      (lineP ann cb o.st line s).bind fun st => .ok (o.add st (lineT ann line s), rest) := by
  rw [lineP_body]
  unfold parseLineM lineT bodyP bodyT
  unfold LineDangles at ht
  simp only [skipBlank_nl, ident_nl, Res.bind_ok]
  have hst0 : s.dropWhile isBlank <:+ s := dropWhile_suffix' _ _
  have hsuf0 : ((s.dropWhile isBlank).dropWhile isIdent).dropWhile isBlank <:+ s.dropWhile isBlank :=
    (dropWhile_suffix' _ _).trans (dropWhile_suffix' _ _)
  have hsuf := hsuf0.trans hst0
  generalize ((s.dropWhile isBlank).dropWhile isIdent).dropWhile isBlank = s1 at hsuf hsuf0 ht
  generalize (s.dropWhile isBlank).takeWhile isIdent = feature at ht
  generalize s.dropWhile isBlank = start at hst0 hsuf0
  have hs1 := not_mem_suffix hs hsuf
  split
  · simp only [tailM_nl ann o line feature s1 rest hs1, Res.bind]
  · rename_i hemp
    have hfne : feature ≠ [] := by rintro rfl; exact hemp rfl
    simp only [parseRangeM_nl, Res.bind_ok]
    have hr0 := (rangeP_suffix s1).trans hsuf0
    have hr := hr0.trans hst0
    have hrn := not_mem_suffix hs hr
    unfold BodyDangles at ht
    rw [rangeMP_plain] at hr0 hr hrn ht ⊢
    dsimp only at hr0 hr hrn ht ⊢
    generalize (rangeMP s1).2 = s2 at hr0 hr hrn ht
    cases hrr : (rangeMP s1).1 with
    | noBracket =>
      simp only [shown_nl start s2 rest hr0, skipToEol_nl s2 rest hrn, Res.bind_ok, Res.bind, RangeM.plain, Res.pure_eq]
      rfl
    | inverted a b =>
      simp only [skipToEol_nl s2 rest hrn, Res.bind_ok, Res.bind, RangeM.plain, Res.pure_eq]
      rfl
    | bits mx mn =>
      have hd2 := (dropWhile_suffix' isBlank s2).trans hr
      have hda : ¬ AssignDangles (s2.dropWhile isBlank) := fun h => ht ⟨hfne, mx, mn, by rw [hrr]; rfl, h⟩
      simp only [skipBlank_nl, Res.bind_ok, assignM_nl o line feature mx mn _ rest (not_mem_suffix hs hd2) hda, RangeM.plain, Log.add_st]
      have ha := (assignP_suffix o.st line mx mn (s2.dropWhile isBlank)).trans hd2
      rw [assignP_st {} o.st]
      generalize assignP o.st line mx mn (s2.dropWhile isBlank) = a at ha
      cases reportChunks cb line feature mn a.2.1 a.2.2.1.length 0 a.2.2.1 a.1 with
      | oob => rfl
      | shift => rfl
      | ok st' =>
        simp only [Res.bind_ok, Res.bind, tailM_nl ann _ line feature _ rest (not_mem_suffix hs ha)]
        simp only [Log.add, List.append_assoc]

end Verif.Fasm
