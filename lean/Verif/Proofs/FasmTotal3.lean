import Verif.Proofs.FasmTotal2
/-! # Lines of any shape, with no condition on ticks -/
namespace Verif.Fasm
open Verif.Spec

/-- The line after its name. -/
def bodyP (ann : Bool) (cb : List Event → Bool) (st : St) (line : Nat) (feature s : Bytes) : Res St :=
  if feature.isEmpty then .ok (tailP ann st line feature s)
  else
    match (rangeP s).1 with
    | .noBracket => .ok (st.report line .error)
    | .inverted => .ok (st.report line .skipped)
    | .bits maxBit minBit =>
      let a := assignP st line maxBit minBit ((rangeP s).2.dropWhile isBlank)
      (reportChunks cb line feature minBit a.2.1 a.2.2.1.length 0 a.2.2.1 a.1).bind fun st =>
        .ok (tailP ann st line feature a.2.2.2)

theorem lineP_body (ann : Bool) (cb : List Event → Bool) (st : St) (line : Nat) (s : Bytes) :
    lineP ann cb st line s = bodyP ann cb st line ((s.dropWhile isBlank).takeWhile isIdent)
      (((s.dropWhile isBlank).dropWhile isIdent).dropWhile isBlank) := rfl

/-- The name and what follows. -/
theorem name_text (g0 name g1 s : Bytes) (h0 : Blank g0) (hn : IsName name) (h1 : Blank g1)
    (hs : isBlank (hd s) = false) (hi : g1 = [] → isIdent (hd s) = false) :
    (((g0 ++ (name ++ (g1 ++ s))).dropWhile isBlank).takeWhile isIdent = name) ∧
    ((((g0 ++ (name ++ (g1 ++ s))).dropWhile isBlank).dropWhile isIdent).dropWhile isBlank = s) := by
  obtain ⟨hne, hname⟩ := hn
  have hnm : ∀ c ∈ name, isIdent c = true := fun c hc => (isIdent_spec c).2 (hname c hc)
  have e1 : (g0 ++ (name ++ (g1 ++ s))).dropWhile isBlank = name ++ (g1 ++ s) := by
    refine dropBlank g0 _ h0 ?_
    cases hn : name with
    | nil => exact absurd hn hne
    | cons x xs => exact ident_not_blank (hnm x (by rw [hn]; exact List.mem_cons_self))
  have hi' : isIdent (hd (g1 ++ s)) = false := by
    cases hg : g1 with
    | nil => exact hi hg
    | cons x xs => exact blank_not_ident h1 x (by rw [hg]; exact List.mem_cons_self)
  have e2 := span_eq isIdent name (g1 ++ s) hnm isIdent_nl hi'
  rw [e1, e2.1, e2.2]
  exact ⟨rfl, dropBlank g1 s h1 hs⟩

/-- The line stops right after the tick of its value. -/
def BodyDangles (feature s : Bytes) : Prop :=
  feature ≠ [] ∧ ∃ mx mn, (rangeP s).1 = .bits mx mn ∧ AssignDangles ((rangeP s).2.dropWhile isBlank)

def LineDangles (s : Bytes) : Prop :=
  BodyDangles ((s.dropWhile isBlank).takeWhile isIdent) (((s.dropWhile isBlank).dropWhile isIdent).dropWhile isBlank)

theorem parseAssign_nl' (st : St) (line maxBit minBit : Nat) (s rest : Bytes) (hs : chNl ∉ s) (ht : ¬ AssignDangles s) :
    parseAssign st line maxBit minBit (s ++ chNl :: rest) =
      .ok ((assignP st line maxBit minBit s).1, (assignP st line maxBit minBit s).2.1,
        (assignP st line maxBit minBit s).2.2.1, (assignP st line maxBit minBit s).2.2.2 ++ chNl :: rest) := by
  unfold parseAssign assignP
  simp only [cur_nl, Res.bind_ok]
  by_cases h : hd s = chEq
  · simp only [h, if_true, adv_nl s rest (ne_nil_of_hd h (by decide)), skipBlank_nl, Res.bind_ok, cur_nl,
      lead_nl]
    have h1s := leadSuffix s
    by_cases h2 : hd ((leadP (s.tail.dropWhile isBlank)).2.dropWhile isBlank) = chTick
    · have hne : ((leadP (s.tail.dropWhile isBlank)).2.dropWhile isBlank).tail.dropWhile isBlank ≠ [] :=
        fun e => ht ⟨h, h2, e⟩
      simp only [h2, if_true, adv_nl _ rest (ne_nil_of_hd h2 (by decide)),
        ticked_nl _ _ _ _ _ rest (not_mem_suffix hs ((tail_suffix' _).trans h1s)) hne]
    · simp only [h2, if_false, Res.pure_eq]
  · simp only [h, if_false, Res.pure_eq]

/-- Up to the assignment. -/
theorem parseLine_upto (ann : Bool) (cb : List Event → Bool) (st : St) (line : Nat) (s rest feature s1 : Bytes) (mx mn : Nat)
    (hf : (s.dropWhile isBlank).takeWhile isIdent = feature)
    (h1 : ((s.dropWhile isBlank).dropWhile isIdent).dropWhile isBlank = s1)
    (hne : feature ≠ []) (hr : (rangeP s1).1 = .bits mx mn) :
    parseLine ann cb st line (s ++ chNl :: rest) =
      (parseAssign st line mx mn ((rangeP s1).2.dropWhile isBlank ++ chNl :: rest) >>= fun a =>
        reportChunks cb line feature mn a.2.1 a.2.2.1.length 0 a.2.2.1 a.1 >>= fun st =>
          parseTail ann st line feature a.2.2.2) := by
  unfold parseLine
  have he : feature.isEmpty = false := by cases feature with
    | nil => exact absurd rfl hne
    | cons => rfl
  simp only [skipBlank_nl, ident_nl, Res.bind_ok, hf, h1, he, Bool.false_eq_true, if_false, parseRange_nl, hr]

theorem parseLine_nl' (ann : Bool) (cb : List Event → Bool) (st : St) (line : Nat) (s rest : Bytes)
    (hs : chNl ∉ s) (ht : ¬ LineDangles s) :
    parseLine ann cb st line (s ++ chNl :: rest) =
      (lineP ann cb st line s).bind fun st => .ok (st, rest) := by
  unfold parseLine lineP
  unfold LineDangles at ht
  simp only [skipBlank_nl, ident_nl, Res.bind_ok]
  have hsuf : ((s.dropWhile isBlank).dropWhile isIdent).dropWhile isBlank <:+ s :=
    (dropWhile_suffix' _ _).trans ((dropWhile_suffix' _ _).trans (dropWhile_suffix' _ _))
  generalize ((s.dropWhile isBlank).dropWhile isIdent).dropWhile isBlank = s1 at hsuf ht
  generalize (s.dropWhile isBlank).takeWhile isIdent = feature at ht
  have hs1 := not_mem_suffix hs hsuf
  split
  · simp only [parseTail_nl ann st line feature s1 rest hs1, Res.bind]
  · rename_i hemp
    have hfne : feature ≠ [] := by rintro rfl; exact hemp rfl
    simp only [parseRange_nl, Res.bind_ok]
    have hr := (rangeP_suffix s1).trans hsuf
    have hrn := not_mem_suffix hs hr
    unfold BodyDangles at ht
    generalize (rangeP s1).2 = s2 at hr hrn ht
    cases hrr : (rangeP s1).1 with
    | noBracket => simp only [skipToEol_nl s2 rest hrn, Res.bind_ok, Res.bind]; rfl
    | inverted => simp only [skipToEol_nl s2 rest hrn, Res.bind_ok, Res.bind]; rfl
    | bits maxBit minBit =>
      have hd2 := (dropWhile_suffix' isBlank s2).trans hr
      have hda : ¬ AssignDangles (s2.dropWhile isBlank) := fun h => ht ⟨hfne, maxBit, minBit, hrr, h⟩
      simp only [skipBlank_nl, Res.bind_ok,
        parseAssign_nl' st line maxBit minBit _ rest (not_mem_suffix hs hd2) hda]
      have ha := (assignP_suffix st line maxBit minBit (s2.dropWhile isBlank)).trans hd2
      generalize assignP st line maxBit minBit (s2.dropWhile isBlank) = a at ha
      cases reportChunks cb line feature minBit a.2.1 a.2.2.1.length 0 a.2.2.1 a.1 with
      | oob => rfl
      | shift => rfl
      | ok st' =>
        simp only [Res.bind_ok, Res.bind, parseTail_nl ann st' line feature _ rest (not_mem_suffix hs ha)]

/-! ## The shapes -/

theorem first_lt (r : RangeText) : r.first < 65536 := Nat.mod_lt _ (by decide)

theorem size_bounds (r : RangeText) : 1 ≤ r.size ∧ r.size ≤ 65536 := by
  have : r.last < 65536 := Nat.mod_lt _ (by decide)
  unfold RangeText.size
  omega

/-- After the name: the beginning of range and value. -/
theorem after_name (g : Nat → Bytes) (r : RangeText) (t : Bytes) (hb : isBlank (hd t) = false)
    (ha : r = .absent → g 1 = [] → isIdent (hd t) = false) :
    isBlank (hd (r.text g ++ t)) = false ∧ (g 1 = [] → isIdent (hd (r.text g ++ t)) = false) := by
  cases r with
  | absent => exact ⟨hb, ha rfl⟩
  | bit d => exact ⟨(by decide : isBlank 0x5b = false), fun _ => (by decide : isIdent 0x5b = false)⟩
  | span hi lo => exact ⟨(by decide : isBlank 0x5b = false), fun _ => (by decide : isIdent 0x5b = false)⟩

theorem follows_start (g : Nat → Bytes) (f : FeatureText) (post : Bytes) (hf : Follows g f post) :
    isBlank (hd (f.value.text g ++ post)) = false ∧
    (f.range = .absent → hd (f.value.text g ++ post) ≠ chLBrack) ∧
    (f.range = .absent → g 1 = [] → isIdent (hd (f.value.text g ++ post)) = false) := by
  obtain ⟨name, range, value⟩ := f
  cases value with
  | absent =>
    have hb := hd_nb fun c hc => (hf c hc).1
    refine ⟨hb, ?_, ?_⟩
    · rintro rfl
      exact hd_ne (by decide) fun c hc => (hf c hc).2.2.1
    · rintro rfl h
      exact hd_ni fun c hc => (hf c hc).2.2.2 h
  | plain d =>
    exact ⟨(by decide : isBlank 0x3d = false), fun _ => (by decide : (0x3d : UInt8) ≠ chLBrack),
      fun _ _ => (by decide : isIdent 0x3d = false)⟩
  | based w b d =>
    exact ⟨(by decide : isBlank 0x3d = false), fun _ => (by decide : (0x3d : UInt8) ≠ chLBrack),
      fun _ _ => (by decide : isIdent 0x3d = false)⟩

/-- A feature of any shape. -/
theorem line_feature (ann : Bool) (cb : List Event → Bool) (st : St) (line : Nat) (g : Nat → Bytes)
    (f : FeatureText) (post : Bytes) (hok : (LineShape.feature g f post).Ok) :
    ¬ LineDangles (f.text g ++ post) ∧
    ∃ cs, ChunksOf' f.value cs ∧
      lineP ann cb st line (f.text g ++ post) =
        (reportChunks cb line f.name f.range.first (if clamps' f then 64 else f.range.size) cs.length 0 cs
          (st.warn line (f.notes ++ if clamps' f then [.error] else []))).bind fun st =>
            .ok (tailP ann st line f.name post) := by
  obtain ⟨hg, ⟨hne, hname, hr, hv⟩, hinv, hf⟩ := hok
  obtain ⟨hb, hbr, hid⟩ := follows_start g f post hf
  have han := after_name g f.range (f.value.text g ++ post) hb hid
  have e0 : f.text g ++ post = g 0 ++ (f.name ++ (g 1 ++ (f.range.text g ++ (f.value.text g ++ post)))) := by
    simp [FeatureText.text]
  have hnt := name_text (g 0) f.name (g 1) (f.range.text g ++ (f.value.text g ++ post)) (hg 0) ⟨hne, hname⟩ (hg 1)
    han.1 han.2
  have hrange := (range_shaped g hg f.range hr (f.value.text g ++ post) hb hbr).2 hinv
  have ha := assign_shaped g hg st line f hv post hf
  dsimp only at ha
  rw [lineP_body]
  unfold LineDangles BodyDangles
  rw [e0, hnt.1, hnt.2]
  refine ⟨?_, _, ha.2.2.2.1, ?_⟩
  · rintro ⟨_, mx, mn, _, hd'⟩
    rw [hrange.2] at hd'
    exact ha.1 hd'
  · unfold bodyP
    have hemp : f.name.isEmpty = false := by cases hn : f.name with
      | nil => exact absurd hn hne
      | cons => rfl
    simp only [hemp, Bool.false_eq_true, if_false, hrange.1, hrange.2]
    rw [ha.2.1, ha.2.2.1, ha.2.2.2.2]

theorem line_bare (ann : Bool) (cb : List Event → Bool) (st : St) (line : Nat) (g : Nat → Bytes)
    (post : Bytes) (hok : (LineShape.bare g post).Ok) :
    ¬ LineDangles (g 0 ++ post) ∧ lineP ann cb st line (g 0 ++ post) = .ok (tailP ann st line [] post) := by
  obtain ⟨hg, hp⟩ := hok
  have hb := hd_nb fun c hc => (hp c hc).1
  have hi := hd_ni fun c hc => (hp c hc).2
  have e1 := dropBlank (g 0) post (hg 0) hb
  have e2 := span_eq isIdent [] post (by simp) isIdent_nl hi
  rw [List.nil_append] at e2
  rw [lineP_body]
  unfold LineDangles
  rw [e1, e2.1, e2.2]
  refine ⟨fun h => h.1 rfl, ?_⟩
  have e3 : post.dropWhile isBlank = post := dropBlank [] post blank_nil hb
  rw [e3]
  rfl

theorem line_open (ann : Bool) (cb : List Event → Bool) (st : St) (line : Nat) (g : Nat → Bytes)
    (name : Bytes) (r : RangeText) (post : Bytes) (hok : (LineShape.openRange g name r post).Ok) :
    ¬ LineDangles (LineShape.openRange g name r post).text ∧
    lineP ann cb st line (LineShape.openRange g name r post).text = .ok (st.report line .error) := by
  obtain ⟨hg, hn, hr, hb⟩ := hok
  have e0 : (LineShape.openRange g name r post).text = g 0 ++ (name ++ (g 1 ++ (r.openText g ++ post))) := by
    simp [LineShape.text]
  have hstart : isBlank (hd (r.openText g ++ post)) = false ∧ isIdent (hd (r.openText g ++ post)) = false := by
    cases r with
    | absent => exact absurd rfl hb.1
    | bit d => exact ⟨(by decide : isBlank 0x5b = false), (by decide : isIdent 0x5b = false)⟩
    | span hi lo => exact ⟨(by decide : isBlank 0x5b = false), (by decide : isIdent 0x5b = false)⟩
  have hnt := name_text (g 0) name (g 1) (r.openText g ++ post) (hg 0) hn (hg 1) hstart.1 fun _ => hstart.2
  have hro := range_open g hg r hr post hb
  rw [lineP_body]
  unfold LineDangles BodyDangles
  rw [e0, hnt.1, hnt.2]
  refine ⟨?_, ?_⟩
  · rintro ⟨_, mx, mn, h, _⟩
    rw [hro] at h; cases h
  · unfold bodyP
    have hemp : name.isEmpty = false := by cases hnn : name with
      | nil => exact absurd hnn hn.1
      | cons => rfl
    simp only [hemp, Bool.false_eq_true, if_false, hro]

theorem dropBlankRange (g : Nat → Bytes) (r : RangeText) (post : Bytes) (h : r ≠ .absent) :
    isBlank (hd (r.text g ++ post)) = false ∧ isIdent (hd (r.text g ++ post)) = false := by
  cases r with
  | absent => exact absurd rfl h
  | bit d => exact ⟨(by decide : isBlank 0x5b = false), (by decide : isIdent 0x5b = false)⟩
  | span hi lo => exact ⟨(by decide : isBlank 0x5b = false), (by decide : isIdent 0x5b = false)⟩

theorem line_inverted (ann : Bool) (cb : List Event → Bool) (st : St) (line : Nat) (g : Nat → Bytes)
    (name : Bytes) (r : RangeText) (post : Bytes) (hok : (LineShape.inverted g name r post).Ok) :
    ¬ LineDangles (LineShape.inverted g name r post).text ∧
    lineP ann cb st line (LineShape.inverted g name r post).text = .ok (st.report line .skipped) := by
  obtain ⟨hg, hn, hr, hinv⟩ := hok
  have hra : r ≠ .absent := by
    rintro rfl
    exact Nat.lt_irrefl _ hinv
  have e0 : (LineShape.inverted g name r post).text = g 0 ++ (name ++ (g 1 ++ (r.text g ++ post))) := by
    simp [LineShape.text]
  have hstart := dropBlankRange g r post hra
  have hnt := name_text (g 0) name (g 1) (r.text g ++ post) (hg 0) hn (hg 1) hstart.1 fun _ => hstart.2
  -- the blanks after `]` may be part of `post`
  have hro : (rangeP (r.text g ++ post)).1 = .inverted := by
    have hsplit : r.text g ++ post =
        r.text (fun i => if i = 6 then g 6 ++ post.takeWhile isBlank else g i) ++ post.dropWhile isBlank := by
      have := takeDrop isBlank post
      cases r with
      | absent => exact absurd rfl hra
      | bit d => simp [RangeText.text]
      | span hi lo => simp [RangeText.text]
    rw [hsplit]
    refine (range_shaped _ ?_ r hr _ (hd_dropWhile isBlank isBlank_nl post) (fun h => absurd h hra)).1 hinv
    intro i
    by_cases hi6 : i = 6
    · rw [if_pos hi6]
      exact blank_append (hg 6) (takeBlank post)
    · rw [if_neg hi6]
      exact hg i
  rw [lineP_body]
  unfold LineDangles BodyDangles
  rw [e0, hnt.1, hnt.2]
  refine ⟨?_, ?_⟩
  · rintro ⟨_, mx, mn, h, _⟩
    rw [hro] at h; cases h
  · unfold bodyP
    have hemp : name.isEmpty = false := by cases hnn : name with
      | nil => exact absurd hnn hn.1
      | cons => rfl
    simp only [hemp, Bool.false_eq_true, if_false, hro]

/-- Warning for the declared width. -/
def tickNotes (r : RangeText) (w : Bytes) : List Sev :=
  if numVal 10 w % 2 ^ 64 > r.size then [.nonCritical] else []

/-- Name, range, `=`, width and tick, followed by `t`. -/
theorem upto_tick (g : Nat → Bytes) (name : Bytes) (r : RangeText) (w t : Bytes) (hg : ∀ i, Blank (g i)) (hn : IsName name)
    (hr : r.Shaped) (hinv : ¬ r.Inverted) (hw : DigitString 10 w) :
    let l := g 0 ++ name ++ g 1 ++ r.text g ++ 0x3d :: (g 7 ++ w ++ g 8 ++ 0x27 :: t)
    (l.dropWhile isBlank).takeWhile isIdent = name ∧
    ∃ s1, ((l.dropWhile isBlank).dropWhile isIdent).dropWhile isBlank = s1 ∧
      (rangeP s1).1 = .bits r.last r.first ∧
      (rangeP s1).2.dropWhile isBlank = 0x3d :: (g 7 ++ (w ++ (g 8 ++ 0x27 :: t))) ∧
      (leadP ((g 7 ++ (w ++ (g 8 ++ 0x27 :: t))).dropWhile isBlank)).1 = numVal 10 w % 2 ^ 64 ∧
      (leadP ((g 7 ++ (w ++ (g 8 ++ 0x27 :: t))).dropWhile isBlank)).2.dropWhile isBlank = 0x27 :: t := by
  intro l
  have e0 : l = g 0 ++ (name ++ (g 1 ++ (r.text g ++ 0x3d :: (g 7 ++ (w ++ (g 8 ++ 0x27 :: t)))))) := by
    simp [l]
  have han := after_name g r (0x3d :: (g 7 ++ (w ++ (g 8 ++ 0x27 :: t)))) (by rw [hd_cons]; decide)
    (fun _ _ => by rw [hd_cons]; decide)
  have hnt := name_text (g 0) name (g 1) _ (hg 0) hn (hg 1) han.1 han.2
  have hrange := (range_shaped g hg r hr (0x3d :: (g 7 ++ (w ++ (g 8 ++ 0x27 :: t)))) (by rw [hd_cons]; decide)
    (fun _ => by rw [hd_cons]; decide)).2 hinv
  have hlead := leadP_gap (g 7) w (g 8) (0x27 :: t) (hg 7) hw (hg 8) (NumEnd.of_delim (by decide) (by decide))
  rw [e0]
  exact ⟨hnt.1, _, hnt.2, hrange.1, hrange.2, hlead.1, hlead.2⟩

theorem line_badFormat (ann : Bool) (cb : List Event → Bool) (st : St) (line : Nat) (g : Nat → Bytes)
    (name : Bytes) (r : RangeText) (w : Bytes) (c : UInt8) (post : Bytes)
    (hok : (LineShape.badFormat g name r w c post).Ok) :
    ¬ LineDangles (LineShape.badFormat g name r w c post).text ∧
    lineP ann cb st line (LineShape.badFormat g name r w c post).text =
      (reportChunks cb line name r.first r.size 1 0 [1] (st.warn line (tickNotes r w ++ [.error]))).bind .ok := by
  obtain ⟨hg, hn, hr, hinv, hw, hcb, hcf⟩ := hok
  obtain ⟨h1, s1, h2, h3, h4, h5, h6⟩ := upto_tick g name r w (g 9 ++ c :: post) hg hn hr hinv hw
  have h9 := dropBlank (g 9) (c :: post) (hg 9) (by rw [hd_cons]; exact decide_eq_false hcb)
  rw [lineP_body]
  unfold LineDangles BodyDangles
  rw [LineShape.text, h1, h2]
  refine ⟨?_, ?_⟩
  · rintro ⟨_, mx, mn, _, hd'⟩
    rw [h4] at hd'
    obtain ⟨_, _, hd'⟩ := hd'
    rw [List.tail_cons, h6, List.tail_cons, h9] at hd'
    cases hd'
  · unfold bodyP
    have hemp : name.isEmpty = false := by cases hnn : name with
      | nil => exact absurd hnn hn.1
      | cons => rfl
    simp only [hemp, Bool.false_eq_true, if_false, h3, h4]
    rw [assignP_ticked _ _ _ _ _ _ _ h5 h6]
    have hx : c ≠ 0x68 ∧ c ≠ 0x62 ∧ c ≠ 0x6f ∧ c ≠ 0x64 :=
      ⟨fun h => hcf ⟨.hex, h⟩, fun h => hcf ⟨.bin, h⟩, fun h => hcf ⟨.oct, h⟩, fun h => hcf ⟨.dec, h⟩⟩
    have hval : ∀ st, valueP st line c post = (st.report line .error, [1], []) := by
      intro st
      unfold valueP
      rw [if_neg hx.1, if_neg hx.2.1, if_neg hx.2.2.1, if_neg hx.2.2.2]
    have hcl : ∀ st : St, clampWidth st line (r.last - r.first + 1) (decide (c = 0x64 ∨ c = 0x6f)) = (st, r.size) := by
      intro st
      unfold clampWidth
      have hf : decide (c = 0x64 ∨ c = 0x6f) = false :=
        decide_eq_false (fun h => h.elim (fun h => hx.2.2.2 h) (fun h => hx.2.2.1 h))
      rw [hf, if_neg (by rintro ⟨_, h⟩; cases h)]
      rfl
    unfold tickedP
    simp only [h9, hd_cons, List.tail_cons, hcl, hval, List.dropWhile_nil]
    have hst : (if numVal 10 w % 2 ^ 64 > r.last - r.first + 1 then st.report line Sev.nonCritical else st).report line Sev.error
        = st.warn line (tickNotes r w ++ [.error]) := by
      unfold tickNotes RangeText.size
      split <;> rfl
    rw [hst]
    rfl

theorem dangling_iff_body (g : Nat → Bytes) (name : Bytes) (r : RangeText) (w : Bytes)
    (hok : (LineShape.dangling g name r w).Ok) : LineDangles (LineShape.dangling g name r w).text := by
  obtain ⟨hg, hn, hr, hinv, hw⟩ := hok
  obtain ⟨h1, s1, h2, h3, h4, h5, h6⟩ := upto_tick g name r w (g 9) hg hn hr hinv hw
  unfold LineDangles BodyDangles
  rw [LineShape.text, h1, h2]
  refine ⟨hn.1, _, _, h3, ?_⟩
  rw [h4]
  refine ⟨rfl, ?_, ?_⟩
  · rw [List.tail_cons, h6]; rfl
  · rw [List.tail_cons, h6, List.tail_cons]
    have := dropBlank (g 9) [] (hg 9) (by decide)
    rw [List.append_nil] at this
    exact this

/-- A line that ends after the tick takes the next line with it. -/
theorem parseLine_swallow (ann : Bool) (cb : List Event → Bool) (st : St) (line : Nat) (g : Nat → Bytes)
    (name : Bytes) (r : RangeText) (w : Bytes) (hok : (LineShape.dangling g name r w).Ok) (l2 rest : Bytes)
    (h2nl : chNl ∉ l2) :
    parseLine ann cb st line ((LineShape.dangling g name r w).text ++ chNl :: (l2 ++ chNl :: rest)) =
      (lineP ann cb st line ((LineShape.dangling g name r w).text ++ bytes!"?")).bind fun st => .ok (st, rest) := by
  have hbad : (LineShape.badFormat g name r w 0x3f []).Ok := by
    obtain ⟨hg, hn, hr, hinv, hw⟩ := hok
    refine ⟨hg, hn, hr, hinv, hw, by unfold BlankChar; decide, ?_⟩
    rintro ⟨b, hb⟩
    cases b <;> exact absurd hb (by decide)
  have e1 : (LineShape.dangling g name r w).text ++ bytes!"?" = (LineShape.badFormat g name r w 0x3f []).text := by
    simp [LineShape.text]
  rw [e1, (line_badFormat ann cb st line g name r w 0x3f [] hbad).2]
  obtain ⟨hg, hn, hr, hinv, hw⟩ := hok
  obtain ⟨h1, s1, h2, h3, h4, h5, h6⟩ := upto_tick g name r w (g 9) hg hn hr hinv hw
  rw [LineShape.text, parseLine_upto ann cb st line _ _ name s1 _ _ h1 h2 hn.1 h3, h4]
  have h9 := dropBlank (g 9) [] (hg 9) (by decide)
  rw [List.append_nil] at h9
  have hassign : parseAssign st line r.last r.first
      (0x3d :: (g 7 ++ (w ++ (g 8 ++ 0x27 :: g 9))) ++ chNl :: (l2 ++ chNl :: rest)) =
      .ok (st.warn line (tickNotes r w ++ [.error]), r.size, [1], chNl :: rest) := by
    unfold parseAssign
    have ha : adv (0x3d :: (g 7 ++ (w ++ (g 8 ++ 0x27 :: g 9))) ++ chNl :: (l2 ++ chNl :: rest)) =
        (g 7 ++ (w ++ (g 8 ++ 0x27 :: g 9))) ++ chNl :: (l2 ++ chNl :: rest) := rfl
    simp only [cur_nl, Res.bind_ok, hd_cons, if_true, ha, skipBlank_nl, lead_nl, h5, h6]
    have ha2 : adv (0x27 :: g 9 ++ chNl :: (l2 ++ chNl :: rest)) = g 9 ++ chNl :: (l2 ++ chNl :: rest) := rfl
    rw [ha2]
    unfold parseTicked
    have ha3 : adv (chNl :: (l2 ++ chNl :: rest)) = l2 ++ chNl :: rest := rfl
    have hcl : ∀ st : St, clampWidth st line (r.last - r.first + 1) (decide (chNl = 0x64 ∨ chNl = 0x6f)) = (st, r.size) := by
      intro st
      unfold clampWidth
      rw [if_neg (by rintro ⟨_, h⟩; exact absurd h (by decide))]
      rfl
    have hval : ∀ st : St, parseValue st line chNl (l2 ++ chNl :: rest) =
        .ok (st.report line .error, [1], chNl :: rest) := by
      intro st
      unfold parseValue
      rw [if_neg (by decide), if_neg (by decide), if_neg (by decide), if_neg (by decide), skipToEol_nl l2 rest h2nl]
      rfl
    have hsk : skipBlank (chNl :: rest) = .ok (chNl :: rest) := by
      rw [skipBlank, if_neg (by decide)]
    have hst : (if numVal 10 w % 2 ^ 64 > r.last - r.first + 1 then st.report line Sev.nonCritical else st).report line Sev.error
        = st.warn line (tickNotes r w ++ [.error]) := by
      unfold tickNotes RangeText.size
      split <;> rfl
    simp only [skipBlank_nl, h9, List.nil_append, Res.bind_ok, cur, ha3, hcl, hval, hsk, Res.pure_eq, hst]
  rw [hassign]
  simp only [Res.bind_ok]
  show (reportChunks cb line name r.first r.size 1 0 [1] _).bind _ = _
  cases reportChunks cb line name r.first r.size 1 0 [1] (st.warn line (tickNotes r w ++ [.error])) with
  | oob => rfl
  | shift => rfl
  | ok st' => rfl

/-- … and reads outside the buffer if there is none. -/
theorem parseLine_last (ann : Bool) (cb : List Event → Bool) (st : St) (line : Nat) (g : Nat → Bytes)
    (name : Bytes) (r : RangeText) (w : Bytes) (hok : (LineShape.dangling g name r w).Ok) :
    parseLine ann cb st line ((LineShape.dangling g name r w).text ++ [chNl]) = .oob := by
  obtain ⟨hg, hn, hr, hinv, hw⟩ := hok
  obtain ⟨h1, s1, h2, h3, h4, h5, h6⟩ := upto_tick g name r w (g 9) hg hn hr hinv hw
  rw [LineShape.text, parseLine_upto ann cb st line _ _ name s1 _ _ h1 h2 hn.1 h3, h4]
  have h9 := dropBlank (g 9) [] (hg 9) (by decide)
  rw [List.append_nil] at h9
  have hassign : parseAssign st line r.last r.first
      (0x3d :: (g 7 ++ (w ++ (g 8 ++ 0x27 :: g 9))) ++ chNl :: []) = .oob := by
    unfold parseAssign
    have ha : adv (0x3d :: (g 7 ++ (w ++ (g 8 ++ 0x27 :: g 9))) ++ chNl :: []) =
        (g 7 ++ (w ++ (g 8 ++ 0x27 :: g 9))) ++ chNl :: [] := rfl
    simp only [cur_nl, Res.bind_ok, hd_cons, if_true, ha, skipBlank_nl, lead_nl, h5, h6]
    have ha2 : adv (0x27 :: g 9 ++ chNl :: []) = g 9 ++ chNl :: [] := rfl
    rw [ha2]
    unfold parseTicked
    have hval : ∀ st : St, parseValue st line chNl [] = .oob := by
      intro st
      unfold parseValue
      rw [if_neg (by decide), if_neg (by decide), if_neg (by decide), if_neg (by decide)]
      rfl
    have ha3 : adv (chNl :: []) = [] := rfl
    simp only [skipBlank_nl, h9, List.nil_append, Res.bind_ok, cur, ha3, hval]
    rfl
  rw [hassign]
  rfl

/-! ## Chunks with an arbitrary callback -/

theorem reportChunks_heard (cb : List Event → Bool) (line : Nat) (name : Bytes)
    (lo width total u : Nat) (hlo : lo < 65536) (hwid : width ≤ 65536)
    (ht : 64 * (total - 1) < width) (ht' : width ≤ 64 * total) :
    ∀ (cs : List Nat) (i : Nat) (st : St), i + cs.length = total → (∀ c ∈ cs, c < 2 ^ 64) →
      u / 2 ^ (64 * i) = chunksVal cs →
      reportChunks cb line name lo width total i cs st =
        .ok { st with
          trace := st.trace ++ heard cb st.trace (chunkEvents line name lo width u i cs.length),
          result := if refused cb st.trace (chunkEvents line name lo width u i cs.length) then
            st.result.max .userAbort else st.result } := by
  intro cs
  induction cs with
  | nil => intro i st _ _ _; simp [reportChunks, chunkEvents, heard, refused]
  | cons c cs ih =>
    intro i st hi hb hu
    rw [List.length_cons] at hi
    have hit : i < total := by omega
    have hvw := valueWidth_fit width total i (by omega) ht ht' hit
    have hcw := chunkWidth_fit width total i ht hit
    have hval := chunk_value u i c cs (hb c List.mem_cons_self) hu (chunkWidth width i) hcw.2
    unfold reportChunks
    dsimp only
    rw [hvw, if_neg (by have := (amount_lt_iff _ (by omega)).2 hcw; omega), mask_eq _ _ hcw.1 hcw.2,
      toInt32_small _ (by omega), toInt32_small _ (by omega)]
    simp only [List.length_cons, chunkEvents, heard, refused, hval.1, Nat.mul_comm i 64]
    cases hcb : cb (st.trace ++ [.feature line name ((lo + 64 * i : Nat) : Int) (chunkWidth width i : Nat)
      (u / 2 ^ (64 * i) % 2 ^ chunkWidth width i)]) with
    | false => simp
    | true =>
      rw [if_pos rfl, ih (i + 1) _ (by omega) (fun x hx => hb x (List.mem_cons_of_mem _ hx)) hval.2]
      simp

theorem chunkEvents_eq (line : Nat) (name : Bytes) (lo width u : Nat) : ∀ n i,
    chunkEvents line name lo width u i n =
      (List.range n).map fun j => .feature line name ((lo + 64 * (i + j) : Nat) : Int)
        ((min 64 (width - 64 * (i + j)) : Nat) : Int)
        (u / 2 ^ (64 * (i + j)) % 2 ^ min 64 (width - 64 * (i + j))) := by
  intro n
  induction n with
  | zero => intro i; rfl
  | succ n ih =>
    intro i
    rw [chunkEvents, ih, List.range_succ_eq_map, List.map_cons, List.map_map]
    simp only [Nat.add_zero, chunkWidth]
    congr 1
    refine List.map_congr_left fun j _ => ?_
    simp only [Function.comp_apply, show i + 1 + j = i + (j + 1) by omega]

/-- Only the low 64-bit chunks matter. -/
theorem wide_mod (u v n j w : Nat) (hj : j < n) (hw : w ≤ 64) (h : u % 2 ^ (64 * n) = v % 2 ^ (64 * n)) :
    u / 2 ^ (64 * j) % 2 ^ w = v / 2 ^ (64 * j) % 2 ^ w := by
  have key : ∀ x, x / 2 ^ (64 * j) % 2 ^ w = x % 2 ^ (64 * n) / 2 ^ (64 * j) % 2 ^ w := by
    intro x
    apply Nat.eq_of_testBit_eq
    intro i
    simp only [Nat.testBit_mod_two_pow, Nat.testBit_div_two_pow]
    by_cases hi : i < w
    · have : i + 64 * j < 64 * n := by omega
      simp [hi, this]
    · simp [hi]
  rw [key u, key v, h]

theorem wideEvents_mod (line : Nat) (name : Bytes) (lo width u v : Nat)
    (h : u % 2 ^ (64 * ((width + 63) / 64)) = v % 2 ^ (64 * ((width + 63) / 64))) :
    wideEvents line name lo width u = wideEvents line name lo width v := by
  unfold wideEvents
  refine List.map_congr_left fun j hj => ?_
  rw [wide_mod u v ((width + 63) / 64) j _ (List.mem_range.1 hj) (Nat.min_le_left _ _) h]

theorem report_fits (cb : List Event → Bool) (st : St) (line : Nat) (f : FeatureText) (hfit : f.FitsRange)
    (cs : List Nat) (hcs : ChunksOf' f.value cs) :
    reportChunks cb line f.name f.range.first f.range.size cs.length 0 cs st =
      .ok { st with
        trace := st.trace ++ heard cb st.trace (f.calls line),
        result := if refused cb st.trace (f.calls line) then st.result.max .userAbort else st.result } := by
  have hb := size_bounds f.range
  have hlen : cs.length = (f.range.size + 63) / 64 := hcs.len.trans hfit
  rw [reportChunks_heard cb line f.name f.range.first f.range.size cs.length (chunksVal cs) (first_lt _) hb.2
    (by omega) (by omega) cs 0 st (by omega) hcs.bound (by simp)]
  have hev : chunkEvents line f.name f.range.first f.range.size (chunksVal cs) 0 cs.length = f.calls line := by
    rw [chunkEvents_eq, hlen]
    have : (List.map (fun j => Event.feature line f.name ((f.range.first + 64 * (0 + j) : Nat) : Int)
        ((min 64 (f.range.size - 64 * (0 + j)) : Nat) : Int)
        (chunksVal cs / 2 ^ (64 * (0 + j)) % 2 ^ min 64 (f.range.size - 64 * (0 + j))))
        (List.range ((f.range.size + 63) / 64))) =
        wideEvents line f.name f.range.first f.range.size (chunksVal cs) := by
      simp only [Nat.zero_add, wideEvents]
    rw [this]
    unfold FeatureText.calls
    refine wideEvents_mod _ _ _ _ _ _ ?_
    have := hcs.val
    rw [hfit] at this
    exact this
  rw [hev]

end Verif.Fasm
