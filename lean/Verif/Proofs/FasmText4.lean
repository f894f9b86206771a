import Verif.Proofs.FasmText3
/-! # The texts of every line and of every content -/
namespace Verif.Fasm
open Verif.Spec

theorem rangeMP_snd (s : Bytes) : (rangeMP s).2 = (rangeP s).2 := by rw [rangeMP_plain]

theorem rangeMP_bits {s : Bytes} {a b : Nat} (h : (rangeP s).1 = .bits a b) : (rangeMP s).1 = .bits a b := by
  rw [rangeMP_plain] at h
  dsimp only at h
  revert h
  cases (rangeMP s).1 with
  | bits x y => intro h; cases h; rfl
  | noBracket => intro h; cases h
  | inverted x y => intro h; cases h

theorem rangeMP_open (g : Nat → Bytes) (hg : ∀ i, Blank (g i)) (r : RangeText) (hr : r.Shaped) (post : Bytes)
    (hp : BreaksRange g r post) : rangeMP (r.openText g ++ post) = (.noBracket, post) := by
  obtain ⟨hne, hp⟩ := hp
  have hb := hd_nb fun c hc => (hp c hc).1
  have hcl : hd post ≠ chRBrack := hd_ne (by decide) fun c hc => (hp c hc).2.1
  cases r with
  | absent => exact absurd rfl hne
  | bit d =>
    have hn := numP_gap 10 16 (by decide) (g 2) d (g 3) post (hg 2) hr (hg 3)
      ⟨hb, fun h => hd_nd (by decide) fun c hc => (hp c hc).2.2.2 h⟩
    simp only [RangeText.openText, List.cons_append, List.append_assoc]
    unfold rangeMP
    rw [if_pos (hd_cons _ _), List.tail_cons]
    dsimp only
    rw [hn.1, hn.2]
    have hm : ∀ v, rangeMinP v post = (v, post) := fun v =>
      if_neg (hd_ne (by decide) fun c hc => (hp c hc).2.2.1)
    simp only [hm, hcl, ne_eq, not_false_eq_true, if_true]
  | span hi lo =>
    have hn := numP_gap 10 16 (by decide) (g 2) hi (g 3) (0x3a :: (g 4 ++ (lo ++ (g 5 ++ post))))
      (hg 2) hr.1 (hg 3) (NumEnd.of_delim (by decide) (by decide))
    have hn2 := numP_gap 10 16 (by decide) (g 4) lo (g 5) post
      (hg 4) hr.2 (hg 5) ⟨hb, fun h => hd_nd (by decide) fun c hc => (hp c hc).2.2 h⟩
    simp only [RangeText.openText, List.cons_append, List.append_assoc]
    unfold rangeMP
    rw [if_pos (hd_cons _ _), List.tail_cons]
    dsimp only
    rw [hn.1, hn.2]
    have hm : ∀ v, rangeMinP v (0x3a :: (g 4 ++ (lo ++ (g 5 ++ post)))) = (numVal 10 lo % 2 ^ 16, post) := by
      intro v
      unfold rangeMinP
      rw [if_pos (hd_cons _ _), List.tail_cons, hn2.1, hn2.2]
    simp only [hm, hcl, ne_eq, not_false_eq_true, if_true]

theorem rangeMP_inverted (g : Nat → Bytes) (hg : ∀ i, Blank (g i)) (r : RangeText) (hr : r.Shaped) (hinv : r.Inverted) (post : Bytes) :
    (rangeMP (r.text g ++ post)).1 = .inverted r.last r.first := by
  cases r with
  | absent => exact absurd hinv (Nat.lt_irrefl _)
  | bit d => exact absurd hinv (Nat.lt_irrefl _)
  | span hi lo =>
    have hn := numP_gap 10 16 (by decide) (g 2) hi (g 3) (0x3a :: (g 4 ++ (lo ++ (g 5 ++ 0x5d :: (g 6 ++ post)))))
      (hg 2) hr.1 (hg 3) (NumEnd.of_delim (by decide) (by decide))
    have hn2 := numP_gap 10 16 (by decide) (g 4) lo (g 5) (0x5d :: (g 6 ++ post))
      (hg 4) hr.2 (hg 5) (NumEnd.of_delim (by decide) (by decide))
    simp only [RangeText.text, List.cons_append, List.append_assoc]
    unfold rangeMP
    rw [if_pos (hd_cons _ _), List.tail_cons]
    dsimp only
    rw [hn.1, hn.2]
    have hm : ∀ v, rangeMinP v (0x3a :: (g 4 ++ (lo ++ (g 5 ++ 0x5d :: (g 6 ++ post))))) =
        (numVal 10 lo % 2 ^ 16, 0x5d :: (g 6 ++ post)) := by
      intro v
      unfold rangeMinP
      rw [if_pos (hd_cons _ _), List.tail_cons, hn2.1, hn2.2]
    have hlt : numVal 10 hi % 2 ^ 16 < numVal 10 lo % 2 ^ 16 := hinv
    simp only [hm, hd_cons, ne_eq, not_true, if_false, hlt, if_true]
    rfl

theorem isEmpty_false {name : Bytes} (h : name ≠ []) : name.isEmpty = false := by
  cases name with
  | nil => exact absurd rfl h
  | cons => rfl

theorem lineT_feature (ann : Bool) (line : Nat) (g : Nat → Bytes) (f : FeatureText) (post : Bytes)
    (hok : (LineShape.feature g f post).Ok) :
    lineT ann line (f.text g ++ post) =
      (f.noteTexts line ++ if clamps' f then [f.wideText line] else []) ++ tailT ann line f.name post := by
  obtain ⟨hg, ⟨hne, hname, hr, hv⟩, hinv, hf⟩ := hok
  obtain ⟨hb, hbr, hid⟩ := follows_start g f post hf
  have han := after_name g f.range (f.value.text g ++ post) hb hid
  have e0 : f.text g ++ post = g 0 ++ (f.name ++ (g 1 ++ (f.range.text g ++ (f.value.text g ++ post)))) := by
    simp [FeatureText.text]
  have hnt := name_text (g 0) f.name (g 1) (f.range.text g ++ (f.value.text g ++ post)) (hg 0) ⟨hne, hname⟩ (hg 1)
    han.1 han.2
  have hrange := (range_shaped g hg f.range hr (f.value.text g ++ post) hb hbr).2 hinv
  have ha := assign_shaped g hg {} line f hv post hf
  dsimp only at ha
  unfold lineT
  rw [e0, hnt.1, hnt.2]
  unfold bodyT
  rw [isEmpty_false hne, rangeMP_bits hrange.1, rangeMP_snd, hrange.2]
  simp only [Bool.false_eq_true, if_false]
  rw [assignT_shaped g hg line f hname hv post hf, ha.2.2.2.2]

theorem lineT_bare (ann : Bool) (line : Nat) (g : Nat → Bytes) (post : Bytes) (hok : (LineShape.bare g post).Ok) :
    lineT ann line (g 0 ++ post) = tailT ann line [] post := by
  obtain ⟨hg, hp⟩ := hok
  have hb := hd_nb fun c hc => (hp c hc).1
  have hi := hd_ni fun c hc => (hp c hc).2
  have e2 := span_eq isIdent [] post (by simp) isIdent_nl hi
  rw [List.nil_append] at e2
  unfold lineT
  rw [dropBlank (g 0) post (hg 0) hb, e2.1, e2.2]
  have e3 : post.dropWhile isBlank = post := dropBlank [] post blank_nil hb
  rw [e3]
  rfl

theorem lineT_open (ann : Bool) (line : Nat) (g : Nat → Bytes) (name : Bytes) (r : RangeText) (post : Bytes)
    (hok : (LineShape.openRange g name r post).Ok) :
    lineT ann line (LineShape.openRange g name r post).text =
      [about line (ascii "ERR expected ']' : '" ++ upToNul (name ++ g 1 ++ r.openText g ++ [nextChar post]) ++ ascii "'")] := by
  obtain ⟨hg, hn, hr, hb⟩ := hok
  have e0 : (LineShape.openRange g name r post).text = g 0 ++ (name ++ (g 1 ++ (r.openText g ++ post))) := by
    simp [LineShape.text]
  have hstart : isBlank (hd (r.openText g ++ post)) = false ∧ isIdent (hd (r.openText g ++ post)) = false := by
    cases r with
    | absent => exact absurd rfl hb.1
    | bit d => exact ⟨(by decide : isBlank 0x5b = false), (by decide : isIdent 0x5b = false)⟩
    | span hi lo => exact ⟨(by decide : isBlank 0x5b = false), (by decide : isIdent 0x5b = false)⟩
  have hnt := name_text (g 0) name (g 1) (r.openText g ++ post) (hg 0) hn (hg 1) hstart.1 fun _ => hstart.2
  have hd0 : (g 0 ++ (name ++ (g 1 ++ (r.openText g ++ post)))).dropWhile isBlank = name ++ (g 1 ++ (r.openText g ++ post)) := by
    refine dropBlank _ _ (hg 0) ?_
    obtain ⟨hne, hname⟩ := hn
    cases name with
    | nil => exact absurd rfl hne
    | cons x xs => exact ident_not_blank ((isIdent_spec x).2 (hname x List.mem_cons_self))
  unfold lineT
  rw [e0, hnt.1, hnt.2, hd0]
  unfold bodyT
  rw [isEmpty_false hn.1, rangeMP_open g hg r hr post hb]
  simp only [Bool.false_eq_true, if_false]
  rw [msgBracket_eq]
  unfold shownT
  have e1 : name ++ (g 1 ++ (r.openText g ++ post)) = (name ++ g 1 ++ r.openText g) ++ post := by simp
  have e2 : ((name ++ g 1 ++ r.openText g) ++ post).length - post.length = (name ++ g 1 ++ r.openText g).length := by
    rw [List.length_append (bs := post)]; omega
  rw [e1, e2, List.take_left]
  rfl

theorem lineT_inverted (ann : Bool) (line : Nat) (g : Nat → Bytes) (name : Bytes) (r : RangeText) (post : Bytes)
    (hok : (LineShape.inverted g name r post).Ok) :
    lineT ann line (LineShape.inverted g name r post).text =
      [about line (ascii "SKIP inverted range " ++ featureShown name r)] := by
  obtain ⟨hg, hn, hr, hinv⟩ := hok
  have hra : r ≠ .absent := by
    rintro rfl
    exact Nat.lt_irrefl _ hinv
  have e0 : (LineShape.inverted g name r post).text = g 0 ++ (name ++ (g 1 ++ (r.text g ++ post))) := by
    simp [LineShape.text]
  have hstart := dropBlankRange g r post hra
  have hnt := name_text (g 0) name (g 1) (r.text g ++ post) (hg 0) hn (hg 1) hstart.1 fun _ => hstart.2
  unfold lineT
  rw [e0, hnt.1, hnt.2]
  unfold bodyT
  rw [isEmpty_false hn.1, rangeMP_inverted g hg r hr hinv post]
  simp only [Bool.false_eq_true, if_false]
  rw [msgInverted_eq line name r hn.2]

theorem lineT_badFormat (ann : Bool) (line : Nat) (g : Nat → Bytes) (name : Bytes) (r : RangeText) (w : Bytes) (c : UInt8)
    (post : Bytes) (hok : (LineShape.badFormat g name r w c post).Ok) :
    lineT ann line (LineShape.badFormat g name r w c post).text = widthSays line name r w ++ [baseText line c] := by
  obtain ⟨hg, hn, hr, hinv, hw, hcb, hcf⟩ := hok
  obtain ⟨h1, s1, h2, h3, h4, h5, h6⟩ := upto_tick g name r w (g 9 ++ c :: post) hg hn hr hinv hw
  have h9 := dropBlank (g 9) (c :: post) (hg 9) (by rw [hd_cons]; exact decide_eq_false hcb)
  have hx : c ≠ 0x68 ∧ c ≠ 0x62 ∧ c ≠ 0x6f ∧ c ≠ 0x64 :=
    ⟨fun h => hcf ⟨.hex, h⟩, fun h => hcf ⟨.bin, h⟩, fun h => hcf ⟨.oct, h⟩, fun h => hcf ⟨.dec, h⟩⟩
  have hf : decide (c = 0x64 ∨ c = 0x6f) = false :=
    decide_eq_false (fun h => h.elim (fun h => hx.2.2.2 h) (fun h => hx.2.2.1 h))
  have hval : ∀ st, valueP st line c post = (st.report line .error, [1], []) := by
    intro st
    unfold valueP
    rw [if_neg hx.1, if_neg hx.2.1, if_neg hx.2.2.1, if_neg hx.2.2.2]
  unfold lineT
  rw [LineShape.text, h1, h2]
  unfold bodyT
  rw [isEmpty_false hn.1, rangeMP_bits h3, rangeMP_snd, h4]
  simp only [Bool.false_eq_true, if_false]
  rw [assignP_ticked _ _ _ _ _ _ _ h5 h6, assignT_ticked _ _ _ _ _ _ _ h5 h6]
  unfold tickedT tickedP
  simp only [h9, hd_cons, List.tail_cons, hval, List.dropWhile_nil]
  rw [moreT_eq line name r w hn.2]
  unfold clampT valueT
  rw [hf, if_neg (by rintro ⟨_, h⟩; cases h), if_neg hx.1, if_neg hx.2.1, if_neg hx.2.2.1, if_neg hx.2.2.2, msgBase_eq]
  simp [tailT, endT, hd, chNl, chLBrace, chHash, chCr]

/-- The texts of a line are those of its shape. -/
theorem lineT_says (ann : Bool) (line : Nat) (hl : line < 2 ^ 31) (s : LineShape) (hok : s.Ok) (hs : s.Swallows = false)
    {ts : List Bytes} (h : LineSays ann line s ts) : lineT ann line s.text = ts := by
  cases h with
  | bare g post ts h => exact (lineT_bare ann line g post hok).trans (ending_says ann line hl [] (by simp) h)
  | feature g f post ts hw h =>
    have hc : clamps' f = false := by
      cases h : clamps' f with
      | false => rfl
      | true => exact absurd ((clamps'_iff f).1 h) hw
    have := lineT_feature ann line g f post hok
    rw [hc, ending_says ann line hl f.name hok.2.1.2.1 h] at this
    show lineT ann line (f.text g ++ post) = _
    simpa using this
  | wide g f post ts hw h =>
    have := lineT_feature ann line g f post hok
    rw [(clamps'_iff f).2 hw, ending_says ann line hl f.name hok.2.1.2.1 h] at this
    show lineT ann line (f.text g ++ post) = _
    simpa using this
  | openRange g name r post => exact lineT_open ann line g name r post hok
  | inverted g name r post => exact lineT_inverted ann line g name r post hok
  | badFormat g name r w c post => exact lineT_badFormat ann line g name r w c post hok
  | dangling g name r w => cases hs

theorem lineSays_exists (ann : Bool) (line : Nat) (s : LineShape) (hnl : chNl ∉ s.text) : ∃ ts, LineSays ann line s ts := by
  cases s with
  | bare g post =>
    obtain ⟨ts, h⟩ := ending_exists ann line [] post fun h => hnl (List.mem_append_right _ h)
    exact ⟨ts, .bare g post ts h⟩
  | feature g f post =>
    obtain ⟨ts, h⟩ := ending_exists ann line f.name post fun h => hnl (List.mem_append_right _ h)
    by_cases hw : f.TooWide
    · exact ⟨_, .wide g f post ts hw h⟩
    · exact ⟨_, .feature g f post ts hw h⟩
  | openRange g name r post => exact ⟨_, .openRange g name r post⟩
  | inverted g name r post => exact ⟨_, .inverted g name r post⟩
  | badFormat g name r w c post => exact ⟨_, .badFormat g name r w c post⟩
  | dangling g name r w => exact ⟨_, .dangling g name r w⟩

/-! ## Lines that stop after the tick -/

theorem lineM_upto (ann : Bool) (cb : List Event → Bool) (o : Log) (line : Nat) (s rest feature s1 : Bytes) (mx mn : Nat)
    (hf : (s.dropWhile isBlank).takeWhile isIdent = feature)
    (h1 : ((s.dropWhile isBlank).dropWhile isIdent).dropWhile isBlank = s1)
    (hne : feature ≠ []) (hr : (rangeP s1).1 = .bits mx mn) :
    parseLineM ann cb o line (s ++ chNl :: rest) =
      (parseAssignM o line feature mx mn ((rangeP s1).2.dropWhile isBlank ++ chNl :: rest) >>= fun a =>
        reportChunks cb line feature mn a.2.1 a.2.2.1.length 0 a.2.2.1 a.1.st >>= fun st =>
          parseTailM ann { a.1 with st := st } line feature a.2.2.2) := by
  unfold parseLineM
  simp only [skipBlank_nl, ident_nl, Res.bind_ok, hf, h1, isEmpty_false hne, Bool.false_eq_true, if_false, parseRangeM_nl,
    rangeMP_bits hr, rangeMP_snd]

theorem lineM_swallow (ann : Bool) (cb : List Event → Bool) (o : Log) (line : Nat) (g : Nat → Bytes)
    (name : Bytes) (r : RangeText) (w : Bytes) (hok : (LineShape.dangling g name r w).Ok) (l2 rest : Bytes)
    (h2nl : chNl ∉ l2) (o' : Log) (rest' : Bytes)
    (h : parseLineM ann cb o line ((LineShape.dangling g name r w).text ++ chNl :: (l2 ++ chNl :: rest)) = .ok (o', rest')) :
    o'.out = o.out ++ (widthSays line name r w ++ [baseText line 0x0a]) ∧ rest' = rest := by
  obtain ⟨hg, hn, hr, hinv, hw⟩ := hok
  obtain ⟨h1, s1, h2, h3, h4, h5, h6⟩ := upto_tick g name r w (g 9) hg hn hr hinv hw
  rw [LineShape.text, lineM_upto ann cb o line _ _ name s1 _ _ h1 h2 hn.1 h3, h4] at h
  have h9 := dropBlank (g 9) [] (hg 9) (by decide)
  rw [List.append_nil] at h9
  have hassign : ∃ st, parseAssignM o line name r.last r.first
      (0x3d :: (g 7 ++ (w ++ (g 8 ++ 0x27 :: g 9))) ++ chNl :: (l2 ++ chNl :: rest)) =
      .ok (o.add st (widthSays line name r w ++ [baseText line 0x0a]), r.size, [1], chNl :: rest) := by
    unfold parseAssignM
    have ha : adv (0x3d :: (g 7 ++ (w ++ (g 8 ++ 0x27 :: g 9))) ++ chNl :: (l2 ++ chNl :: rest)) =
        (g 7 ++ (w ++ (g 8 ++ 0x27 :: g 9))) ++ chNl :: (l2 ++ chNl :: rest) := rfl
    simp only [cur_nl, Res.bind_ok, hd_cons, if_true, ha, skipBlank_nl, lead_nl, h5, h6]
    have ha2 : adv (0x27 :: g 9 ++ chNl :: (l2 ++ chNl :: rest)) = g 9 ++ chNl :: (l2 ++ chNl :: rest) := rfl
    rw [ha2]
    unfold parseTickedM
    have ha3 : adv (chNl :: (l2 ++ chNl :: rest)) = l2 ++ chNl :: rest := rfl
    have hcl : ∀ o : Log, clampWidthM o line name r.last r.first (r.last - r.first + 1) (decide (chNl = 0x64 ∨ chNl = 0x6f)) =
        (o, r.size) := by
      intro o
      unfold clampWidthM
      rw [if_neg (by rintro ⟨_, h⟩; exact absurd h (by decide))]
      rfl
    have hval : ∀ o : Log, parseValueM o line chNl (l2 ++ chNl :: rest) =
        .ok (o.print line .error (msgBase line chNl), [1], chNl :: rest) := by
      intro o
      unfold parseValueM
      rw [if_neg (by decide), if_neg (by decide), if_neg (by decide), if_neg (by decide), skipToEol_nl l2 rest h2nl]
      rfl
    have hsk : skipBlank (chNl :: rest) = .ok (chNl :: rest) := by
      rw [skipBlank, if_neg (by decide)]
    simp only [skipBlank_nl, h9, List.nil_append, Res.bind_ok, cur, ha3, hcl, hval, hsk, Res.pure_eq]
    simp only [moreM_eq]
    simp only [Log.print_add, Log.add_add, Log.add_st, moreT_eq line name r w hn.2, msgBase_eq]
    exact ⟨_, rfl⟩
  obtain ⟨st, hassign⟩ := hassign
  rw [hassign] at h
  simp only [Res.bind_ok] at h
  revert h
  cases reportChunks cb line name r.first r.size ([1] : List Nat).length 0 [1] (o.add st (widthSays line name r w ++ [baseText line 0x0a])).st with
  | oob => intro h; cases h
  | shift => intro h; cases h
  | ok st' =>
    intro h
    cases h
    exact ⟨rfl, rfl⟩

theorem lineM_last (ann : Bool) (cb : List Event → Bool) (o : Log) (line : Nat) (g : Nat → Bytes)
    (name : Bytes) (r : RangeText) (w : Bytes) (hok : (LineShape.dangling g name r w).Ok) :
    parseLineM ann cb o line ((LineShape.dangling g name r w).text ++ [chNl]) = .oob := by
  have h := line_er ann cb o line ((LineShape.dangling g name r w).text ++ [chNl])
  rw [parseLine_last ann cb o.st line g name r w hok] at h
  revert h
  cases parseLineM ann cb o line ((LineShape.dangling g name r w).text ++ [chNl]) with
  | ok x => intro h; exact h.elim
  | oob => intro _; rfl
  | shift => intro h; exact h.elim

/-! ## Whole contents -/

theorem shape_not_dangles (s : LineShape) (hok : s.Ok) (hs : s.Swallows = false) : ¬ LineDangles s.text := by
  cases s with
  | bare g post => exact (line_bare true (fun _ => true) {} 0 g post hok).1
  | feature g f post => exact (line_feature true (fun _ => true) {} 0 g f post hok).1
  | openRange g name r post => exact (line_open true (fun _ => true) {} 0 g name r post hok).1
  | inverted g name r post => exact (line_inverted true (fun _ => true) {} 0 g name r post hok).1
  | badFormat g name r w c post => exact (line_badFormat true (fun _ => true) {} 0 g name r w c post hok).1
  | dangling g name r w => cases hs

theorem linesM_says (ann : Bool) (cb : List Event → Bool) {n : Nat} {ls ts : List Bytes} (h : TextSays ann n ls ts) :
    (∀ l ∈ ls, 0x0a ∉ l) → n + ls.length < 2 ^ 31 → ∀ (fuel : Nat) (o o' : Log), (unlines ls).length ≤ fuel →
      parseLinesM ann cb fuel n o (unlines ls) = .ok o' → o'.out = o.out ++ ts := by
  induction h with
  | nil n =>
    intro _ _ fuel o o' _ h
    cases fuel <;> (cases h; simp)
  | @line n ls ts us s hok hs hsay t ih =>
    intro hnl hlen fuel o o' hf h
    rw [unlines_cons] at hf h
    have hpos : (s.text ++ chNl :: unlines ls).length = s.text.length + 1 + (unlines ls).length := by simp; omega
    have hline : (n + 1) % 2 ^ 32 = n + 1 := Nat.mod_eq_of_lt (by omega)
    cases fuel with
    | zero => omega
    | succ fuel =>
      rw [parseLinesM.eq_def] at h
      revert h
      cases hcs : s.text ++ chNl :: unlines ls with
      | nil => simp at hcs
      | cons c cs =>
        dsimp only
        rw [← hcs, hline, lineM_nl ann cb o (n + 1) s.text (unlines ls) (hnl _ List.mem_cons_self) (shape_not_dangles s hok hs)]
        rw [List.length_cons] at hlen
        cases lineP ann cb o.st (n + 1) s.text with
        | oob => intro h; cases h
        | shift => intro h; cases h
        | ok st =>
          intro h
          simp only [Res.bind, Res.bind_ok] at h
          have := ih (fun x hx => hnl x (List.mem_cons_of_mem _ hx)) (by omega) _ _ _ (by omega) h
          rw [this, ← List.append_assoc, ← lineT_says ann (n + 1) (by omega) s hok hs hsay]
          rfl
  | @swallow n ls ts us s l2 hok hs hsay t ih =>
    intro hnl hlen fuel o o' hf h
    cases s with
    | dangling g name r w =>
      rw [unlines_cons, unlines_cons] at hf h
      have hpos : ((LineShape.dangling g name r w).text ++ chNl :: (l2 ++ chNl :: unlines ls)).length =
          (LineShape.dangling g name r w).text.length + 1 + (l2.length + 1) + (unlines ls).length := by
        simp only [List.length_append, List.length_cons]; omega
      have hline : (n + 1) % 2 ^ 32 = n + 1 := Nat.mod_eq_of_lt (by omega)
      cases fuel with
      | zero => omega
      | succ fuel =>
        rw [parseLinesM.eq_def] at h
        revert h
        cases hcs : (LineShape.dangling g name r w).text ++ chNl :: (l2 ++ chNl :: unlines ls) with
        | nil => simp at hcs
        | cons c cs =>
          dsimp only
          rw [← hcs, hline]
          rw [List.length_cons, List.length_cons] at hlen
          cases hp : parseLineM ann cb o (n + 1) ((LineShape.dangling g name r w).text ++ chNl :: (l2 ++ chNl :: unlines ls)) with
          | oob => intro h; cases h
          | shift => intro h; cases h
          | ok x =>
            obtain ⟨o1, rest1⟩ := x
            obtain ⟨hout, rfl⟩ := lineM_swallow ann cb o (n + 1) g name r w hok l2 (unlines ls) (hnl l2 (by simp)) o1 rest1 hp
            intro h
            simp only [Res.bind_ok] at h
            have := ih (fun x hx => hnl x (List.mem_cons_of_mem _ (List.mem_cons_of_mem _ hx))) (by omega) _ _ _ (by omega) h
            rw [this, hout]
            cases hsay with
            | dangling => rw [List.append_assoc]
    | bare => cases hs
    | feature => cases hs
    | openRange => cases hs
    | inverted => cases hs
    | badFormat => cases hs

/-- Lines that can be read to the end have their texts. -/
theorem says_exists (ann : Bool) (cb : List Event → Bool) : ∀ (k : Nat) (ls : List Bytes), ls.length ≤ k → (∀ l ∈ ls, 0x0a ∉ l) →
    ∀ (n fuel line : Nat) (o o' : Log), parseLinesM ann cb fuel line o (unlines ls) = .ok o' → ∃ ts, TextSays ann n ls ts := by
  intro k
  induction k with
  | zero =>
    intro ls hk _ n _ _ _ _ _
    have : ls = [] := List.eq_nil_of_length_eq_zero (by omega)
    subst this
    exact ⟨[], .nil n⟩
  | succ k ih =>
    intro ls hk hnl n fuel line o o' h
    cases ls with
    | nil => exact ⟨[], .nil n⟩
    | cons l ls =>
      rw [List.length_cons] at hk
      obtain ⟨s, hok, rfl⟩ := shape_exists l
      have hnl0 := hnl s.text List.mem_cons_self
      obtain ⟨ts, hts⟩ := lineSays_exists ann (n + 1) s hnl0
      rw [unlines_cons] at h
      rw [parseLinesM.eq_def] at h
      cases hcs : s.text ++ chNl :: unlines ls with
      | nil => simp at hcs
      | cons c cs =>
        rw [hcs] at h
        cases fuel with
        | zero => cases h
        | succ fuel =>
          dsimp only at h
          rw [← hcs] at h
          by_cases hs : s.Swallows = false
          · rw [lineM_nl ann cb o _ s.text (unlines ls) hnl0 (shape_not_dangles s hok hs)] at h
            revert h
            cases lineP ann cb o.st ((line + 1) % 2 ^ 32) s.text with
            | oob => intro h; cases h
            | shift => intro h; cases h
            | ok st =>
              intro h
              simp only [Res.bind, Res.bind_ok] at h
              obtain ⟨us, hus⟩ := ih ls (by omega) (fun x hx => hnl x (List.mem_cons_of_mem _ hx)) (n + 1) _ _ _ _ h
              exact ⟨_, .line s hok hs hts hus⟩
          · cases s with
            | dangling g name r w =>
              cases ls with
              | nil =>
                rw [show unlines [] = ([] : Bytes) from rfl, lineM_last ann cb o _ g name r w hok] at h
                cases h
              | cons l2 ls =>
                rw [unlines_cons] at h
                revert h
                cases hp : parseLineM ann cb o ((line + 1) % 2 ^ 32) ((LineShape.dangling g name r w).text ++ chNl :: (l2 ++ chNl :: unlines ls)) with
                | oob => intro h; cases h
                | shift => intro h; cases h
                | ok x =>
                  obtain ⟨o1, rest1⟩ := x
                  obtain ⟨_, rfl⟩ := lineM_swallow ann cb o _ g name r w hok l2 (unlines ls) (hnl l2 (by simp)) o1 rest1 hp
                  intro h
                  simp only [Res.bind_ok] at h
                  obtain ⟨us, hus⟩ := ih ls (by rw [List.length_cons] at hk; omega)
                    (fun x hx => hnl x (List.mem_cons_of_mem _ (List.mem_cons_of_mem _ hx))) (n + 1) _ _ _ _ h
                  exact ⟨_, .swallow _ l2 hok rfl hts hus⟩
            | bare => exact absurd rfl hs
            | feature => exact absurd rfl hs
            | openRange => exact absurd rfl hs
            | inverted => exact absurd rfl hs
            | badFormat => exact absurd rfl hs

theorem parseM_lines (ann : Bool) (cb : List Event → Bool) (ls : List Bytes) :
    parseM ann cb (unlines ls) = parseLinesM ann cb (unlines ls).length 0 {} (unlines ls) := by
  by_cases h : ls = []
  · subst h; rfl
  · unfold parseM
    rw [getLast_unlines ls h]
    exact if_neg (by simp)

end Verif.Fasm
