import Verif.Proofs.FasmTotal4
import Verif.Props.C24_C34
/-! # C71: the reading of every line of every FASM text

`Spec/FasmGrammar.lean` lists the shapes of lines; every line has one (`C71_shapes`), and for each
shape the report of the parser is given here.  `C71_text` reduces texts to lines.  Together with
`C24_no_newline` this says what the parser does on every input. -/
namespace Verif.Props
open Verif.Fasm Verif.Spec

/-- Every line has one of the shapes. -/
theorem C71_shapes (l : Bytes) : ∃ s : LineShape, s.Ok ∧ s.text = l := shape_exists l

/-! ## From texts to lines -/

/-- A text ends without newline (then it is rejected, `C24_no_newline`), or it consists of lines, and
it is read as certain lines that stand for themselves, possibly running off the end after them. -/
theorem C71_text (content : Bytes) :
    (∃ s c, content = s ++ [c] ∧ c ≠ 0x0a) ∨
    ∃ ls ms b, content = unlines ls ∧ (∀ l ∈ ls, 0x0a ∉ l) ∧ Reads ls ms b ∧ (∀ m ∈ ms, OneLine m) ∧
      ∀ ann cb, parse ann cb content =
        (parse ann cb (unlines ms)).bind fun st => if b then .oob else .ok st := by
  by_cases h : content = [] ∨ content.getLast? = some 0x0a
  · obtain ⟨ls, e, hn⟩ := lines_of content h
    obtain ⟨ms, b, hr⟩ := reads_exists _ ls (Nat.le_refl _)
    exact Or.inr ⟨ls, ms, b, e, hn, hr, reads_lines hr hn, fun ann cb => by rw [e]; exact parse_reads ann cb hr hn⟩
  · have hne : content ≠ [] := fun e => h (Or.inl e)
    refine Or.inl ⟨content.dropLast, content.getLast hne, (List.dropLast_concat_getLast hne).symm, fun e => h (Or.inr ?_)⟩
    rw [List.getLast?_eq_some_getLast hne, e]

/-- The reading is unique. -/
theorem C71_text_unique (ls ms ms' : List Bytes) (b b' : Bool) (h : Reads ls ms b) (h' : Reads ls ms' b') :
    ms = ms' ∧ b = b' := reads_unique h h'

/-- A text whose lines stand for themselves: the report is the combination of the report on all but
the last line and the report on the last line (the callback hears the earlier calls first). -/
theorem C71_last_line (ann : Bool) (cb : List Event → Bool) (ls : List Bytes) (l : Bytes)
    (hls : ∀ x ∈ ls, OneLine x) (hl : OneLine l) (hn : ls.length + 1 < 2 ^ 32) :
    parse ann cb (unlines (ls ++ [l])) =
      (parse ann cb (unlines ls)).bind fun st =>
        (parse ann (fun tr => cb (st.trace ++ tr.map (renumber ls.length))) (l ++ [0x0a])).bind fun st1 =>
          .ok (combine ls.length st st1) :=
  parse_snoc' ann cb ls l hls hl hn

/-- `F='`, `G`, `H`: read as `F='?`, `H`. -/
example : Reads [bytes!"F='", bytes!"G", bytes!"H"] [bytes!"F='?", bytes!"H"] false := by
  have hH : ¬ Dangles bytes!"H" := by
    rw [dangles_iff]
    rintro ⟨_, mx, mn, _, h, _⟩
    exact absurd h (by decide)
  refine .swallow (l2 := bytes!"G") ⟨fun _ => [], bytes!"F", .absent, [], ⟨fun i c hc => absurd hc (by simp), ⟨by decide, ?_⟩, trivial, ?_, ?_⟩, rfl⟩
    (.line hH .nil)
  · intro c hc; rw [List.mem_singleton.1 hc]; decide
  · exact Nat.lt_irrefl _
  · intro c hc; cases hc

/-! ## The lines -/

theorem OneLine.of_shape (s : LineShape) (hok : s.Ok) (hnl : 0x0a ∉ s.text) (h : ∀ g name r w, s ≠ .dangling g name r w) :
    OneLine s.text := by
  refine ⟨hnl, fun hd => ?_⟩
  have hd := (dangles_iff _).1 hd
  cases s with
  | bare g post => exact (line_bare true (fun _ => true) {} 0 g post hok).1 hd
  | feature g f post => exact (line_feature true (fun _ => true) {} 0 g f post hok).1 hd
  | openRange g name r post => exact (line_open true (fun _ => true) {} 0 g name r post hok).1 hd
  | inverted g name r post => exact (line_inverted true (fun _ => true) {} 0 g name r post hok).1 hd
  | badFormat g name r w c post => exact (line_badFormat true (fun _ => true) {} 0 g name r w c post hok).1 hd
  | dangling g name r w => exact h g name r w rfl

/-- Lines whose shape is not `dangling` stand for themselves. -/
theorem C71_one_line (s : LineShape) (hok : s.Ok) (hnl : 0x0a ∉ s.text) (h : ∀ g name r w, s ≠ .dangling g name r w) :
    OneLine s.text := OneLine.of_shape s hok hnl h

/-- No feature name: with a proper ending only its annotations are delivered; otherwise an error, and
no feature call. -/
theorem C71_bare (ann : Bool) (cb : List Event → Bool) (g : Nat → Bytes) (post : Bytes)
    (hok : (LineShape.bare g post).Ok) (hnl : 0x0a ∉ g 0 ++ post) :
    (∀ as, Ending ann post as → parse ann cb (g 0 ++ post ++ [0x0a]) =
      .ok { trace := as.map fun a => .annotation 1 [] a.1 a.2 }) ∧
    ((¬ ∃ as, Ending ann post as) → ∃ st, parse ann cb (g 0 ++ post ++ [0x0a]) = .ok st ∧
      st.result = .error ∧ ∀ e ∈ st.trace, isFeature e = false) := by
  have h1 : OneLine (g 0 ++ post) := C71_one_line _ hok hnl (by intro _ _ _ _ h; cases h)
  rw [parse_one ann cb _ h1, (line_bare ann cb {} 1 g post hok).2]
  refine ⟨fun as has => ?_, fun hno => ?_⟩
  · rw [tail_ending ann _ _ _ has]; rfl
  · obtain ⟨anns, h1, h2, h3, _⟩ := tail_other ann {} 1 [] post (fun h => hnl (List.mem_append_right _ h)) hno
    refine ⟨_, rfl, h3, ?_⟩
    rw [h2]
    exact h1

/-- A feature whose value fits its range: the calls `f.calls`, as far as the callback accepts them,
then the annotations; the result is the worst of the notes and of the refusal.  After anything but a
proper ending the calls are the same and the result is an error. -/
theorem C71_feature (ann : Bool) (cb : List Event → Bool) (g : Nat → Bytes) (f : FeatureText) (post : Bytes)
    (hok : (LineShape.feature g f post).Ok) (hnl : 0x0a ∉ f.text g ++ post) (hfit : f.FitsRange) (hw : ¬ f.TooWide) :
    (∀ as, Ending ann post as → parse ann cb (f.text g ++ post ++ [0x0a]) =
      .ok { trace := heard cb [] (f.calls 1) ++ as.map fun a => .annotation 1 f.name a.1 a.2,
            diags := f.notes.map fun s => (1, s),
            result := worst (f.notes ++ if refused cb [] (f.calls 1) then [.userAbort] else []) }) ∧
    ((¬ ∃ as, Ending ann post as) → ∃ st, parse ann cb (f.text g ++ post ++ [0x0a]) = .ok st ∧
      st.result = .error ∧ ∃ anns, (∀ e ∈ anns, isFeature e = false) ∧
        st.trace = heard cb [] (f.calls 1) ++ anns) := by
  have h1 := C71_one_line _ hok hnl (by intro _ _ _ _ h; cases h)
  have hc : clamps' f = false := by
    cases h : clamps' f with
    | false => rfl
    | true => exact absurd ((clamps'_iff f).1 h) hw
  obtain ⟨cs, hcs, hl⟩ := (line_feature ann cb {} 1 g f post hok).2
  rw [show f.text g ++ post = (LineShape.feature g f post).text from rfl] at hl ⊢
  rw [parse_one ann cb _ h1, hl, hc]
  simp only [Bool.false_eq_true, if_false, List.append_nil]
  rw [report_fits cb _ 1 f hfit cs hcs, warn_eq]
  simp only [Res.bind, List.nil_append, success_max]
  have hres : (if refused cb [] (f.calls 1) then (worst f.notes).max .userAbort else worst f.notes) =
      worst (f.notes ++ if refused cb [] (f.calls 1) then [.userAbort] else []) := by
    split
    · rw [worst_append, worst_single]
    · rw [List.append_nil]
  refine ⟨fun as has => ?_, fun hno => ?_⟩
  · rw [tail_ending ann _ _ _ has, hres]
  · have hp : chNl ∉ post := fun h => hnl (List.mem_append_right _ h)
    obtain ⟨anns, h1, h2, h3, _⟩ := tail_other ann
      { result := if refused cb [] (f.calls 1) then (worst f.notes).max .userAbort else worst f.notes,
        trace := heard cb [] (f.calls 1), diags := f.notes.map fun s => (1, s) } 1 f.name post hp hno
    exact ⟨_, rfl, h3, anns, h1, h2⟩

/-- A plain, decimal or octal value for more than 64 bits: an error, and one call with 64 bits. -/
theorem C71_too_wide (ann : Bool) (cb : List Event → Bool) (g : Nat → Bytes) (f : FeatureText) (post : Bytes)
    (hok : (LineShape.feature g f post).Ok) (hnl : 0x0a ∉ f.text g ++ post) (hw : f.TooWide) :
    ∃ st, parse ann cb (f.text g ++ post ++ [0x0a]) = .ok st ∧ st.result = .error ∧
      ∃ anns, (∀ e ∈ anns, isFeature e = false) ∧
        st.trace = .feature 1 f.name (f.range.first : Nat) 64 (f.value.val % 2 ^ 64) :: anns := by
  have h1 := C71_one_line _ hok hnl (by intro _ _ _ _ h; cases h)
  have hc : clamps' f = true := (clamps'_iff f).2 hw
  have hdb : f.value.digitBits = 0 := by
    have := hw.2
    cases hv : f.value with
    | absent => rfl
    | plain d => rfl
    | based w b d =>
      rw [hv] at this
      rcases this with rfl | rfl <;> simp [ValueText.digitBits, Base.digitBits]
  obtain ⟨cs, hcs, hl⟩ := (line_feature ann cb {} 1 g f post hok).2
  have hch : f.value.chunks = 1 := by unfold ValueText.chunks; rw [hdb]; rfl
  have hlen : cs.length = 1 := hcs.len.trans hch
  have hval : chunksVal cs % 2 ^ 64 = f.value.val % 2 ^ 64 := by
    have := hcs.val
    rw [hch, hdb, misread_aligned 0 _ rfl, Nat.mul_one] at this
    exact this
  rw [show f.text g ++ post = (LineShape.feature g f post).text from rfl] at hl ⊢
  rw [parse_one ann cb _ h1, hl, hc]
  simp only [if_true]
  rw [reportChunks_heard cb 1 f.name f.range.first 64 cs.length (chunksVal cs) (first_lt _) (by decide)
    (by omega) (by omega) cs 0 _ (by omega) hcs.bound (by simp)]
  rw [hlen, warn_eq]
  have hev : chunkEvents 1 f.name f.range.first 64 (chunksVal cs) 0 1 =
      [.feature 1 f.name (f.range.first : Nat) 64 (f.value.val % 2 ^ 64)] := by
    simp only [chunkEvents, chunkWidth, Nat.mul_zero, Nat.add_zero, Nat.sub_zero, Nat.pow_zero, Nat.div_one, Nat.min_self]
    rw [hval]
    rfl
  rw [hev]
  simp only [Res.bind, List.nil_append, success_max, heard, refused, ite_self]
  have hp : chNl ∉ post := fun h => hnl (List.mem_append_right _ h)
  have hwe : worst (f.notes ++ [Sev.error]) = .error := by rw [worst_append, worst_single]; exact max_error _
  rw [hwe]
  by_cases hend : ∃ as, Ending ann post as
  · obtain ⟨as, has⟩ := hend
    rw [tail_ending ann _ _ _ has]
    refine ⟨_, rfl, by split <;> rfl, as.map fun a => .annotation 1 f.name a.1 a.2, ?_, rfl⟩
    intro e he
    obtain ⟨a, _, rfl⟩ := List.mem_map.1 he
    rfl
  · obtain ⟨anns, h1, h2, h3, _⟩ := tail_other ann _ 1 f.name post hp hend
    exact ⟨_, rfl, h3, anns, h1, h2⟩

/-- A value with too many or too few chunks for its range: an undefined shift (if every call is
accepted). -/
theorem C71_misfit (ann : Bool) (cb : List Event → Bool) (hcb : ∀ tr, cb tr = true) (g : Nat → Bytes) (f : FeatureText)
    (post : Bytes) (hok : (LineShape.feature g f post).Ok) (hnl : 0x0a ∉ f.text g ++ post) (hfit : ¬ f.FitsRange)
    (hw : ¬ f.TooWide) (hlen : f.value.digitBits < 2 ^ 30) :
    parse ann cb (f.text g ++ post ++ [0x0a]) = .shift := by
  have h1 := C71_one_line _ hok hnl (by intro _ _ _ _ h; cases h)
  have hc : clamps' f = false := by
    cases h : clamps' f with
    | false => rfl
    | true => exact absurd ((clamps'_iff f).1 h) hw
  obtain ⟨cs, hcs, hl⟩ := (line_feature ann cb {} 1 g f post hok).2
  rw [show f.text g ++ post = (LineShape.feature g f post).text from rfl] at hl ⊢
  rw [parse_one ann cb _ h1, hl, hc]
  simp only [Bool.false_eq_true, if_false, List.append_nil]
  have hsz := size_bounds f.range
  have hl := hcs.len
  have hch : f.value.chunks = max 1 ((f.value.digitBits + 63) / 64) := rfl
  have hno : f.value.chunks ≠ (f.range.size + 63) / 64 := hfit
  rw [reportChunks_shift cb hcb 1 f.name f.range.first f.range.size cs.length hsz.2 (by omega) (by omega) cs 0 _
    (by rintro rfl; simp at hl; omega) (by omega)]
  rfl

/-- An unclosed range: an error and no call. -/
theorem C71_open_range (ann : Bool) (cb : List Event → Bool) (g : Nat → Bytes) (name : Bytes) (r : RangeText) (post : Bytes)
    (hok : (LineShape.openRange g name r post).Ok) (hnl : 0x0a ∉ (LineShape.openRange g name r post).text) :
    parse ann cb ((LineShape.openRange g name r post).text ++ [0x0a]) =
      .ok { result := .error, trace := [], diags := [(1, .error)] } := by
  have h1 := C71_one_line _ hok hnl (by intro _ _ _ _ h; cases h)
  rw [parse_one ann cb _ h1, (line_open ann cb {} 1 g name r post hok).2]
  rfl

/-- A range the wrong way round: the line is skipped, whatever else is on it. -/
theorem C71_inverted (ann : Bool) (cb : List Event → Bool) (g : Nat → Bytes) (name : Bytes) (r : RangeText) (post : Bytes)
    (hok : (LineShape.inverted g name r post).Ok) (hnl : 0x0a ∉ (LineShape.inverted g name r post).text) :
    parse ann cb ((LineShape.inverted g name r post).text ++ [0x0a]) =
      .ok { result := .skipped, trace := [], diags := [(1, .skipped)] } := by
  have h1 := C71_one_line _ hok hnl (by intro _ _ _ _ h; cases h)
  rw [parse_one ann cb _ h1, (line_inverted ann cb {} 1 g name r post hok).2]
  rfl

/-- An unknown number format: an error, but for a range of at most 64 bits the feature is nevertheless
reported with value 1; for a wider range an undefined shift. -/
theorem C71_bad_format (ann : Bool) (cb : List Event → Bool) (g : Nat → Bytes) (name : Bytes) (r : RangeText) (w : Bytes)
    (c : UInt8) (post : Bytes) (hok : (LineShape.badFormat g name r w c post).Ok)
    (hnl : 0x0a ∉ (LineShape.badFormat g name r w c post).text) :
    (r.size ≤ 64 → parse ann cb ((LineShape.badFormat g name r w c post).text ++ [0x0a]) =
      .ok { result := .error, trace := [.feature 1 name (r.first : Nat) (r.size : Nat) 1],
            diags := (if numVal 10 w % 2 ^ 64 > r.size then [(1, .nonCritical)] else []) ++ [(1, .error)] }) ∧
    (64 < r.size → parse ann cb ((LineShape.badFormat g name r w c post).text ++ [0x0a]) = .shift) := by
  have h1 := C71_one_line _ hok hnl (by intro _ _ _ _ h; cases h)
  rw [parse_one ann cb _ h1, (line_badFormat ann cb {} 1 g name r w c post hok).2]
  have hsz := size_bounds r
  refine ⟨fun hs => ?_, fun hs => ?_⟩
  · rw [reportChunks_heard cb 1 name r.first r.size 1 1 (first_lt _) hsz.2 (by omega) (by omega) [1] 0 _ rfl
      (by simp) (by simp [chunksVal]), warn_eq]
    have hev : chunkEvents 1 name r.first r.size 1 0 1 = [.feature 1 name (r.first : Nat) (r.size : Nat) 1] := by
      have hm : min 64 r.size = r.size := by omega
      have h1m : 1 % 2 ^ r.size = 1 := Nat.mod_eq_of_lt (Nat.one_lt_two_pow (by omega))
      simp only [chunkEvents, chunkWidth, Nat.mul_zero, Nat.add_zero, Nat.sub_zero, Nat.pow_zero, Nat.div_one, hm, h1m]
    rw [show ([1] : List Nat).length = 1 from rfl, hev]
    have hwe : worst (tickNotes r w ++ [Sev.error]) = .error := by rw [worst_append, worst_single]; exact max_error _
    have hdi : ((tickNotes r w ++ [Sev.error]).map fun s => (1, s)) =
        (if numVal 10 w % 2 ^ 64 > r.size then [(1, Sev.nonCritical)] else []) ++ [(1, Sev.error)] := by
      unfold tickNotes
      split <;> rfl
    rw [hdi]
    simp only [Res.bind, List.nil_append, success_max, hwe, heard, refused, ite_self]
    congr 2
    split <;> rfl
  · unfold reportChunks
    dsimp only
    rw [if_pos]
    · rfl
    · have hv : valueWidth r.size 1 0 = r.size := by
        unfold valueWidth; simp; omega
      rw [hv]
      simp only [BitVec.toNat_sub, BitVec.toNat_ofNat]
      omega

/-- A line that stops after the tick of its value: alone, the parser reads outside its input;
followed by another line, that line is lost and the feature is reported as for an unknown format. -/
theorem C71_dangling (ann : Bool) (cb : List Event → Bool) (g : Nat → Bytes) (name : Bytes) (r : RangeText) (w : Bytes)
    (hok : (LineShape.dangling g name r w).Ok) (hnl : 0x0a ∉ (LineShape.dangling g name r w).text) :
    parse ann cb ((LineShape.dangling g name r w).text ++ [0x0a]) = .oob ∧
    ∀ l2 : Bytes, 0x0a ∉ l2 →
      parse ann cb ((LineShape.dangling g name r w).text ++ [0x0a] ++ (l2 ++ [0x0a])) =
        parse ann cb ((LineShape.badFormat g name r w 0x3f []).text ++ [0x0a]) := by
  have hd : Dangles (LineShape.dangling g name r w).text := ⟨g, name, r, w, hok, rfl⟩
  constructor
  · have := parse_reads ann cb (.last _ hd) (by intro l hl; rw [List.mem_singleton.1 hl]; exact hnl)
    have e : unlines [(LineShape.dangling g name r w).text] = (LineShape.dangling g name r w).text ++ [0x0a] := by
      simp [unlines]
    rw [e] at this
    rw [this]; rfl
  · intro l2 h2
    have := parse_reads ann cb (.swallow (l2 := l2) hd .nil) (by
      intro l hl
      rcases List.mem_cons.1 hl with rfl | hl
      · exact hnl
      · rw [List.mem_singleton.1 hl]; exact h2)
    have e : unlines [(LineShape.dangling g name r w).text, l2] =
        (LineShape.dangling g name r w).text ++ [0x0a] ++ (l2 ++ [0x0a]) := by
      simp [unlines]
    have e2 : unlines [(LineShape.dangling g name r w).text ++ bytes!"?"] =
        (LineShape.badFormat g name r w 0x3f []).text ++ [0x0a] := by
      simp [unlines, LineShape.text]
    rw [e, e2] at this
    rw [this]
    exact bind_ok_self _

/-- ` A.B [ 7 : 4 ] = 4 ' b 1_010 # x` has the shape of `C71_feature`, `A[0:1]` that of `C71_inverted`,
`A=1'x` that of `C71_bad_format`, `A[1` that of `C71_open_range`, `A[99:0]=5` that of `C71_too_wide`. -/
example : (LineShape.feature oneBlank exampleFeature exampleComment).Ok ∧ exampleFeature.FitsRange ∧
    ¬ exampleFeature.TooWide ∧ Ending true exampleComment [] := by
  have h := exampleFeature_wf
  refine ⟨⟨oneBlank_blank, ⟨h.1, h.2.1, ⟨h.2.2.1.1, h.2.2.1.2.2.2.1⟩, ⟨h.2.2.2.1, h.2.2.2.2.2.1⟩⟩, ?_, ?_⟩,
    ?_, ?_, .comment _⟩
  · show ¬ (7 < 4); decide
  · intro c hc
    cases hc
    exact ⟨by unfold BlankChar; decide, fun h => by rcases h with h | h <;> exact absurd h (by decide)⟩
  · show _ = _; decide
  · rintro ⟨h, _⟩; exact absurd h (by decide)

theorem noGaps (i : Nat) : Blank ((fun _ => []) i : Bytes) := fun _ hc => absurd hc (by simp)

theorem nameA : IsName bytes!"A" := ⟨by decide, fun c hc => by rw [List.mem_singleton.1 hc]; decide⟩

theorem oneDigit (c : UInt8) (d : Nat) (h : digitValue c = some d) (hd : d < 10) : DigitString 10 [c] :=
  fun x hx => Or.inr ⟨d, by rw [List.mem_singleton.1 hx]; exact h, hd⟩

example : (LineShape.inverted (fun _ => []) bytes!"A" (.span bytes!"0" bytes!"1") []).Ok ∧
    (LineShape.inverted (fun _ => []) bytes!"A" (.span bytes!"0" bytes!"1") []).text = bytes!"A[0:1]" :=
  ⟨⟨noGaps, nameA, ⟨oneDigit 0x30 0 (by decide) (by decide), oneDigit 0x31 1 (by decide) (by decide)⟩,
    (by decide : 0 % 65536 < 1 % 65536)⟩, rfl⟩

example : (LineShape.badFormat (fun _ => []) bytes!"A" .absent bytes!"1" 0x78 []).Ok ∧
    (LineShape.badFormat (fun _ => []) bytes!"A" .absent bytes!"1" 0x78 []).text = bytes!"A=1'x" := by
  refine ⟨⟨noGaps, nameA, trivial, Nat.lt_irrefl _, oneDigit 0x31 1 (by decide) (by decide),
    by unfold BlankChar; decide, ?_⟩, rfl⟩
  rintro ⟨b, hb⟩
  cases b <;> exact absurd hb (by decide)

example : (LineShape.openRange (fun _ => []) bytes!"A" (.bit bytes!"1") []).Ok ∧
    (LineShape.openRange (fun _ => []) bytes!"A" (.bit bytes!"1") []).text = bytes!"A[1" :=
  ⟨⟨noGaps, nameA, oneDigit 0x31 1 (by decide) (by decide), by simp, fun c hc => by cases hc⟩, rfl⟩

example : (LineShape.feature (fun _ => []) ⟨bytes!"A", .span bytes!"99" bytes!"0", .plain bytes!"5"⟩ []).Ok ∧
    FeatureText.TooWide ⟨bytes!"A", .span bytes!"99" bytes!"0", .plain bytes!"5"⟩ := by
  refine ⟨⟨noGaps, ⟨nameA.1, nameA.2, ⟨?_, oneDigit 0x30 0 (by decide) (by decide)⟩,
    oneDigit 0x35 5 (by decide) (by decide)⟩, (by decide : ¬ 99 % 65536 < 0 % 65536), fun c hc => by cases hc⟩,
    (by decide : 64 < 99 % 65536 - 0 % 65536 + 1), trivial⟩
  intro c hc
  exact oneDigit 0x39 9 (by decide) (by decide) c (by simpa using hc)

/-! ## Acceptance -/

theorem ending_head {ann : Bool} {post : Bytes} {as : List (Bytes × Bytes)} (h : Ending ann post as) (c : UInt8)
    (hc : post.head? = some c) : c = 0x23 ∨ c = 0x0d ∨ c = 0x7b := by
  cases h with
  | done => cases hc
  | comment s => cases hc; exact Or.inl rfl
  | cr s => cases hc; exact Or.inr (Or.inl rfl)
  | brace s _ => cases hc; exact Or.inr (Or.inr rfl)
  | annotations as s _ _ => cases hc; exact Or.inr (Or.inr rfl)

theorem endChar (c : UInt8) (h : c = 0x23 ∨ c = 0x0d ∨ c = 0x7b) :
    ¬ BlankChar c ∧ ¬ NameChar c ∧ c ≠ 0x3d ∧ c ≠ 0x5b ∧ c ≠ 0x27 ∧ ∀ r, ¬ DigitChar r c := by
  have hd : digitValue c = none := by rcases h with rfl | rfl | rfl <;> decide
  refine ⟨?_, ?_, ?_, ?_, ?_, ?_⟩
  · unfold BlankChar; rcases h with rfl | rfl | rfl <;> decide
  · rcases h with rfl | rfl | rfl <;> decide
  · rcases h with rfl | rfl | rfl <;> decide
  · rcases h with rfl | rfl | rfl <;> decide
  · rcases h with rfl | rfl | rfl <;> decide
  · rintro r (h' | ⟨d, h', _⟩)
    · rcases h with rfl | rfl | rfl <;> exact absurd h' (by decide)
    · rw [hd] at h'; cases h'

theorem ending_follows {ann : Bool} {post : Bytes} {as : List (Bytes × Bytes)} (h : Ending ann post as)
    (g : Nat → Bytes) (f : FeatureText) : Follows g f post := by
  intro c hc
  obtain ⟨h1, h2, h3, h4, h5, h6⟩ := endChar c (ending_head h c hc)
  refine ⟨h1, ?_⟩
  cases f.value with
  | absent =>
    refine ⟨h3, ?_⟩
    cases f.range with
    | absent => exact ⟨h4, fun _ => h2⟩
    | bit d => trivial
    | span hi lo => trivial
  | plain d => exact ⟨h5, fun _ => h6 10⟩
  | based w b d => exact fun _ => h6 _

theorem refused_true (tr es : List Event) : refused (fun _ => true) tr es = false := by
  induction es generalizing tr with
  | nil => rfl
  | cons e es ih => simp [refused, ih]

theorem heard_true (tr es : List Event) : heard (fun _ => true) tr es = es := by
  induction es generalizing tr with
  | nil => rfl
  | cons e es ih => simp [heard, ih]

theorem notes_severity (f : FeatureText) : severity (worst f.notes) < severity .skipped := by
  unfold FeatureText.notes
  cases f.value with
  | absent => dsimp only; split <;> decide
  | plain d => dsimp only; decide
  | based w b d => dsimp only; split <;> decide

/-- Shapes of statements. -/
theorem statement_shape (ann : Bool) (l : Bytes) (h : Statement ann l) :
    (∃ g post as, (LineShape.bare g post).Ok ∧ Ending ann post as ∧ l = g 0 ++ post) ∨
    (∃ g f post as, (LineShape.feature g f post).Ok ∧ Ending ann post as ∧ f.FitsRange ∧ ¬ f.TooWide ∧ l = f.text g ++ post) := by
  obtain ⟨g, hg, tail, as, hend, rfl | ⟨f, hs, hi, hw, hf, rfl⟩⟩ := h
  · exact Or.inl ⟨g, tail, as, ⟨hg, fun c hc =>
      ⟨(endChar c (ending_head hend c hc)).1, (endChar c (ending_head hend c hc)).2.1⟩⟩, hend, rfl⟩
  · exact Or.inr ⟨g, f, tail, as, ⟨hg, hs, hi, ending_follows hend g f⟩, hend, hf, hw, rfl⟩

theorem statement_oneLine (ann : Bool) (l : Bytes) (hnl : 0x0a ∉ l) (h : Statement ann l) : OneLine l := by
  rcases statement_shape ann l h with ⟨g, post, as, hok, _, rfl⟩ | ⟨g, f, post, as, hok, _, _, _, rfl⟩
  · exact C71_one_line _ hok hnl (by intro _ _ _ _ h; cases h)
  · exact C71_one_line _ hok hnl (by intro _ _ _ _ h; cases h)

/-- Result of a parse that accepts: nothing worse than an oddity. -/
def Accepts (ann : Bool) (content : Bytes) : Prop :=
  ∃ st, parse ann (fun _ => true) content = .ok st ∧ severity st.result < severity .skipped

theorem digitBits_le (g : Nat → Bytes) (f : FeatureText) (post : Bytes) :
    f.value.digitBits ≤ 4 * (f.text g ++ post).length := by
  cases hv : f.value with
  | absent => simp [ValueText.digitBits]
  | plain d => simp [ValueText.digitBits]
  | based w b d =>
    have h1 : (digitsOf d).length ≤ d.length := List.length_filterMap_le _ _
    have h2 : d.length ≤ (f.text g ++ post).length := by
      simp [FeatureText.text, hv, ValueText.text]; omega
    cases b <;> simp only [ValueText.digitBits, Base.digitBits] <;> omega

/-- **The language the parser accepts**: a line is read without error and without being skipped
exactly when it is a statement of the format.  (Lines shorter than 2^28 characters; the callback
accepts every call.) -/
theorem C71_accepted_iff (ann : Bool) (l : Bytes) (hnl : 0x0a ∉ l) (hlen : l.length < 2 ^ 28) :
    Accepts ann (l ++ [0x0a]) ↔ Statement ann l := by
  constructor
  · rintro ⟨st, hst, hsev⟩
    have herr : st.result ≠ .error := by intro h; rw [h] at hsev; exact absurd hsev (by decide)
    obtain ⟨s, hok, rfl⟩ := shape_exists l
    cases s with
    | bare g post =>
      by_cases hend : ∃ as, Ending ann post as
      · obtain ⟨as, has⟩ := hend
        exact ⟨g, hok.1, post, as, has, Or.inl rfl⟩
      · obtain ⟨st', h1, h2, _⟩ := (C71_bare ann _ g post hok hnl).2 hend
        rw [show (LineShape.bare g post).text = g 0 ++ post from rfl, h1] at hst
        cases hst
        exact absurd h2 herr
    | feature g f post =>
      rw [show (LineShape.feature g f post).text = f.text g ++ post from rfl] at *
      by_cases hw : f.TooWide
      · obtain ⟨st', h1, h2, _⟩ := C71_too_wide ann _ g f post hok hnl hw
        rw [h1] at hst; cases hst
        exact absurd h2 herr
      by_cases hfit : f.FitsRange
      · by_cases hend : ∃ as, Ending ann post as
        · obtain ⟨as, has⟩ := hend
          exact ⟨g, hok.1, post, as, has, Or.inr ⟨f, hok.2.1, hok.2.2.1, hw, hfit, rfl⟩⟩
        · obtain ⟨st', h1, h2, _⟩ := (C71_feature ann _ g f post hok hnl hfit hw).2 hend
          rw [h1] at hst; cases hst
          exact absurd h2 herr
      · rw [C71_misfit ann _ (fun _ => rfl) g f post hok hnl hfit hw (by have := digitBits_le g f post; omega)] at hst
        cases hst
    | openRange g name r post =>
      rw [C71_open_range ann _ g name r post hok hnl] at hst; cases hst
      exact absurd rfl herr
    | inverted g name r post =>
      rw [C71_inverted ann _ g name r post hok hnl] at hst; cases hst
      exact absurd hsev (by decide)
    | badFormat g name r w c post =>
      have h := C71_bad_format ann (fun _ => true) g name r w c post hok hnl
      by_cases hs : r.size ≤ 64
      · rw [h.1 hs] at hst; cases hst
        exact absurd rfl herr
      · rw [h.2 (by omega)] at hst; cases hst
    | dangling g name r w =>
      rw [(C71_dangling ann _ g name r w hok hnl).1] at hst; cases hst
  · intro h
    rcases statement_shape ann l h with ⟨g, post, as, hok, hend, rfl⟩ | ⟨g, f, post, as, hok, hend, hfit, hw, rfl⟩
    · exact ⟨_, (C71_bare ann _ g post hok hnl).1 as hend, (by decide : severity .success < severity .skipped)⟩
    · refine ⟨_, (C71_feature ann _ g f post hok hnl hfit hw).1 as hend, ?_⟩
      rw [refused_true]
      simp only [Bool.false_eq_true, if_false, List.append_nil]
      exact notes_severity f

theorem combine_result (k : Nat) (a b : St) (n : Nat) :
    severity (combine k a b).result < n ↔ severity a.result < n ∧ severity b.result < n := by
  simp only [combine]
  split <;> omega

theorem accepts_lines (ann : Bool) (ms : List Bytes) (h : ∀ m ∈ ms, OneLine m) (hn : ms.length < 2 ^ 32 - 1) :
    Accepts ann (unlines ms) ↔ ∀ m ∈ ms, Accepts ann (m ++ [0x0a]) := by
  obtain ⟨n, hlen⟩ : ∃ n, ms.length = n := ⟨_, rfl⟩
  induction n generalizing ms with
  | zero =>
    have : ms = [] := List.eq_nil_of_length_eq_zero hlen
    subst this
    exact ⟨fun _ m hm => absurd hm (by simp), fun _ => ⟨{}, rfl, by decide⟩⟩
  | succ n ih =>
    have hne : ms ≠ [] := by rintro rfl; simp at hlen
    obtain ⟨as, l, rfl⟩ : ∃ as l, ms = as ++ [l] :=
      ⟨ms.dropLast, ms.getLast hne, (List.dropLast_concat_getLast hne).symm⟩
    have hlen' : as.length = n := by simpa using hlen
    have has : ∀ x ∈ as, OneLine x := fun x hx => h x (by simp [hx])
    have hl : OneLine l := h l (by simp)
    have iha := ih as has (by omega) hlen'
    have hs := C71_last_line ann (fun _ => true) as l has hl (by omega)
    have hiff : Accepts ann (unlines (as ++ [l])) ↔ Accepts ann (unlines as) ∧ Accepts ann (l ++ [0x0a]) := by
      unfold Accepts
      rw [hs]
      constructor
      · rintro ⟨st, e, hsev⟩
        cases hp : parse ann (fun _ => true) (unlines as) with
        | oob => rw [hp] at e; cases e
        | shift => rw [hp] at e; cases e
        | ok st0 =>
          rw [hp] at e
          simp only [Res.bind] at e
          cases hp1 : parse ann (fun _ => true) (l ++ [0x0a]) with
          | oob => rw [hp1] at e; cases e
          | shift => rw [hp1] at e; cases e
          | ok st1 =>
            rw [hp1] at e
            cases e
            obtain ⟨h1, h2⟩ := (combine_result _ _ _ _).1 hsev
            exact ⟨⟨st0, rfl, h1⟩, st1, rfl, h2⟩
      · rintro ⟨⟨st0, h0, s0⟩, st1, h1, s1⟩
        refine ⟨combine as.length st0 st1, ?_, (combine_result _ _ _ _).2 ⟨s0, s1⟩⟩
        rw [h0]
        simp only [Res.bind]
        rw [h1]
    rw [hiff, iha]
    constructor
    · rintro ⟨h1, h2⟩ m hm
      rcases List.mem_append.1 hm with hm | hm
      · exact h1 m hm
      · rw [List.mem_singleton.1 hm]; exact h2
    · intro h
      exact ⟨fun m hm => h m (by simp [hm]), h l (by simp)⟩

theorem swallowed_rejected (ann : Bool) (l : Bytes) (hnl : 0x0a ∉ l) (h : Dangles l) :
    ¬ Accepts ann (l ++ bytes!"?" ++ [0x0a]) := by
  obtain ⟨g, name, r, w, hok, rfl⟩ := h
  have hbad : (LineShape.badFormat g name r w 0x3f []).Ok := by
    obtain ⟨hg, hn, hr, hinv, hw⟩ := hok
    refine ⟨hg, hn, hr, hinv, hw, by unfold BlankChar; decide, ?_⟩
    rintro ⟨b, hb⟩
    cases b <;> exact absurd hb (by decide)
  have e1 : (LineShape.dangling g name r w).text ++ bytes!"?" = (LineShape.badFormat g name r w 0x3f []).text := by
    simp [LineShape.text]
  have hb := C71_bad_format ann (fun _ => true) g name r w 0x3f [] hbad (by rw [← e1]; simp [hnl])
  rw [e1]
  rintro ⟨st, hst, hsev⟩
  by_cases hs : r.size ≤ 64
  · rw [hb.1 hs] at hst; cases hst
    exact absurd hsev (by decide : ¬ severity .error < severity .skipped)
  · rw [hb.2 (by omega)] at hst; cases hst

theorem reads_same {ls ms : List Bytes} (hr : Reads ls ms false) {ann : Bool} :
    (∀ l ∈ ls, 0x0a ∉ l) → (∀ m ∈ ms, Accepts ann (m ++ [0x0a])) → ls = ms := by
  generalize hb : false = b at hr
  induction hr with
  | nil => intros; rfl
  | last l h => cases hb
  | line h t ih =>
    intro hn ha
    rw [ih hb (fun x hx => hn x (List.mem_cons_of_mem _ hx)) fun x hx => ha x (List.mem_cons_of_mem _ hx)]
  | swallow h t ih =>
    intro hn ha
    exact absurd (ha _ List.mem_cons_self) (swallowed_rejected ann _ (hn _ List.mem_cons_self) h)

theorem reads_length {ls ms : List Bytes} {b : Bool} (hr : Reads ls ms b) : ms.length ≤ ls.length := by
  induction hr with
  | nil => exact Nat.le_refl _
  | last l h => simp
  | line h t ih => simpa using ih
  | swallow h t ih => simp; omega

/-- A whole text is accepted exactly when every line is a statement. -/
theorem C71_accepted_text_iff (ann : Bool) (ls : List Bytes) (hnl : ∀ l ∈ ls, 0x0a ∉ l)
    (hlen : ∀ l ∈ ls, l.length < 2 ^ 28) (hn : ls.length < 2 ^ 32 - 1) :
    Accepts ann (unlines ls) ↔ ∀ l ∈ ls, Statement ann l := by
  constructor
  · intro h
    obtain ⟨ms, b, hr⟩ := reads_exists _ ls (Nat.le_refl _)
    have hp := parse_reads ann (fun _ => true) hr hnl
    have hb : b = false := by
      cases b with
      | false => rfl
      | true =>
        obtain ⟨st, hst, _⟩ := h
        rw [hp] at hst
        cases hq : parse ann (fun _ => true) (unlines ms) <;> rw [hq] at hst <;> cases hst
    subst hb
    simp only [Bool.false_eq_true, if_false] at hp
    rw [bind_ok_self] at hp
    have hm := reads_lines hr hnl
    have ha : ∀ m ∈ ms, Accepts ann (m ++ [0x0a]) := by
      refine (accepts_lines ann ms hm (by have := reads_length hr; omega)).1 ?_
      unfold Accepts at h ⊢
      rw [hp] at h
      exact h
    have e := reads_same hr hnl ha
    subst e
    intro l hl
    exact (C71_accepted_iff ann l (hnl l hl) (hlen l hl)).1 (ha l hl)
  · intro h
    refine (accepts_lines ann ls (fun l hl => statement_oneLine ann l (hnl l hl) (h l hl)) hn).2 ?_
    intro l hl
    exact (C71_accepted_iff ann l (hnl l hl) (hlen l hl)).2 (h l hl)

/-- ` A.B [ 7 : 4 ] = 4 ' b 1_010 # x` is a statement; `A[1` and `A[0:1]` are not. -/
example : Statement false (exampleFeature.text oneBlank ++ exampleComment) ∧
    ¬ Statement false bytes!"A[1" ∧ ¬ Statement false bytes!"A[0:1]" := by
  refine ⟨⟨oneBlank, oneBlank_blank, exampleComment, [], .comment _, Or.inr ⟨exampleFeature, ?_, ?_, ?_, ?_, rfl⟩⟩, ?_, ?_⟩
  · have h := exampleFeature_wf
    exact ⟨h.1, h.2.1, ⟨h.2.2.1.1, h.2.2.1.2.2.2.1⟩, ⟨h.2.2.2.1, h.2.2.2.2.2.1⟩⟩
  · show ¬ (7 < 4); decide
  · rintro ⟨h, _⟩; exact absurd h (by decide)
  · show _ = _; decide
  · rw [← C71_accepted_iff false _ (by decide) (by decide)]
    rintro ⟨st, h, hs⟩
    have : parse false (fun _ => true) (bytes!"A[1" ++ [0x0a]) =
      .ok { result := .error, trace := [], diags := [(1, .error)] } := by decide +kernel
    rw [this] at h; cases h
    exact absurd hs (by decide)
  · rw [← C71_accepted_iff false _ (by decide) (by decide)]
    rintro ⟨st, h, hs⟩
    have : parse false (fun _ => true) (bytes!"A[0:1]" ++ [0x0a]) =
      .ok { result := .skipped, trace := [], diags := [(1, .skipped)] } := by decide +kernel
    rw [this] at h; cases h
    exact absurd hs (by decide)

/-! ## Undefined behaviour, exactly -/

/-- A line that stands for itself executes an undefined shift exactly when its value does not have as
many 64-bit chunks as its range (and is not a plain, decimal or octal number), or its number format is
unknown and its range wider than 64 bits. -/
theorem C27_shift_iff (ann : Bool) (l : Bytes) (hnl : 0x0a ∉ l) (hlen : l.length < 2 ^ 28) :
    parse ann (fun _ => true) (l ++ [0x0a]) = .shift ↔
      (∃ g f post, (LineShape.feature g f post).Ok ∧ ¬ f.FitsRange ∧ ¬ f.TooWide ∧ l = f.text g ++ post) ∨
      (∃ g name r w c post, (LineShape.badFormat g name r w c post).Ok ∧ 64 < r.size ∧
        l = (LineShape.badFormat g name r w c post).text) := by
  constructor
  · intro h
    obtain ⟨s, hok, rfl⟩ := shape_exists l
    cases s with
    | bare g post =>
      by_cases hend : ∃ as, Ending ann post as
      · obtain ⟨as, has⟩ := hend
        rw [show (LineShape.bare g post).text = g 0 ++ post from rfl,
          (C71_bare ann _ g post hok hnl).1 as has] at h
        cases h
      · obtain ⟨st', h1, h2, _⟩ := (C71_bare ann (fun _ => true) g post hok hnl).2 hend
        rw [show (LineShape.bare g post).text = g 0 ++ post from rfl, h1] at h
        cases h
    | feature g f post =>
      rw [show (LineShape.feature g f post).text = f.text g ++ post from rfl] at *
      by_cases hw : f.TooWide
      · obtain ⟨st', h1, h2, _⟩ := C71_too_wide ann (fun _ => true) g f post hok hnl hw
        rw [h1] at h; cases h
      by_cases hfit : f.FitsRange
      · by_cases hend : ∃ as, Ending ann post as
        · obtain ⟨as, has⟩ := hend
          rw [(C71_feature ann _ g f post hok hnl hfit hw).1 as has] at h; cases h
        · obtain ⟨st', h1, h2, _⟩ := (C71_feature ann (fun _ => true) g f post hok hnl hfit hw).2 hend
          rw [h1] at h; cases h
      · exact Or.inl ⟨g, f, post, hok, hfit, hw, rfl⟩
    | openRange g name r post => rw [C71_open_range ann _ g name r post hok hnl] at h; cases h
    | inverted g name r post => rw [C71_inverted ann _ g name r post hok hnl] at h; cases h
    | badFormat g name r w c post =>
      by_cases hs : r.size ≤ 64
      · rw [(C71_bad_format ann (fun _ => true) g name r w c post hok hnl).1 hs] at h; cases h
      · exact Or.inr ⟨g, name, r, w, c, post, hok, by omega, rfl⟩
    | dangling g name r w => rw [(C71_dangling ann _ g name r w hok hnl).1] at h; cases h
  · rintro (⟨g, f, post, hok, hfit, hw, rfl⟩ | ⟨g, name, r, w, c, post, hok, hs, rfl⟩)
    · exact C71_misfit ann _ (fun _ => rfl) g f post hok hnl hfit hw (by have := digitBits_le g f post; omega)
    · exact (C71_bad_format ann (fun _ => true) g name r w c post hok hnl).2 hs

theorem reportChunks_not_oob (cb : List Event → Bool) (line : Nat) (name : Bytes) (lo width total : Nat) :
    ∀ (cs : List Nat) (i : Nat) (st : St), reportChunks cb line name lo width total i cs st ≠ .oob := by
  intro cs
  induction cs with
  | nil => intro i st h; cases h
  | cons c cs ih =>
    intro i st
    unfold reportChunks
    dsimp only
    split
    · intro h; cases h
    · split
      · exact ih _ _
      · intro h; cases h

theorem lineP_not_oob (ann : Bool) (cb : List Event → Bool) (st : St) (line : Nat) (s : Bytes) :
    lineP ann cb st line s ≠ .oob := by
  rw [lineP_body]
  unfold bodyP
  split
  · intro h; cases h
  · split
    · intro h; cases h
    · intro h; cases h
    · rename_i maxBit minBit _
      dsimp only
      generalize hr : reportChunks cb line _ minBit _ _ 0 _ _ = r
      cases r with
      | oob => exact absurd hr (reportChunks_not_oob _ _ _ _ _ _ _ _ _)
      | shift => intro h; cases h
      | ok st => intro h; cases h

theorem linesP_not_oob (ann : Bool) (cb : List Event → Bool) (ls : List Bytes) : ∀ (line : Nat) (st : St),
    linesP ann cb line st ls ≠ .oob := by
  induction ls with
  | nil => intro line st h; cases h
  | cons l ls ih =>
    intro line st
    rw [linesP]
    cases hl : lineP ann cb st ((line + 1) % 2 ^ 32) l with
    | oob => exact absurd hl (lineP_not_oob _ _ _ _ _)
    | shift => intro h; cases h
    | ok st' => exact ih _ _

/-- The parser reads outside its input exactly when, reading the text as in `Reads`, the last line
left stops after the tick of its value (and no earlier line executes an undefined shift). -/
theorem C24_exact (ann : Bool) (cb : List Event → Bool) (content : Bytes) :
    parse ann cb content = .oob ↔
      ∃ ls ms, content = unlines ls ∧ (∀ l ∈ ls, 0x0a ∉ l) ∧ Reads ls ms true ∧
        parse ann cb (unlines ms) ≠ .shift := by
  constructor
  · intro h
    rcases C71_text content with ⟨s, c, rfl, hc⟩ | ⟨ls, ms, b, e, hn, hr, hm, hp⟩
    · rw [C24_no_newline ann cb s c hc] at h; cases h
    · have hpp := hp ann cb
      rw [h] at hpp
      have hno : parse ann cb (unlines ms) ≠ .oob := by
        rw [parse_one_lines ann cb ms hm]; exact linesP_not_oob _ _ _ _ _
      cases hq : parse ann cb (unlines ms) with
      | oob => exact absurd hq hno
      | shift => rw [hq] at hpp; cases hpp
      | ok st =>
        rw [hq] at hpp
        cases b with
        | false => cases hpp
        | true => exact ⟨ls, ms, e, hn, hr, by rw [hq]; intro h; cases h⟩
  · rintro ⟨ls, ms, rfl, hn, hr, hs⟩
    rw [parse_reads ann cb hr hn]
    cases hq : parse ann cb (unlines ms) with
    | oob => rfl
    | shift => exact absurd hq hs
    | ok st => rfl

/-! ## C28 for every text -/

theorem reads_append {l1 m1 : List Bytes} {b1 : Bool} (h1 : Reads l1 m1 b1) {l2 m2 : List Bytes} {b : Bool} (h2 : Reads l2 m2 b) :
    b1 = false → Reads (l1 ++ l2) (m1 ++ m2) b := by
  induction h1 with
  | nil => intro _; exact h2
  | last l h => intro h; cases h
  | line h _ ih => intro hb; exact .line h (ih hb)
  | swallow h _ ih => intro hb; exact .swallow h (ih hb)

/-- What was reported stays, and the result does not improve. -/
theorem closed_extends (cb : List Event → Bool) (st0 : Fasm.St) : Closed cb fun st =>
    st0.result.rank ≤ st.result.rank ∧ (∃ calls, st.trace = st0.trace ++ calls) ∧ ∃ diags, st.diags = st0.diags ++ diags where
  report := by
    rintro st line sev _ ⟨h1, h2, ds, h3⟩
    refine ⟨Nat.le_trans h1 ?_, h2, ds ++ [(line, sev)], by simp [Fasm.St.report, h3]⟩
    simp only [Fasm.St.report]
    cases st.result <;> cases sev <;> decide
  feature := by
    rintro st line name start w bits _ _ _ ⟨h1, ⟨cs, h2⟩, h3⟩
    refine ⟨Nat.le_trans h1 ?_, ⟨cs ++ [_], by simp [h2]; rfl⟩, h3⟩
    dsimp only
    split
    · exact Nat.le_refl _
    · cases st.result <;> decide
  annotation := by
    rintro st line f n v ⟨h1, ⟨cs, h2⟩, h3⟩
    exact ⟨h1, ⟨cs ++ [.annotation line f n v], by simp [h2]⟩, h3⟩

/-- More text behind a text of whole lines, whatever both contain: the calls and diagnostics of the first text are the first ones, and the
result is not better. -/
theorem C28_later (ann : Bool) (cb : List Event → Bool) (content more : Bytes) (hc : content = [] ∨ content.getLast? = some 0x0a)
    (hm : more = [] ∨ more.getLast? = some 0x0a) (st st' : Fasm.St) (h : parse ann cb content = .ok st)
    (h' : parse ann cb (content ++ more) = .ok st') :
    severity st.result ≤ severity st'.result ∧ (∃ calls, st'.trace = st.trace ++ calls) ∧ ∃ diags, st'.diags = st.diags ++ diags := by
  obtain ⟨l1, rfl, hn1⟩ := lines_of content hc
  obtain ⟨l2, rfl, hn2⟩ := lines_of more hm
  obtain ⟨m1, b1, r1⟩ := reads_exists l1.length l1 (Nat.le_refl _)
  obtain ⟨m2, b2, r2⟩ := reads_exists l2.length l2 (Nat.le_refl _)
  rw [parse_lines' ann cb r1 hn1] at h
  cases hl : linesP ann cb 0 {} m1 with
  | oob => rw [hl] at h; cases h
  | shift => rw [hl] at h; cases h
  | ok s1 =>
    rw [hl] at h
    cases b1 with
    | true => cases h
    | false =>
      simp only [Res.bind, Bool.false_eq_true, if_false, Res.ok.injEq] at h
      subst h
      rw [← unlines_append, parse_lines' ann cb (reads_append r1 r2 rfl) (by
        intro l hl
        rcases List.mem_append.1 hl with h | h
        · exact hn1 l h
        · exact hn2 l h), linesP_append ann cb m2 m1 0 {} (by decide), hl] at h'
      have hx := parseLines_reads ann cb r2 hn2 _ ((0 + m1.length) % 2 ^ 32) s1 (Nat.le_refl _)
      simp only [Res.bind] at h'
      have h'' : parseLines ann cb (unlines l2).length ((0 + m1.length) % 2 ^ 32) s1 (unlines l2) = .ok st' := hx.trans h'
      have hi := (closed_extends cb s1).lines ann (unlines l2).length ((0 + m1.length) % 2 ^ 32) s1 (unlines l2)
        ⟨Nat.le_refl _, ⟨[], by simp⟩, ⟨[], by simp⟩⟩
      rw [h''] at hi
      refine ⟨?_, hi.2⟩
      have hr : ∀ a b : Sev, a.rank ≤ b.rank → severity a ≤ severity b := by intro a b; cases a <;> cases b <;> decide
      exact hr _ _ hi.1

/-- The hypotheses are met also where a line swallows the next one. -/
example : ∃ st st', parse false (fun _ => true) bytes!"FOO='\nBAR\n" = .ok st ∧ st.result = .error ∧
    parse false (fun _ => true) (bytes!"FOO='\nBAR\n" ++ bytes!"BAZ\n") = .ok st' ∧ st'.trace.length = 2 :=
  ⟨_, _, rfl, rfl, rfl, rfl⟩

end Verif.Props
