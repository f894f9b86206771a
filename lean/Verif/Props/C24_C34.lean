import Verif.Proofs.FasmProps
import Verif.Proofs.FasmRel
/-! # C24–C34: the FASM parser

`parse ann cb content` is the outcome of `fasm::Parse`: `ok st` with the callback calls, the
diagnostics and the result; `oob` if it reads outside `content`; `shift` if it executes an undefined
shift.  `cb tr` is the answer of the feature callback to the last call of the history `tr`. -/
namespace Verif.Props
open Verif.Fasm Verif.Spec

/-! Concrete lines used as witnesses. -/

/-- `A.B[7:4] = 4'b1_010` with blanks where the example gap function puts them. -/
def exampleFeature : FeatureText :=
  { name := bytes!"A.B", range := .span bytes!"7" bytes!"4",
    value := .based bytes!"4" .bin bytes!"1_010" }

theorem exampleFeature_wf : exampleFeature.WellFormed := by
  refine ⟨by decide, ?_, ?_, ?_⟩
  · intro c hc
    simp only [exampleFeature, List.mem_cons, List.not_mem_nil, or_false] at hc
    rcases hc with rfl | rfl | rfl <;> decide
  · exact ⟨fun c hc => Or.inr ⟨7, by rw [List.mem_singleton.1 hc]; decide, by decide⟩, by decide, by decide,
      fun c hc => Or.inr ⟨4, by rw [List.mem_singleton.1 hc]; decide, by decide⟩, by decide, by decide⟩
  · refine ⟨fun c hc => Or.inr ⟨4, by rw [List.mem_singleton.1 hc]; decide, by decide⟩, by decide, ?_, by decide⟩
    intro c hc
    simp only [List.mem_cons, List.not_mem_nil, or_false] at hc
    rcases hc with rfl | rfl | rfl | rfl | rfl
    · exact Or.inr ⟨1, by decide, by decide⟩
    · exact Or.inl rfl
    · exact Or.inr ⟨0, by decide, by decide⟩
    · exact Or.inr ⟨1, by decide, by decide⟩
    · exact Or.inr ⟨0, by decide, by decide⟩

/-- Digit strings can be checked digit by digit. -/
theorem digitString_of (radix : Nat) (s : Bytes)
    (h : s.all (fun c => c == 0x5f || (digitValue c).any (fun d => decide (d < radix))) = true) : DigitString radix s := by
  intro c hc
  have := List.all_eq_true.1 h c hc
  rcases (Bool.or_eq_true _ _).mp this with h | h
  · exact Or.inl (eq_of_beq h)
  · obtain ⟨d, h1, h2⟩ := Option.any_eq_true _ _ |>.1 h
    exact Or.inr ⟨d, h1, of_decide_eq_true h2⟩

/-- `F[hi:0]=width'h…`, `F[hi:0]` -/
def wideFeature (hi : Bytes) (value : ValueText) : FeatureText := { name := bytes!"F", range := .span hi bytes!"0", value }

theorem wideFeature_wf (hi : Bytes) (value : ValueText) (h1 : DigitString 10 hi) (h2 : digitsOf hi ≠ []) (h3 : numVal 10 hi < 65536)
    (hv : value.WellFormed) : (wideFeature hi value).WellFormed :=
  ⟨by simp [wideFeature], by intro c hc; rw [List.mem_singleton.1 hc]; decide,
    ⟨h1, h2, h3, digitString_of 10 bytes!"0" (by decide), by decide, Nat.zero_le _⟩, hv⟩

/-- No blanks at all. -/
def noBlank : Nat → Bytes := fun _ => []
theorem noBlank_blank (i : Nat) : Blank (noBlank i) := fun _ hc => by cases hc
theorem nothing_end : LineEnd [] := ⟨by decide, Or.inl rfl⟩

/-- One blank in every gap. -/
def oneBlank : Nat → Bytes := fun _ => [0x20]
theorem oneBlank_blank (i : Nat) : Blank (oneBlank i) := fun _ hc => Or.inl (List.mem_singleton.1 hc)

/-- A comment. -/
def exampleComment : Bytes := bytes!"# x"
theorem exampleComment_end : LineEnd exampleComment := ⟨by decide, Or.inr (Or.inl rfl)⟩

/-! ## C24 -/

/-- Parsing stays inside its input unless the text ends in a tick outside a comment. -/
theorem C24_inside_partial (ann : Bool) (cb : List Event → Bool) (content : Bytes) (h : NoFinalTick content) :
    parse ann cb content ≠ .oob :=
  parse_not_oob ann cb content (noFinalTick_safe h)

example : NoFinalTick (exampleFeature.text oneBlank ++ exampleComment ++ [0x0a]) := by
  intro pre blanks hb e
  have h := text_line oneBlank oneBlank_blank exampleFeature exampleFeature_wf exampleComment exampleComment_end
  have e2 : pre ++ 0x27 :: blanks = exampleFeature.text oneBlank ++ exampleComment := by
    rw [← List.cons_append, ← List.append_assoc] at e
    exact ((List.append_inj' e rfl).1).symm
  have hm := h.2 pre blanks hb e2.symm
  obtain ⟨a, b, hab⟩ := List.append_of_mem hm
  refine ⟨a, b, hab, fun hnl => h.1 ?_⟩
  rw [← e2, hab]; simp [hnl]

/-- `FOO='` and a newline: the parser reads past the end of its input. -/
theorem C24_defect (ann : Bool) (cb : List Event → Bool) :
    parse ann cb bytes!"FOO='\n" = .oob := by
  cases ann <;> rfl

/-- `FOO='`, newline, `BAR`, newline: the second feature is lost. -/
theorem C24_swallows_line :
    parse false (fun _ => true) bytes!"FOO='\nBAR\n" =
      .ok { result := .error, trace := [.feature 1 bytes!"FOO" 0 1 1], diags := [(1, .error)] } := by
  decide +kernel

/-- A text without final newline is rejected without any call. -/
theorem C24_no_newline (ann : Bool) (cb : List Event → Bool) (content : Bytes) (c : UInt8) (hc : c ≠ 0x0a) :
    parse ann cb (content ++ [c]) = .ok { result := .error, trace := [], diags := [(0, .error)] } := by
  unfold parse
  rw [List.getLast?_append]
  simp only [List.getLast?_singleton, Option.some_or]
  rw [if_pos hc]
  rfl

/-! ## C25 -/

/-- A well-formed line with a range of at most 64 bits, whatever the white space and the comment,
makes exactly one feature call: the name, the low bit, the width and the value modulo `2^width`. -/
theorem C25_line (ann : Bool) (cb : List Event → Bool) (g : Nat → Bytes) (hg : ∀ i, Blank (g i))
    (f : FeatureText) (hf : f.WellFormed) (e : Bytes) (he : LineEnd e)
    (hw : f.range.width ≤ 64) (hd : f.value.digitBits ≤ 64) :
    let call := Event.feature 1 f.name f.range.lo f.range.width (f.value.val % 2 ^ f.range.width)
    parse ann cb (f.text g ++ e ++ [0x0a]) =
      .ok { trace := [call],
            diags := f.warnings.map fun s => (1, s),
            result := worst (f.warnings ++ if cb [call] then [] else [.userAbort]) } := by
  intro call
  have hc := clamps_narrow f hw
  rw [parse_single ann cb _ (text_line g hg f hf e he),
    parse_narrow ann cb g hg f hf e (LineEnd.stop he) f.range.width (by rw [hc]; rfl) hw hd, LineEnd.tail he]
  simp only [hc, Bool.false_eq_true, if_false, List.append_nil, List.nil_append, success_max, worst_append]
  congr 2
  split <;> rfl

example : (exampleFeature.text oneBlank ++ exampleComment ++ [0x0a]) =
    -- ` A.B [ 7 : 4 ] = 4 ' b 1_010 # x`
    bytes!" A.B [ 7 : 4 ] = 4 ' b 1_010 # x\n" ∧
    exampleFeature.range.width ≤ 64 ∧ exampleFeature.value.digitBits ≤ 64 ∧
    exampleFeature.range.lo = 4 ∧ exampleFeature.range.width = 4 ∧ exampleFeature.value.val = 10 := by
  decide

/-- A plain, decimal or octal value for a range of more than 64 bits is an error; 64 bits are
delivered nevertheless. -/
theorem C25_integer_too_wide (ann : Bool) (cb : List Event → Bool) (g : Nat → Bytes) (hg : ∀ i, Blank (g i))
    (f : FeatureText) (hf : f.WellFormed) (e : Bytes) (he : LineEnd e)
    (hw : 64 < f.range.width) (hi : f.value.IsInteger) :
    parse ann cb (f.text g ++ e ++ [0x0a]) =
      .ok { trace := [.feature 1 f.name f.range.lo 64 (f.value.val % 2 ^ 64)],
            diags := (f.warnings ++ [Sev.error]).map fun s => (1, s),
            result := .error } := by
  have hc := clamps_integer f hw hi
  rw [parse_single ann cb _ (text_line g hg f hf e he),
    parse_narrow ann cb g hg f hf e (LineEnd.stop he) 64 (by rw [hc]; rfl) (by decide)
      (by rw [integer_digitBits _ hi]; decide), LineEnd.tail he]
  simp only [hc, if_true, List.nil_append, success_max, worst_append, worst_single]
  congr 2
  generalize worst f.warnings = x
  split <;> cases x <;> rfl

/-- `F[64:0] = 5` -/
example : ∃ f : FeatureText, f.WellFormed ∧ 64 < f.range.width ∧ f.value.IsInteger := by
  refine ⟨{ name := bytes!"F", range := .span bytes!"64" bytes!"0", value := .plain bytes!"5" },
    ⟨by decide, fun c hc => ?_, ⟨fun c hc => ?_, by decide, by decide, fun c hc => ?_, by decide, by decide⟩,
      ⟨fun c hc => ?_, by decide⟩⟩, by decide, trivial⟩
  · rw [List.mem_singleton.1 hc]; exact Or.inr (Or.inl (by decide))
  · simp only [List.mem_cons, List.not_mem_nil, or_false] at hc
    rcases hc with rfl | rfl
    · exact Or.inr ⟨6, by decide, by decide⟩
    · exact Or.inr ⟨4, by decide, by decide⟩
  · rw [List.mem_singleton.1 hc]; exact Or.inr ⟨0, by decide, by decide⟩
  · rw [List.mem_singleton.1 hc]; exact Or.inr ⟨5, by decide, by decide⟩

/-! ## C26 -/

/-- Specification sanity: `wideEvents` delivers the low `width` bits of the value. -/
theorem C26_wideEvents (line : Nat) (name : Bytes) (lo width v : Nat) :
    deliveredValue lo (wideEvents line name lo width v) = v % 2 ^ width :=
  delivered_wide line name lo width v

/-- What the parser delivers for a hexadecimal or binary value of any length: the chunks of the
value taken for `misread`. -/
theorem C26_delivered (ann : Bool) (g : Nat → Bytes) (hg : ∀ i, Blank (g i))
    (f : FeatureText) (hf : f.WellFormed) (e : Bytes) (he : LineEnd e)
    (hpos : 0 < f.value.digitBits) (hfit : (f.value.digitBits + 63) / 64 = (f.range.width + 63) / 64) :
    parse ann (fun _ => true) (f.text g ++ e ++ [0x0a]) =
      .ok { trace := wideEvents 1 f.name f.range.lo f.range.width (misread f.value.digitBits f.value.val),
            diags := f.warnings.map fun s => (1, s),
            result := worst f.warnings } := by
  rw [parse_single ann _ _ (text_line g hg f hf e he),
    parse_wide ann _ (fun _ => rfl) g hg f hf e (LineEnd.stop he) hpos hfit, LineEnd.tail he]
  simp only [List.nil_append, success_max]

/-- The value written is the value delivered when the number of digit bits is a multiple of 64 (or
at most 64).  Missing from the property: all other lengths, for which it is false. -/
theorem C26_delivered_partial (ann : Bool) (g : Nat → Bytes) (hg : ∀ i, Blank (g i))
    (f : FeatureText) (hf : f.WellFormed) (e : Bytes) (he : LineEnd e)
    (hpos : 0 < f.value.digitBits) (hfit : (f.value.digitBits + 63) / 64 = (f.range.width + 63) / 64)
    (haligned : f.value.digitBits % 64 = 0) :
    parse ann (fun _ => true) (f.text g ++ e ++ [0x0a]) =
      .ok { trace := wideEvents 1 f.name f.range.lo f.range.width f.value.val,
            diags := f.warnings.map fun s => (1, s),
            result := worst f.warnings } := by
  rw [C26_delivered ann g hg f hf e he hpos hfit, misread_aligned _ _ haligned]

/-- `F[127:0]=128'h00000000000000020000000000000001`, thirty-two digits for 128 bits: delivered as written, in two calls. -/
example (ann : Bool) : parse ann (fun _ => true) bytes!"F[127:0]=128'h00000000000000020000000000000001\n" =
    .ok { trace := [.feature 1 bytes!"F" 0 64 1, .feature 1 bytes!"F" 64 64 2] } := by
  have h := C26_delivered_partial ann noBlank noBlank_blank
    (wideFeature bytes!"127" (.based bytes!"128" .hex bytes!"00000000000000020000000000000001"))
    (wideFeature_wf _ _ (digitString_of _ _ (by decide)) (by decide) (by decide)
      ⟨digitString_of _ _ (by decide), by decide, digitString_of _ _ (by decide), by decide⟩)
    [] nothing_end (by decide) (by decide) (by decide)
  exact h.trans (by decide +kernel)

/-- `F[67:0] = 68'h10000000000000000` (17 digits): the value 2^64 is written, but the call for bits
0..63 delivers 0 and the one for bits 64..67 delivers 0 too, since the 17th digit is taken for the low chunk
and the first sixteen for the high one. -/
theorem C26_defect :
    parse false (fun _ => true)
      -- F[67:0]=68'h10000000000000000
      bytes!"F[67:0]=68'h10000000000000000\n" =
      .ok { trace := [.feature 1 bytes!"F" 0 64 0, .feature 1 bytes!"F" 64 4 0] } ∧
    wideEvents 1 bytes!"F" 0 68 (2 ^ 64) = [.feature 1 bytes!"F" 0 64 0, .feature 1 bytes!"F" 64 4 1] := by
  decide +kernel

/-! ## C27 -/

/-- Every feature call has a width of 1 to 64 and a value that fits it, for every input. -/
theorem C27_calls (ann : Bool) (cb : List Event → Bool) (content : Bytes) (st : St)
    (h : parse ann cb content = .ok st) (line : Nat) (name : Bytes) (start width : Int) (bits : Nat)
    (he : Event.feature line name start width bits ∈ st.trace) :
    1 ≤ width ∧ width ≤ 64 ∧ bits < 2 ^ width.toNat := by
  obtain ⟨h1, h2, h3⟩ := (closed_good cb).parse ann content st (by simp) h _ he
  refine ⟨h1, h2, ?_⟩
  have : ((2 : Int) ^ width.toNat) = ((2 ^ width.toNat : Nat) : Int) := by simp
  rw [this] at h3
  exact Int.ofNat_lt.1 h3

/-- For well-formed hexadecimal and binary values, the shifts are defined exactly when the number of
64-bit chunks written is the number of chunks of the range. -/
theorem C27_shift_partial (ann : Bool) (g : Nat → Bytes) (hg : ∀ i, Blank (g i))
    (f : FeatureText) (hf : f.WellFormed) (e : Bytes) (he : LineEnd e)
    (hpos : 0 < f.value.digitBits) (hlen : f.value.digitBits < 2 ^ 30) :
    parse ann (fun _ => true) (f.text g ++ e ++ [0x0a]) = .shift ↔
      (f.value.digitBits + 63) / 64 ≠ (f.range.width + 63) / 64 := by
  constructor
  · intro h hfit
    rw [C26_delivered ann g hg f hf e he hpos hfit] at h
    cases h
  · intro hfit
    rw [parse_single ann _ _ (text_line g hg f hf e he),
      parse_unfit ann _ (fun _ => rfl) g hg f hf e (LineEnd.stop he) hpos hlen hfit]

/-- A range of more than 64 bits without value always executes an undefined shift. -/
theorem C27_defect_no_value (ann : Bool) (g : Nat → Bytes) (hg : ∀ i, Blank (g i))
    (f : FeatureText) (hf : f.WellFormed) (e : Bytes) (he : LineEnd e)
    (hv : f.value = .absent) (hw : 64 < f.range.width) :
    parse ann (fun _ => true) (f.text g ++ e ++ [0x0a]) = .shift := by
  rw [parse_single ann _ _ (text_line g hg f hf e he),
      parse_absent_wide ann _ (fun _ => rfl) g hg f hf e (LineEnd.stop he) hv hw]

/-- `F[127:0]=128'b1`, `F[64:0]`: both hypotheses are met, by lines a user may well write. -/
example (ann : Bool) : parse ann (fun _ => true) bytes!"F[127:0]=128'b1\n" = .shift ∧ parse ann (fun _ => true) bytes!"F[64:0]\n" = .shift :=
  ⟨(C27_shift_partial ann noBlank noBlank_blank (wideFeature bytes!"127" (.based bytes!"128" .bin bytes!"1"))
      (wideFeature_wf _ _ (digitString_of _ _ (by decide)) (by decide) (by decide)
        ⟨digitString_of _ _ (by decide), by decide, digitString_of _ _ (by decide), by decide⟩) [] nothing_end (by decide) (by decide)).2 (by decide),
    C27_defect_no_value ann noBlank noBlank_blank (wideFeature bytes!"64" .absent)
      (wideFeature_wf _ _ (digitString_of _ _ (by decide)) (by decide) (by decide) trivial) [] nothing_end rfl (by decide)⟩

/-- `F[127:0]=128'h1`: undefined shift. -/
theorem C27_defect : parse false (fun _ => true)
    bytes!"F[127:0]=128'h1\n" = .shift := by
  decide +kernel

/-! ## C28 -/

/-- The result is the worst of the diagnostics and the aborted calls, for every input. -/
theorem C28_result (ann : Bool) (cb : List Event → Bool) (content : Bytes) (st : St)
    (h : parse ann cb content = .ok st) :
    st.result = worst (st.diags.map Prod.snd ++ abortsOf cb st.trace) :=
  ((closed_result cb).parse ann content st ⟨rfl, by simp⟩ h).1

/-- The result is success exactly when there is no diagnostic and every feature call was answered
`true`. -/
theorem C28_success (ann : Bool) (cb : List Event → Bool) (content : Bytes) (st : St)
    (h : parse ann cb content = .ok st) :
    st.result = .success ↔
      st.diags = [] ∧ ∀ pre e post, st.trace = pre ++ e :: post → isFeature e = true → cb (pre ++ [e]) = true := by
  obtain ⟨h1, h2⟩ := (closed_result cb).parse ann content st ⟨rfl, by simp⟩ h
  rw [h1, worst_success]
  constructor
  · intro hs
    constructor
    · cases hd : st.diags with
      | nil => rfl
      | cons d ds =>
        exact absurd (hs d.2 (by rw [hd]; simp)) (h2 d (by rw [hd]; simp))
    · intro pre e post ht he
      cases hcb : cb (pre ++ [e]) with
      | true => rfl
      | false =>
        have : Sev.userAbort ∈ abortsOf cb st.trace := by
          rw [ht]
          unfold abortsOf
          rw [List.mem_filterMap]
          refine ⟨pre.length, by simp, ?_⟩
          have e1 : (pre ++ e :: post).take (pre.length + 1) = pre ++ [e] := by
            rw [List.take_append, List.take_of_length_le (by omega)]; simp
          rw [e1]
          simp [he, hcb]
        exact absurd (hs _ (List.mem_append_right _ this)) (by decide)
  · rintro ⟨hd, hcb⟩ s hs
    rw [hd] at hs
    simp only [List.map_nil, List.nil_append] at hs
    unfold abortsOf at hs
    rw [List.mem_filterMap] at hs
    obtain ⟨i, hi, hs⟩ := hs
    have hi := List.mem_range.1 hi
    rw [List.take_succ_eq_append_getElem hi] at hs
    simp only [List.getLast?_append, List.getLast?_singleton, Option.some_or, Option.any_some] at hs
    by_cases he : isFeature st.trace[i] = true
    · have := hcb (st.trace.take i) st.trace[i] (st.trace.drop (i + 1)) (by simp) he
      rw [this] at hs
      simp at hs
    · simp [he] at hs

/-- Parsing further lines never improves the result. -/
theorem C28_monotone (ann : Bool) (cb : List Event → Bool) (ls : List Bytes) (l : Bytes)
    (hls : ∀ x ∈ ls, Line x) (hl : Line l) (hn : ls.length + 1 < 2 ^ 32) (st st' : St)
    (h : parse ann cb (unlines ls) = .ok st) (h' : parse ann cb (unlines (ls ++ [l])) = .ok st') :
    severity st.result ≤ severity st'.result := by
  rw [parse_snoc ann cb ls l hls hl hn, h] at h'
  simp only [Res.bind] at h'
  split at h'
  · cases h'
    simp only [combine]
    split <;> omega
  · cases h'
  · cases h'

example : ∃ st, parse false (fun _ => true) (unlines [bytes!"A", bytes!"?"]) = .ok st ∧ st.result = .error ∧
    st.trace = [.feature 1 bytes!"A" 0 1 1] := by
  refine ⟨{ result := .error, trace := [.feature 1 bytes!"A" 0 1 1], diags := [(2, .error)] }, ?_, rfl, rfl⟩
  decide +kernel

/-! ## C29 -/

/-- Parsing a file is parsing all but the last line, then the last line on its own, and combining
the two reports. -/
theorem C29_last_line (ann : Bool) (cb : List Event → Bool) (ls : List Bytes) (l : Bytes)
    (hls : ∀ x ∈ ls, Line x) (hl : Line l) (hn : ls.length + 1 < 2 ^ 32) :
    parse ann cb (unlines (ls ++ [l])) =
      (parse ann cb (unlines ls)).bind fun st =>
        (parse ann (fun tr => cb (st.trace ++ tr.map (renumber ls.length))) (unlines [l])).bind fun st1 =>
          .ok (combine ls.length st st1) :=
  parse_snoc ann cb ls l hls hl hn

/-- The whole-file parse and the parses of the single lines agree: same calls (up to line numbers),
and the result is the worst of the line results. -/
theorem C29_line_by_line (ann : Bool) (q : Event → Bool) (hq : ∀ e, q (eraseLine e) = q e) (ls : List Bytes)
    (hls : ∀ x ∈ ls, Line x) (hn : ls.length < 2 ^ 32 - 1) (st : St)
    (h : parse ann (fun tr => tr.getLast?.all q) (unlines ls) = .ok st) :
    ∃ sts : List St, sts.length = ls.length ∧
      (∀ i (hi : i < ls.length) (hi' : i < sts.length),
        parse ann (fun tr => tr.getLast?.all q) (ls[i] ++ [0x0a]) = .ok sts[i]) ∧
      st.trace.map eraseLine = sts.flatMap (fun s => s.trace.map eraseLine) ∧
      st.result = worst (sts.map (·.result)) := by
  obtain ⟨n, hlen⟩ : ∃ n, ls.length = n := ⟨_, rfl⟩
  induction n generalizing ls st with
  | zero =>
    have : ls = [] := List.eq_nil_of_length_eq_zero hlen
    subst this
    cases h
    exact ⟨[], rfl, by intro i hi; omega, rfl, rfl⟩
  | succ n ih =>
    have hne : ls ≠ [] := by rintro rfl; simp at hlen
    obtain ⟨as, l, rfl⟩ : ∃ as l, ls = as ++ [l] :=
      ⟨ls.dropLast, ls.getLast hne, (List.dropLast_concat_getLast hne).symm⟩
    have hlen' : as.length = n := by simpa using hlen
    have hl : Line l := hls l (by simp)
    have has : ∀ x ∈ as, Line x := fun x hx => hls x (by simp [hx])
    rw [parse_unlines ann _ _ hls, lines_snoc ann _ as l (by omega), ← parse_unlines ann _ as has] at h
    cases hp : parse ann (fun tr => tr.getLast?.all q) (unlines as) with
    | oob => rw [hp] at h; cases h
    | shift => rw [hp] at h; cases h
    | ok st0 =>
      rw [hp] at h
      simp only [Res.bind] at h
      rw [Nat.add_comm, line_alone ann q hq as.length st0 l, ← parse_single ann _ l hl] at h
      cases hp1 : parse ann (fun tr => tr.getLast?.all q) (l ++ [0x0a]) with
      | oob => rw [hp1] at h; cases h
      | shift => rw [hp1] at h; cases h
      | ok st1 =>
        rw [hp1] at h
        cases h
        obtain ⟨sts, e1, e2, e3, e4⟩ := ih as has (by omega) st0 hp hlen'
        refine ⟨sts ++ [st1], by simp [e1], ?_, ?_, ?_⟩
        · intro i hi hi'
          by_cases hlt : i < as.length
          · have := e2 i (by omega) (by omega)
            rw [List.getElem_append_left hlt, List.getElem_append_left (by omega)]
            exact this
          · have : i = as.length := by omega
            subst this
            rw [List.getElem_append_right (by omega), List.getElem_append_right (by omega)]
            simp [e1, hlen', hp1]
        · simp only [combine, List.map_append, erase_renumber, e3, List.flatMap_append]
          simp
        · simp only [combine, List.map_append, List.map_cons, List.map_nil, worst_append, worst_single, ← e4]
          rfl

/-- A line without tick is a line. -/
theorem line_without_tick (s : Bytes) (h : 0x0a ∉ s) (h1 : 0x27 ∉ s) : Line s :=
  ⟨h, fun pre blanks _ e => absurd (by rw [e]; simp) h1⟩

/-- `A`, `B[1:0]=3`, `?`: the file is its three lines. -/
example : ∃ (st : St) (sts : List St), parse false (fun tr => tr.getLast?.all fun _ => true) (unlines [bytes!"A", bytes!"B[1:0]=3", bytes!"?"]) = .ok st ∧
    sts.length = 3 ∧ st.trace.map eraseLine = sts.flatMap (fun s : St => s.trace.map eraseLine) ∧ st.trace.length = 2 ∧
    st.result = worst (sts.map (·.result)) := by
  obtain ⟨sts, h1, _, h2, h3⟩ := C29_line_by_line false (fun _ => true) (fun _ => rfl) [bytes!"A", bytes!"B[1:0]=3", bytes!"?"] (by
    intro x hx
    simp only [List.mem_cons, List.not_mem_nil, or_false] at hx
    rcases hx with rfl | rfl | rfl <;> exact line_without_tick _ (by decide) (by decide)) (by decide) _ rfl
  exact ⟨_, sts, rfl, h1, h2, by decide +kernel, h3⟩

/-! ## C30 -/

/-- The calls and diagnostics the last line adds carry its number. -/
theorem C30_line_numbers (ann : Bool) (cb : List Event → Bool) (ls : List Bytes) (l : Bytes)
    (hls : ∀ x ∈ ls, Line x) (hl : Line l) (hn : ls.length + 1 < 2 ^ 32) (st : St)
    (h : parse ann cb (unlines (ls ++ [l])) = .ok st) :
    ∃ st0 calls diags, parse ann cb (unlines ls) = .ok st0 ∧
      st.trace = st0.trace ++ calls ∧ (∀ e ∈ calls, eventLine e = ls.length + 1) ∧
      st.diags = st0.diags ++ diags ∧ ∀ d ∈ diags, d.1 = ls.length + 1 := by
  have hall : ∀ x ∈ ls ++ [l], Line x := by
    intro x hx
    rcases List.mem_append.1 hx with hx | hx
    · exact hls x hx
    · rw [List.mem_singleton.1 hx]; exact hl
  rw [parse_unlines ann cb _ hall, lines_snoc ann cb ls l hn, ← parse_unlines ann cb ls hls] at h
  cases hp : parse ann cb (unlines ls) with
  | oob => rw [hp] at h; cases h
  | shift => rw [hp] at h; cases h
  | ok st0 =>
    rw [hp] at h
    obtain ⟨tr, ds, h1, h2, h3, h4⟩ := lineP_atLine ann cb st0 st _ l h
    exact ⟨st0, tr, ds, rfl, h1, h2, h3, h4⟩

/-- `?`, `A[3:0]`: the second line's call and the diagnostics of both lines. -/
example : parse false (fun _ => true) (unlines [bytes!"?", bytes!"A[3:0]"]) =
    .ok { result := .error, trace := [.feature 2 bytes!"A" 0 4 1], diags := [(1, .error), (2, .info)] } := by
  decide +kernel

/-! ## C31 -/

/-- On the same line no feature call follows one the callback answered `false`.  Missing from the
property: parsing stops altogether (it does not, see `C31_defect`). -/
theorem C31_same_line_partial (ann : Bool) (cb : List Event → Bool) (s : Bytes) (hs : Line s) (st : St)
    (h : parse ann cb (s ++ [0x0a]) = .ok st) (pre post : List Event) (e : Event) (he : isFeature e = true)
    (ht : st.trace = pre ++ e :: post) (hf : cb (pre ++ [e]) = false) : ∀ x ∈ post, isFeature x = false := by
  rw [parse_single ann cb s hs] at h
  exact lineP_abort ann cb st 1 s h pre post e he ht hf

/-- A call answered `false` makes the result at least user-abort, for every input. -/
theorem C31_result_partial (ann : Bool) (cb : List Event → Bool) (content : Bytes) (st : St)
    (h : parse ann cb content = .ok st) (pre post : List Event) (e : Event) (he : isFeature e = true)
    (ht : st.trace = pre ++ e :: post) (hf : cb (pre ++ [e]) = false) :
    st.result = .userAbort ∨ st.result = .error := by
  have h1 := C28_result ann cb content st h
  have hm : Sev.userAbort ∈ st.diags.map Prod.snd ++ abortsOf cb st.trace := by
    refine List.mem_append_right _ ?_
    rw [ht]
    unfold abortsOf
    rw [List.mem_filterMap]
    refine ⟨pre.length, by simp, ?_⟩
    have e1 : (pre ++ e :: post).take (pre.length + 1) = pre ++ [e] := by
      rw [List.take_append, List.take_of_length_le (by omega)]; simp
    rw [e1]
    simp [he, hf]
  obtain ⟨a, b, hab⟩ := List.append_of_mem hm
  rw [hab, worst_append, show Sev.userAbort :: b = [.userAbort] ++ b from rfl, worst_append, worst_single] at h1
  rw [h1]
  cases worst a <;> cases worst b <;> simp [Sev.max, Sev.rank]

/-- A 128-bit value of which the first half is refused: the second half is not reported, and the result says so. -/
example : ∃ st e, parse false (fun _ => false) bytes!"F[127:0]=128'h00000000000000020000000000000001\n" = .ok st ∧
    isFeature e = true ∧ st.trace = [] ++ e :: [] ∧ st.result = .userAbort :=
  ⟨_, .feature 1 bytes!"F" 0 64 1, rfl, rfl, by decide +kernel, by decide +kernel⟩

/-- `A`, `B` with a callback that always answers `false`: both are reported. -/
theorem C31_defect : parse false (fun _ => false) (unlines [bytes!"A", bytes!"B"]) =
    .ok { result := .userAbort, trace := [.feature 1 bytes!"A" 0 1 1, .feature 2 bytes!"B" 0 1 1] } := by
  decide +kernel

/-! ## C32 -/

/-- A line of blanks, optionally with a comment or a carriage return: no calls, no diagnostics. -/
theorem C32_blank_line (ann : Bool) (cb : List Event → Bool) (g e : Bytes) (hg : Blank g) (he : LineEnd e) :
    parse ann cb (g ++ e ++ [0x0a]) = .ok {} := by
  rw [parse_single ann cb _ (blank_isLine g e hg he), blank_line ann cb {} 1 g e hg he]

/-- Inserting such a line anywhere changes nothing but the line numbers of later lines. -/
theorem C32_insert (ann : Bool) (cb : List Event → Bool)
    (hcb : ∀ tr tr' : List Event, tr.map eraseLine = tr'.map eraseLine → cb tr = cb tr')
    (before after : List Bytes) (hb : ∀ x ∈ before, Line x) (ha : ∀ x ∈ after, Line x)
    (g e : Bytes) (hg : Blank g) (he : LineEnd e) (hn : before.length + after.length + 1 < 2 ^ 32) (st : St)
    (h : parse ann cb (unlines (before ++ after)) = .ok st) :
    ∃ st', parse ann cb (unlines (before ++ (g ++ e) :: after)) = .ok st' ∧
      st'.result = st.result ∧ st'.trace.map eraseLine = st.trace.map eraseLine ∧
      st'.diags.map Prod.snd = st.diags.map Prod.snd := by
  have hall : ∀ x ∈ before ++ after, Line x := by
    intro x hx
    rcases List.mem_append.1 hx with hx | hx
    · exact hb x hx
    · exact ha x hx
  have hall' : ∀ x ∈ before ++ (g ++ e) :: after, Line x := by
    intro x hx
    rcases List.mem_append.1 hx with hx | hx
    · exact hb x hx
    · rcases List.mem_cons.1 hx with rfl | hx
      · exact blank_isLine g e hg he
      · exact ha x hx
  rw [parse_unlines ann cb _ hall, linesP_append ann cb after before 0 {} (by decide)] at h
  rw [parse_unlines ann cb _ hall', linesP_append ann cb _ before 0 {} (by decide)]
  cases hp : linesP ann cb 0 {} before with
  | oob => rw [hp] at h; cases h
  | shift => rw [hp] at h; cases h
  | ok st0 =>
    rw [hp] at h
    simp only [Res.bind, Nat.zero_add] at h ⊢
    rw [Nat.mod_eq_of_lt (by omega)] at h ⊢
    rw [linesP, Nat.mod_eq_of_lt (by omega), blank_line ann cb st0 _ g e hg he]
    simp only [Res.bind]
    have := linesP_erased ann cb hcb after (before.length + 1) before.length st0 st0 (by omega) (by omega) ⟨rfl, rfl, rfl⟩
    rw [h] at this
    revert this
    cases linesP ann cb (before.length + 1) st0 after with
    | oob => intro h; exact absurd h (by simp [SameErasedRes])
    | shift => intro h; exact absurd h (by simp [SameErasedRes])
    | ok st' => intro h; exact ⟨st', rfl, h.1, h.2.1, h.2.2⟩

/-- A tab, a comment and a carriage return. -/
example (ann : Bool) (cb : List Event → Bool) : parse ann cb (bytes!"\t" ++ bytes!"# c\r" ++ [0x0a]) = .ok {} :=
  C32_blank_line ann cb _ _ (by intro c hc; rw [List.mem_singleton.1 hc]; exact Or.inr rfl) ⟨by decide, Or.inr (Or.inl rfl)⟩

/-- The hypothesis on the callback holds for every callback that ignores line numbers. -/
example (f : List Event → Bool) : ∀ tr tr' : List Event, tr.map eraseLine = tr'.map eraseLine →
    (fun tr => f (tr.map eraseLine)) tr = (fun tr => f (tr.map eraseLine)) tr' := by
  intro tr tr' h; simp only [h]

/-! ## C33 -/

/-- A well-formed line with annotations delivers the feature and then each annotation once, in order,
with its name and its value as written between the quotes. -/
theorem C33_annotations (cb : List Event → Bool) (g : Nat → Bytes) (hg : ∀ i, Blank (g i))
    (f : FeatureText) (hf : f.WellFormed) (e : Bytes) (he : LineEnd e)
    (hw : f.range.width ≤ 64) (hd : f.value.digitBits ≤ 64)
    (as : List (Bytes × Bytes)) (hne : as ≠ [])
    (has : ∀ a ∈ as, (∀ c ∈ a.1, NameChar c) ∧ Quotable a.2) :
    let call := Event.feature 1 f.name f.range.lo f.range.width (f.value.val % 2 ^ f.range.width)
    parse true cb (f.text g ++ annotationsText g as ++ e ++ [0x0a]) =
      .ok { trace := call :: as.map fun a => .annotation 1 f.name a.1 a.2,
            diags := f.warnings.map fun s => (1, s),
            result := worst (f.warnings ++ if cb [call] then [] else [.userAbort]) } := by
  intro call
  have hc := clamps_narrow f hw
  have hstop : Stop (annotationsText g as ++ e) := Or.inr (Or.inr (Or.inr rfl))
  rw [parse_single true cb _ (ann_line g hg f hf as has e he), List.append_assoc,
    parse_narrow true cb g hg f hf _ hstop f.range.width (by rw [hc]; rfl) hw hd,
    tailP_ann 1 f.name g hg as hne has e]
  simp only [hc, Bool.false_eq_true, if_false, List.append_nil, List.nil_append, success_max, worst_append]
  congr 2
  split <;> rfl

/-- `.n = "a\"b"` satisfies the hypotheses. -/
example : (∀ c ∈ (bytes!".n" : Bytes), NameChar c) ∧ Quotable bytes!"a\\\"b" := by
  refine ⟨?_, by decide, by decide, ?_⟩
  · intro c hc
    simp only [List.mem_cons, List.not_mem_nil, or_false] at hc
    rcases hc with rfl | rfl <;> decide
  · intro pre post h
    match pre, h with
    | [], h => simp at h
    | [_], h => simp at h
    | [a, b], h => simp only [List.cons_append, List.nil_append, List.cons.injEq] at h; rw [← h.1, ← h.2.1]; rfl
    | [_, _, _], h => simp at h
    | _ :: _ :: _ :: _ :: _, h => simp at h

/-! ## C34 -/

/-- For every input, supplying the annotation callback or not makes no difference to the feature
calls (for a feature callback whose answers depend on feature calls only). -/
theorem C34_features_unaffected (cb : List Event → Bool) (hcb : ∀ tr, cb tr = cb (tr.filter isFeature))
    (content : Bytes) :
    (∀ st, parse true cb content = .ok st → ∃ st', parse false cb content = .ok st' ∧
      st.trace.filter isFeature = st'.trace.filter isFeature) ∧
    (∀ st', parse false cb content = .ok st' → ∃ st, parse true cb content = .ok st ∧
      st.trace.filter isFeature = st'.trace.filter isFeature) ∧
    (parse true cb content = .oob ↔ parse false cb content = .oob) ∧
    (parse true cb content = .shift ↔ parse false cb content = .shift) := by
  have := parse_same cb hcb true false content
  revert this
  cases parse true cb content <;> cases parse false cb content <;> intro this <;>
    simp only [SameRes] at this <;> simp
  exact this

/-- `A {x="1"}` and `B`. -/
example : ∃ s1 s2, parse true (fun _ => true) (unlines [bytes!"A{x=\"1\"}", bytes!"B"]) = .ok s1 ∧
    parse false (fun _ => true) (unlines [bytes!"A{x=\"1\"}", bytes!"B"]) = .ok s2 ∧
    s1.trace.length = 3 ∧ s2.trace.length = 2 := by
  refine ⟨_, _, rfl, rfl, ?_, ?_⟩ <;> decide +kernel

end Verif.Props
