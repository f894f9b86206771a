import Verif.Proofs.DbLineMessages
/-! # C101: an error in a file of lines names the line -/
namespace Verif.Props
open Verif.Db Verif.Spec Verif.Text
open Verif.Fasm (lit)

/-- The parsers with messages are the parsers of C35–C39. -/
theorem C101_same_parsers (junk : Bytes → Nat) (after : Option UInt8) (content : Bytes) :
    (parseSegmentsBitsM junk after content).forget = parseSegmentsBits junk after content ∧
    (parsePseudoPIPsM after content).forget = parsePseudoPIPs after content ∧
    (parsePackagePinsM after content).forget = parsePackagePins after content :=
  ⟨parseSegmentsBitsM_forget _ _ _, parsePseudoPIPsM_forget _ _, parsePackagePinsM_forget _ _⟩

theorem segbitsM_feed (junk : Bytes → Nat) (b : UInt8) (content : Bytes) (ls : List Bytes) (hc : LinesOf content ls) :
    parseSegmentsBitsM junk (some b) content = feedM (segbitsLineM junk) 0 ls [] := by
  unfold parseSegmentsBitsM
  rw [← linesGeneratorM_lines b _ content _ hc]
  split
  · rename_i he; subst he; rfl
  · rfl

theorem ppipsM_feed (b : UInt8) (content : Bytes) (ls : List Bytes) (hc : LinesOf content ls) :
    parsePseudoPIPsM (some b) content = feedM ppipLineM 0 ls [] := by
  unfold parsePseudoPIPsM
  rw [← linesGeneratorM_lines b _ content _ hc]
  split
  · rename_i he; subst he; rfl
  · rfl

theorem pinsM_feed (b : UInt8) (content : Bytes) (ls : List Bytes) (hc : LinesOf content ls) :
    parsePackagePinsM (some b) content = feedM csvLineM 0 ls [] := by
  unfold parsePackagePinsM
  rw [← linesGeneratorM_lines b _ content _ hc]
  split
  · rename_i he; subst he; rfl
  · rfl

/-! ## Segment bits -/

/-- A line is bad exactly when there is something to say about it. -/
theorem C101_segbits_bad (l : Bytes) : BadSegLine l ↔ ∃ what, SegComplaint l what := (segComplaint_bad l).symm

/-- Line numbers have 32 bits. -/
theorem C101_segbits_wraps (junk : Bytes → Nat) (b : UInt8) (content : Bytes) (ls : List Bytes) (hc : LinesOf content ls) (m : Bytes) :
    parseSegmentsBitsM junk (some b) content = .err m ↔
      ∃ pre l post what, ls = pre ++ l :: post ∧ (∀ p ∈ pre, ¬ BadSegLine p) ∧ SegComplaint l what ∧
        m = atLine ((pre.length + 1) % 2 ^ 32) what := by
  rw [segbitsM_feed junk b content ls hc,
    feedM_err_iff _ (fun _ l => ¬ BadSegLine l) (fun n l m => ∃ what, SegComplaint l what ∧ m = atLine n what)
      (segGood_iff junk) (segComplaint_iff junk)]
  simp only [Nat.zero_add]
  constructor
  · rintro ⟨pre, l, post, h1, h2, what, h3, h4⟩
    refine ⟨pre, l, post, what, h1, ?_, h3, h4⟩
    intro p hp
    obtain ⟨i, hi⟩ := List.mem_iff_getElem?.1 hp
    exact h2 i p hi
  · rintro ⟨pre, l, post, what, h1, h2, h3, h4⟩
    exact ⟨pre, l, post, h1, fun i p hp => h2 p (List.mem_of_getElem? hp), what, h3, h4⟩

/-- A segbits file is rejected because of its first bad line, and the message has the number of that line and says what is wrong
with it. -/
theorem C101_segbits (junk : Bytes → Nat) (b : UInt8) (content : Bytes) (ls : List Bytes) (hc : LinesOf content ls)
    (hlen : ls.length < 2 ^ 32) (m : Bytes) :
    parseSegmentsBitsM junk (some b) content = .err m ↔
      ∃ pre l post what, ls = pre ++ l :: post ∧ (∀ p ∈ pre, ¬ BadSegLine p) ∧ SegComplaint l what ∧
        m = atLine (pre.length + 1) what := by
  rw [C101_segbits_wraps junk b content ls hc]
  constructor
  · rintro ⟨pre, l, post, what, h1, h2, h3, rfl⟩
    have : pre.length + 1 < 2 ^ 32 := by rw [h1] at hlen; simp at hlen; omega
    rw [Nat.mod_eq_of_lt this]
    exact ⟨pre, l, post, what, h1, h2, h3, rfl⟩
  · rintro ⟨pre, l, post, what, h1, h2, h3, rfl⟩
    have : pre.length + 1 < 2 ^ 32 := by rw [h1] at hlen; simp at hlen; omega
    exact ⟨pre, l, post, what, h1, h2, h3, by rw [Nat.mod_eq_of_lt this]⟩

/-- The second line has a field `1-2`. -/
example : parseSegmentsBitsM (fun _ => 0) (some 0) (bytes!"A 1_2\nB 1-2\n") = .err (lit "2: invalid line \"B 1-2\"") := by decide +kernel

example : SegComplaint bytes!"B 1_x" (ascii "could not parse coordinate \"B 1_x\"") := by
  have hf := fields_spec bytes!"B 1_x"
  rw [show fields bytes!"B 1_x" = [bytes!"B", bytes!"1_x"] by decide +kernel] at hf
  refine SegComplaint.number bytes!"B" [] bytes!"1_x" [] hf (by simp) (by decide) ?_
  intro v hv
  have := (segmentBit_iff _ _).2 hv
  rw [show segmentBit bytes!"1_x" = .err by decide +kernel] at this
  cases this

/-! ## Package pins -/

/-- A pins file is rejected because of its first line, when that is not the header, or because of the first bad row, and the message
has the number of that line and says what is wrong with it. -/
theorem C101_pins (b : UInt8) (content : Bytes) (ls : List Bytes) (hc : LinesOf content ls) (hlen : ls.length < 2 ^ 32) (m : Bytes) :
    parsePackagePinsM (some b) content = .err m ↔
      ∃ header rows, ls = header :: rows ∧
        ((¬ Cells header headerCells ∧ m = atLine 1 (ascii "missing header")) ∨
         (Cells header headerCells ∧ ∃ pre l post what, rows = pre ++ l :: post ∧ (∀ p ∈ pre, ∃ e, PinRow p e) ∧ PinComplaint l what ∧
            m = atLine (pre.length + 2) what)) := by
  rw [pinsM_feed b content ls hc, feedM_err_iff _ PinGood PinBad pinGood_iff pinBad_iff]
  simp only [Nat.zero_add]
  constructor
  · rintro ⟨pre, l, post, h1, h2, h3⟩
    have hl : pre.length + 1 < 2 ^ 32 := by rw [h1] at hlen; simp at hlen; omega
    rw [Nat.mod_eq_of_lt hl] at h3
    cases pre with
    | nil =>
      refine ⟨l, post, h1, Or.inl ?_⟩
      simpa [PinBad] using h3
    | cons header pre =>
      refine ⟨header, _, h1, Or.inr ⟨?_, pre, l, post, ?_⟩⟩
      · simpa [PinGood] using h2 0 header rfl
      · unfold PinBad at h3
        rw [if_neg (by simp)] at h3
        obtain ⟨what, h3, rfl⟩ := h3
        refine ⟨what, rfl, ?_, h3, rfl⟩
        intro p hp
        obtain ⟨i, hi⟩ := List.mem_iff_getElem?.1 hp
        have hil : i < pre.length := (List.getElem?_eq_some_iff.1 hi).1
        have := h2 (i + 1) p (by simpa using hi)
        rw [List.length_cons] at hl
        rw [Nat.mod_eq_of_lt (by omega)] at this
        unfold PinGood at this
        rwa [if_neg (by omega)] at this
  · rintro ⟨header, rows, h1, ⟨h2, rfl⟩ | ⟨h2, pre, l, post, what, rfl, h3, h4, rfl⟩⟩
    · refine ⟨[], header, rows, h1, by simp, ?_⟩
      simp only [List.length_nil, Nat.zero_add]
      rw [show 1 % 2 ^ 32 = 1 from rfl]
      unfold PinBad
      rw [if_pos rfl]
      exact ⟨h2, rfl⟩
    · have hl : pre.length + 2 < 2 ^ 32 := by rw [h1] at hlen; simp at hlen; omega
      refine ⟨header :: pre, l, post, h1, ?_, ?_⟩
      · intro i p hp
        cases i with
        | zero =>
          simp only [List.getElem?_cons_zero, Option.some.injEq] at hp
          subst hp
          rw [show (0 + 1) % 2 ^ 32 = 1 from rfl]
          unfold PinGood
          rw [if_pos rfl]
          exact h2
        | succ i =>
          have hi : pre[i]? = some p := by simpa using hp
          have hil : i < pre.length := (List.getElem?_eq_some_iff.1 hi).1
          rw [Nat.mod_eq_of_lt (by omega)]
          unfold PinGood
          rw [if_neg (by omega)]
          exact h3 p (List.mem_of_getElem? hi)
      · rw [List.length_cons, Nat.mod_eq_of_lt (by omega)]
        unfold PinBad
        rw [if_neg (by omega)]
        exact ⟨what, h4, rfl⟩

example : parsePackagePinsM (some 0) (bytes!"pin,bank,site,tile,pin_function\nA,1,S,T,F\nB,x,S,T,F\n") =
    .err (lit "3: could not parse bank (second column) \"B,x,S,T,F\"") := by decide +kernel

/-- An empty second column is not noticed as such: the column behind it is taken for the bank. -/
example : parsePackagePinsM (some 0) (bytes!"pin,bank,site,tile,pin_function\nB,,S,T,F,G\n") =
    .err (lit "2: could not parse bank (second column) \"B,,S,T,F,G\"") := by decide +kernel

/-! ## Pseudo PIPs -/

/-- What is said about a ppips file: it is about the first bad line. -/
theorem C101_ppips (b : UInt8) (content : Bytes) (ls : List Bytes) (hc : LinesOf content ls) (hlen : ls.length < 2 ^ 32) (m : Bytes) :
    parsePseudoPIPsM (some b) content = .err m ↔
      ∃ pre l post, ls = pre ++ l :: post ∧ (∀ p ∈ pre, ∃ e, PipLine p e) ∧ PipComplaint (pre.length + 1) l m := by
  rw [ppipsM_feed b content ls hc, feedM_err_iff _ (fun _ l => ∃ e, PipLine l e) PipComplaint pipGood_iff pipComplaint_iff]
  simp only [Nat.zero_add]
  constructor
  · rintro ⟨pre, l, post, h1, h2, h3⟩
    have hl : pre.length + 1 < 2 ^ 32 := by rw [h1] at hlen; simp at hlen; omega
    rw [Nat.mod_eq_of_lt hl] at h3
    refine ⟨pre, l, post, h1, ?_, h3⟩
    intro p hp
    obtain ⟨i, hi⟩ := List.mem_iff_getElem?.1 hp
    exact h2 i p hi
  · rintro ⟨pre, l, post, h1, h2, h3⟩
    have hl : pre.length + 1 < 2 ^ 32 := by rw [h1] at hlen; simp at hlen; omega
    refine ⟨pre, l, post, h1, fun i p hp => h2 p (List.mem_of_getElem? hp), ?_⟩
    rwa [Nat.mod_eq_of_lt hl]

/-- Partial: if the first bad line has not two fields, the message has its number (see `C101_ppips_defect` for the others). -/
theorem C101_ppips_partial (b : UInt8) (content : Bytes) (pre : List Bytes) (l : Bytes) (post : List Bytes)
    (hc : LinesOf content (pre ++ l :: post)) (hlen : (pre ++ l :: post).length < 2 ^ 32) (hpre : ∀ p ∈ pre, ∃ e, PipLine p e)
    (hne : l ≠ []) (hl : ∀ x y, ¬ Fields l [x, y]) :
    parsePseudoPIPsM (some b) content = .err (atLine (pre.length + 1) (quoting "invalid line" l)) :=
  (C101_ppips b content _ hc hlen _).2 ⟨pre, l, post, rfl, hpre, PipComplaint.shape hne hl⟩

example : parsePseudoPIPsM (some 0) (bytes!"A always\n\nB\n") = .err (lit "3: invalid line \"B\"") := by decide +kernel

/-- Defect: an unknown state has no line number; the same is said wherever the line is. -/
theorem C101_ppips_defect (n : Nat) (b : UInt8) :
    parsePseudoPIPsM (some b) (List.replicate n 0x0a ++ bytes!"A.B sometimes\n") = .err (lit "invalid pseudo pip state \"sometimes\"") := by
  have hc : LinesOf (List.replicate n 0x0a ++ bytes!"A.B sometimes\n") (List.replicate n [] ++ [bytes!"A.B sometimes"]) := by
    refine ⟨?_, Or.inl ?_⟩
    · intro l hl
      rcases List.mem_append.1 hl with hl | hl
      · rw [(List.mem_replicate.1 hl).2]; simp
      · rw [List.mem_singleton.1 hl]; decide
    · induction n with
      | zero => rfl
      | succ n ih => 
        simp only [List.replicate_succ, List.cons_append, ih]
        rfl
  rw [ppipsM_feed b _ _ hc, feedM_err_iff _ (fun _ l => ∃ e, PipLine l e) PipComplaint pipGood_iff pipComplaint_iff]
  refine ⟨List.replicate n [], bytes!"A.B sometimes", [], rfl, ?_, ?_⟩
  · intro i p hp
    rw [(List.mem_replicate.1 (List.mem_of_getElem? hp)).2]
    exact ⟨none, PipLine.empty⟩
  · have hf := fields_spec bytes!"A.B sometimes"
    rw [show fields bytes!"A.B sometimes" = [bytes!"A.B", bytes!"sometimes"] by decide +kernel] at hf
    have := PipComplaint.state (n := (0 + (List.replicate n ([] : Bytes)).length + 1) % 2 ^ 32) bytes!"A.B" bytes!"sometimes" hf
      (by intro w; cases w <;> decide)
    have e : quoting "invalid pseudo pip state" bytes!"sometimes" = lit "invalid pseudo pip state \"sometimes\"" := by decide +kernel
    rw [e] at this
    exact this

end Verif.Props
