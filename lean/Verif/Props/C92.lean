import Verif.Proofs.FasmText5
import Verif.Props.C24_C34
/-! # C92: what the FASM parser prints

The texts are specified in `Spec/FasmText.lean`, line shape by line shape; the shapes are those of `Spec/FasmGrammar.lean`, which
cover every line (`C71_shapes`). -/
namespace Verif.Props
open Verif.Fasm Verif.Spec

/-- The parser that prints is the parser of all the other properties: same outcome, calls, result and diagnostics. -/
theorem C92_same_parser (ann : Bool) (cb : List Event → Bool) (content : Bytes) :
    (parseM ann cb content).bind (fun o => .ok o.st) = parse ann cb content :=
  parse_er ann cb content

/-- Whatever the content, if it has fewer than 2^31 lines and the parser comes to an end: what has been printed is what the
specification says about its lines, in their order, and nothing else. -/
theorem C92_text (ann : Bool) (cb : List Event → Bool) (ls : List Bytes) (hnl : ∀ l ∈ ls, 0x0a ∉ l) (hlen : ls.length < 2 ^ 31)
    (o : Log) (h : parseM ann cb (unlines ls) = .ok o) (ts : List Bytes) : TextSays ann 0 ls ts ↔ o.out = ts := by
  rw [parseM_lines] at h
  have key : ∀ ts, TextSays ann 0 ls ts → o.out = ts := by
    intro ts hs
    have := linesM_says ann cb hs hnl (by omega) _ {} o (Nat.le_refl _) h
    simpa using this
  constructor
  · exact key ts
  · intro e
    obtain ⟨us, hus⟩ := says_exists ann cb ls.length ls (Nat.le_refl _) hnl 0 _ _ _ _ h
    rw [← e, key us hus]
    exact hus

/-- A text that does not end in a newline: one message, and nothing is read. -/
theorem C92_no_newline (ann : Bool) (cb : List Event → Bool) (content : Bytes) (c : UInt8) (hc : c ≠ 0x0a) :
    ∃ o, parseM ann cb (content ++ [c]) = .ok o ∧ o.out = [ascii "content does not end with a newline\n"] ∧ o.st.trace = [] := by
  refine ⟨({} : Log).print 0 .error msgNoNewline, ?_, rfl, rfl⟩
  unfold parseM
  rw [List.getLast?_append]
  simp only [List.getLast?_singleton, Option.some_or]
  rw [if_pos hc]

/-- What is printed does not depend on the answers of the callback. -/
theorem C92_callback_independent (ann : Bool) (cb cb' : List Event → Bool) (ls : List Bytes) (hnl : ∀ l ∈ ls, 0x0a ∉ l)
    (hlen : ls.length < 2 ^ 31) (o o' : Log) (h : parseM ann cb (unlines ls) = .ok o) (h' : parseM ann cb' (unlines ls) = .ok o') :
    o.out = o'.out :=
  ((C92_text ann cb ls hnl hlen o h _).1 ((C92_text ann cb' ls hnl hlen o' h' _).2 rfl))

/-- Every message belongs to one diagnostic and every diagnostic has its message, in the same order: the message starts with the
number of the line, ends in a newline, and says `SKIP`, `INFO` or `WARN` if the diagnostic is of that severity. -/
theorem C92_tagged (ann : Bool) (cb : List Event → Bool) (content : Bytes) (hlen : content.length < 2 ^ 31) (o : Log)
    (h : parseM ann cb content = .ok o) :
    o.out.length = o.st.diags.length ∧
      ∀ (i line : Nat) (sev : Sev) (t : Bytes), o.st.diags[i]? = some (line, sev) → o.out[i]? = some t → Belongs line sev t := by
  have hg := parse_good ann cb content hlen o h
  refine ⟨hg.1, fun i line sev t h1 h2 => hg.2 (line, sev) t ?_⟩
  refine List.mem_iff_getElem?.2 ⟨i, ?_⟩
  rw [List.getElem?_zip_eq_some]
  exact ⟨h1, h2⟩

/-- The worst of a list is on the list. -/
theorem worst_mem (l : List Sev) : worst l = .success ∨ worst l ∈ l := by
  induction l with
  | nil => exact .inl rfl
  | cons a l ih =>
    rw [show a :: l = [a] ++ l from rfl, worst_append, worst_single]
    have : a.max (worst l) = a ∨ a.max (worst l) = worst l := by
      cases a <;> cases worst l <;> simp [Sev.max, Sev.rank]
    rcases this with h | h
    · exact .inr (by rw [h]; simp)
    · rw [h]
      rcases ih with h' | h'
      · exact .inl h'
      · exact .inr (List.mem_cons_of_mem _ h')

/-- Success is silent; and any result but success and user-abort is explained by a message of that severity. -/
theorem C92_explained (ann : Bool) (cb : List Event → Bool) (content : Bytes) (hlen : content.length < 2 ^ 31) (o : Log)
    (h : parseM ann cb content = .ok o) :
    (o.st.result = .success → o.out = []) ∧
      (o.st.result ≠ .success → o.st.result ≠ .userAbort → ∃ line t, t ∈ o.out ∧ (line, o.st.result) ∈ o.st.diags ∧
        Belongs line o.st.result t) := by
  have hp : parse ann cb content = .ok o.st := by rw [← C92_same_parser, h]; rfl
  obtain ⟨h1, h2⟩ := C92_tagged ann cb content hlen o h
  constructor
  · intro hs
    have := ((C28_success ann cb content o.st hp).1 hs).1
    rw [this] at h1
    exact List.eq_nil_of_length_eq_zero h1
  · intro hs ha
    have hr := C28_result ann cb content o.st hp
    have hm : o.st.result ∈ o.st.diags.map Prod.snd ++ abortsOf cb o.st.trace := by
      rcases worst_mem (o.st.diags.map Prod.snd ++ abortsOf cb o.st.trace) with hw | hw
      · exact absurd (hr.trans hw) hs
      · rw [hr]; exact hw
    rcases List.mem_append.1 hm with hm | hm
    · obtain ⟨d, hd, hd2⟩ := List.mem_map.1 hm
      obtain ⟨i, hi⟩ := List.mem_iff_getElem?.1 hd
      have hlt : i < o.out.length := by rw [h1]; exact (List.getElem?_eq_some_iff.1 hi).1
      refine ⟨d.1, o.out[i], List.getElem_mem hlt, ?_, h2 i d.1 _ _ ?_ (List.getElem?_eq_getElem hlt)⟩
      · rw [← hd2]; exact hd
      · rw [hi, ← hd2]
    · unfold abortsOf at hm
      obtain ⟨i, _, hi⟩ := List.mem_filterMap.1 hm
      revert hi
      split
      · intro hi; exact absurd (Option.some.inj hi).symm ha
      · intro hi; cases hi

/-! ## Examples -/

/-- `A[3:0]`, `?`, `B[0:1]`, `C=2'b11`. -/
example : (parseM false (fun _ => true)
      (ascii "A[3:0]\n?\nB[0:1]\nC=2'b11\n")).bind (fun o => .ok o.out) =
    .ok [ascii "1: INFO Range of bits A[3:0], but no assignment\n", ascii "2: expected newline, got '?'\n",
      ascii "3: SKIP inverted range B[0:1]\n",
      ascii "4: WARN Attempt to assign more bits (2') for C[0:0] with supported bit width of 1\n"] := by decide +kernel

/-- Annotations. -/
example : (parseM true (fun _ => true)
      (ascii "A {x}\nA {x=y}\nA {x=\"y}\nA {x=\"y\";}\nA {x=\"y\"}\n")).bind (fun o => .ok o.out) =
    .ok [ascii "1: annotation x: expected '='\n",
      ascii "2: A : annotation 'x': value not quoted\n", ascii "2: annotations: expected ',' or '}'; got 'y'\n",
      ascii "3: annotation not finished before end of line\n", ascii "3: annotations: expected ',' or '}'; got '\n'\n",
      ascii "4: annotations: expected ',' or '}'; got ';'\n"] := by decide +kernel

/-- Values. -/
example : (parseM true (fun _ => true)
      (ascii "A[64:0]=1\nA=1'x1\nA[1\nA='\nlost\n")).bind (fun o => .ok o.out) =
    .ok [ascii "1: ERR: Sorry, can only deal with ranges <= 64 bit currently for integers A[64:0]; trimming width 65 to 64\n",
      ascii "2: unknown base signifier 'x'; expected one of b, d, h, o\n",
      ascii "3: ERR expected ']' : 'A[1\n'\n",
      ascii "4: unknown base signifier '\n'; expected one of b, d, h, o\n"] := by decide +kernel

/-- The hypothesis of `C92_text` with a specification that can be read off. -/
example : TextSays false 0 [ascii "?"] [ascii "1: expected newline, got '?'\n"] := by
  have hok : (LineShape.bare (fun _ => []) (ascii "?")).Ok := by
    refine ⟨(fun _ _ h => absurd h (by simp)), ?_⟩
    intro c hc
    have hc : c = 0x3f := (Option.some.inj (show some (0x3f : UInt8) = some c from hc)).symm
    subst hc
    unfold BlankChar NameChar
    decide
  exact .line (ts := [ascii "1: expected newline, got '?'\n"]) (us := []) (.bare (fun _ => []) (ascii "?")) hok rfl
    (.bare _ _ _ (.other 0x3f [] (by decide))) (.nil 1)

/-- A message can extend over two lines: the one about a missing `]` shows the text up to and including the newline. -/
theorem C92_broken_message (ann : Bool) (cb : List Event → Bool) :
    (parseM ann cb (ascii "A[1\n")).bind (fun o => .ok o.out) = .ok [ascii "1: ERR expected ']' : 'A[1\n'\n"] := by
  cases ann <;> rfl

/-- The line number is printed as a signed number in six of the messages: from line 2^31 on it is negative. -/
theorem C92_line_number_defect : printD (2 ^ 31) = ascii "-2147483648" ∧ printU (2 ^ 31) = ascii "2147483648" := by
  decide +kernel

end Verif.Props
