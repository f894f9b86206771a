import Verif.Proofs.FasmSlices
import Verif.Spec.FasmText
/-! # C93: names and values are pieces of the text

`fasm-parser.h` promises that the strings given to the callbacks are backed by the content.  Here: they are pieces of it, and it is said
where they stand. -/
namespace Verif.Props
open Verif.Fasm Verif.Spec

/-- The strings of every call stand on one line of the text: the feature after blanks only, an annotation behind `{` or `,`, its value
between the quotes.  The line number of the call is never beyond that line. -/
theorem C93_pieces (ann : Bool) (cb : List Event → Bool) (content : Bytes) (hcount : content.count 0x0a < 2 ^ 32) (st : St)
    (h : parse ann cb content = .ok st) (e : Event) (he : e ∈ st.trace) :
    ∃ before l, IsLineOf content before l ∧ StandsOn l e ∧ eventLine e ≤ before.count 0x0a + 1 := by
  obtain ⟨before, l, h1, h2, h3, _⟩ := parse_placed ann cb content hcount False (fun h => h.elim) st h e he
  exact ⟨before, l, h1, h2, h3⟩

/-- If no line stops right after a tick, the line number is the number of the line the strings stand on. -/
theorem C93_line (ann : Bool) (cb : List Event → Bool) (content : Bytes) (hcount : content.count 0x0a < 2 ^ 32)
    (hd : ∀ before l, IsLineOf content before l → ¬ Dangles l) (st : St)
    (h : parse ann cb content = .ok st) (e : Event) (he : e ∈ st.trace) :
    ∃ before l, IsLineOf content before l ∧ StandsOn l e ∧ eventLine e = before.count 0x0a + 1 := by
  obtain ⟨before, l, h1, h2, _, h4⟩ := parse_placed ann cb content hcount True (fun _ => hd) st h e he
  exact ⟨before, l, h1, h2, h4 trivial⟩

/-- In particular in a text without ticks. -/
theorem C93_line_no_tick (ann : Bool) (cb : List Event → Bool) (content : Bytes) (hcount : content.count 0x0a < 2 ^ 32)
    (hd : 0x27 ∉ content) (st : St) (h : parse ann cb content = .ok st) (e : Event) (he : e ∈ st.trace) :
    ∃ before l, IsLineOf content before l ∧ StandsOn l e ∧ eventLine e = before.count 0x0a + 1 := by
  refine C93_line ann cb content hcount ?_ st h e he
  rintro before l ⟨_, _, after, h1⟩ ⟨g, name, r, w, _, rfl⟩
  apply hd
  rw [h1]
  simp [LineShape.text]

/-- A feature call: the name is a piece of the content. -/
theorem C93_feature (ann : Bool) (cb : List Event → Bool) (content : Bytes) (hcount : content.count 0x0a < 2 ^ 32) (st : St)
    (h : parse ann cb content = .ok st) (line : Nat) (name : Bytes) (start width : Int) (bits : Nat)
    (he : .feature line name start width bits ∈ st.trace) : name <:+: content ∧ name ≠ [] ∧ ∀ c ∈ name, NameChar c := by
  obtain ⟨before, l, ⟨_, _, after, h1⟩, h2, _⟩ := C93_pieces ann cb content hcount st h _ he
  cases h2 with
  | feature pre post h hpre hn hpost =>
    refine ⟨⟨before ++ pre, post ++ 0x0a :: after, ?_⟩, hn.1, hn.2⟩
    rw [h1, h]
    simp only [List.append_assoc]

/-- An annotation call: feature, name and value are pieces of the content, in this order and without overlap. -/
theorem C93_annotation (ann : Bool) (cb : List Event → Bool) (content : Bytes) (hcount : content.count 0x0a < 2 ^ 32) (st : St)
    (h : parse ann cb content = .ok st) (line : Nat) (feature name value : Bytes)
    (he : .annotation line feature name value ∈ st.trace) :
    ∃ a b c d, content = a ++ feature ++ b ++ name ++ c ++ value ++ d := by
  obtain ⟨before, l, ⟨_, _, after, h1⟩, h2, _⟩ := C93_pieces ann cb content hcount st h _ he
  cases h2 with
  | annotation pre mid eq post h hpre hf hn heq hmid =>
    refine ⟨before ++ pre, mid, eq ++ bytes!"\"", 0x22 :: (post ++ 0x0a :: after), ?_⟩
    rw [h1, h]
    simp only [List.append_assoc, List.cons_append, List.nil_append]

/-- ` A {b="c"}` behind an empty line. -/
example : parse true (fun _ => true) (ascii "\n A {b=\"c\"}\n") =
    .ok { trace := [.feature 2 bytes!"A" 0 1 1, .annotation 2 bytes!"A" bytes!"b" bytes!"c"] } := by decide +kernel

/-- Behind a line that stops after the tick the numbers are too small: `B` stands on line 3. -/
theorem C93_defect_number : parse false (fun _ => true) (ascii "A='\nx\nB\n") =
    .ok { result := .error, trace := [.feature 1 bytes!"A" 0 1 1, .feature 2 bytes!"B" 0 1 1], diags := [(1, .error)] } := by
  decide +kernel

end Verif.Props
