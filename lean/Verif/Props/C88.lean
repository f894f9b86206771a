import Verif.Props.C87
import Verif.Proofs.Tidy.Canon
/-! # C88: names in the texts the lint script stores are relative to the project -/
namespace Verif.Props
open Verif.Tidy Verif.Spec.Tidy Re

private theorem fits_slash (p line : Bytes) : fits (p ++ bytes!"/") line = true ↔ Under p line := by
  induction p generalizing line with
  | nil =>
    cases line with
    | nil =>
      simp only [List.nil_append, fits]
      constructor
      · intro h; cases h
      · rintro ⟨q, rest, e, _⟩
        have := congrArg List.length e
        simp at this
    | cons c line =>
      have : fits ([] ++ bytes!"/") (c :: line) = decide (c = 0x2f) := by simp [fits]
      rw [this, decide_eq_true_eq]
      constructor
      · rintro rfl
        exact ⟨[], line, rfl, rfl, by simp⟩
      · rintro ⟨q, rest, e, hl, _⟩
        have : q = [] := by simpa using hl
        rw [this] at e
        simp at e
        exact e.1
  | cons p path ih =>
    cases line with
    | nil =>
      simp only [List.cons_append, fits]
      constructor
      · intro h; cases h
      · rintro ⟨q, rest, e, _⟩
        have := congrArg List.length e
        simp at this
    | cons c line =>
      rw [List.cons_append, fits, Bool.and_eq_true, ih line]
      constructor
      · rintro ⟨h1, q, rest, e, hl, h2⟩
        refine ⟨c :: q, rest, by rw [e]; rfl, by simp [hl], ?_⟩
        intro i p' c' hp hc
        cases i with
        | zero =>
          simp at hp hc
          subst hp; subst hc
          split at h1
          · rename_i h
            exact ⟨fun h' => absurd h h', fun _ => by simpa using h1⟩
          · rename_i h
            exact ⟨fun _ => by simpa using h1, fun h' => absurd h' h⟩
        | succ i => exact h2 i p' c' (by simpa using hp) (by simpa using hc)
      · rintro ⟨q, rest, e, hl, h2⟩
        cases q with
        | nil => simp at hl
        | cons d q =>
          simp at e
          obtain ⟨rfl, e⟩ := e
          refine ⟨?_, q, rest, by rw [e]; simp, by simpa using hl, fun i p' c' hp hc => h2 (i + 1) p' c' (by simpa using hp) (by simpa using hc)⟩
          have := h2 0 p c (by simp) (by simp)
          split
          · rename_i h
            simpa using this.2 h
          · rename_i h
            simpa using this.1 h

private theorem drop_taken (roots : List Bytes) (line : Bytes) : line.drop (taken roots line) = without bytes!"./" (behindRoot roots line) := by
  rw [behindRoot_eq]
  unfold taken without dotLength
  split
  · rw [List.drop_drop]; rfl
  · rw [Nat.add_zero]

private theorem _root_.Verif.Spec.Tidy.PlainPath.nl {p : Bytes} (h : PlainPath p) : (0x0a : UInt8) ∉ p := fun hm => (h _ hm).1 rfl

private theorem _root_.Verif.Spec.Tidy.PlainPath.plus {p : Bytes} (h : PlainPath p) : (0x2b : UInt8) ∉ p := fun hm =>
  (h _ hm).2 (by unfold PatternChar; decide)

/-- Whatever the text and the directories (without special characters but dots): every line loses the first directory it is below — read as a pattern — and a `./` behind it, and nothing else
changes. -/
theorem C88_pattern (roots : List Bytes) (hr : ∀ p ∈ roots, PlainPath p) (lines : List Bytes) (h : ∀ l ∈ lines, (0x0a : UInt8) ∉ l) :
    canon roots (joined lines) = joined (lines.map (relativePattern roots)) := by
  classical
  rw [canon_eq roots (fun p hp => (hr p hp).plus) (fun p hp => (hr p hp).nl) lines h]
  congr 1
  refine List.map_congr_left fun l _ => ?_
  rw [drop_taken]
  unfold relativePattern
  congr 1
  induction roots with
  | nil => rfl
  | cons p roots ih =>
    rw [behindRoot, List.find?_cons]
    by_cases hf : fits (p ++ bytes!"/") l = true
    · rw [if_pos hf]
      simp [(fits_slash p l).1 hf]
    · rw [if_neg hf, ih fun q hq => hr q (by simp [hq])]
      have : ¬ Under p l := fun hu => hf ((fits_slash p l).2 hu)
      simp [this]

private theorem under_plain {p line : Bytes} (h : (0x2e : UInt8) ∉ p) : Under p line ↔ p ++ bytes!"/" <+: line := by
  constructor
  · rintro ⟨q, rest, e, hl, h2⟩
    have : q = p := by
      refine List.ext_getElem hl fun i h1 h3 => ?_
      exact (h2 i p[i] q[i] (List.getElem?_eq_getElem h3) (List.getElem?_eq_getElem h1)).1 fun e => h (e ▸ List.getElem_mem h3)
    exact ⟨rest, by rw [e, this]⟩
  · rintro ⟨rest, e⟩
    refine ⟨p, rest, e.symm, rfl, fun i x c hx hc => ?_⟩
    rw [hx] at hc
    cases hc
    exact ⟨fun _ => rfl, fun e => absurd (e ▸ List.mem_of_getElem? hx) h⟩

private theorem relativePattern_eq (roots : List Bytes) (hr : ∀ p ∈ roots, (0x2e : UInt8) ∉ p) (l : Bytes) : relativePattern roots l = relative roots l := by
  classical
  unfold relativePattern relative
  have : roots.find? (fun p => decide (Under p l)) = roots.find? fun p => decide (p ++ bytes!"/" <+: l) := by
    induction roots with
    | nil => rfl
    | cons p roots ih =>
      have e : decide (Under p l) = decide (p ++ bytes!"/" <+: l) := by
        rw [decide_eq_decide]
        exact under_plain (hr p (by simp))
      rw [List.find?_cons, List.find?_cons, e, ih fun q hq => hr q (by simp [hq])]
  rw [this]

/-- For directories without dots in their paths: a line that begins with one of them and a slash loses both, and a `./` behind them; a line that
does not loses a `./` at its beginning; nothing else changes. -/
theorem C88_relative (roots : List Bytes) (hr : ∀ p ∈ roots, PlainPath p ∧ (0x2e : UInt8) ∉ p) (lines : List Bytes) (h : ∀ l ∈ lines, (0x0a : UInt8) ∉ l) :
    canon roots (joined lines) = joined (lines.map (relative roots)) := by
  rw [C88_pattern roots (fun p hp => (hr p hp).1) lines h]
  congr 1
  exact List.map_congr_left fun l _ => relativePattern_eq roots (fun p hp => (hr p hp).2) l

/-- Names in the project directory itself always become relative, dots or not: a dot stands for itself, too. -/
theorem C88_inside (root line : Bytes) (h : PlainPath root) (hcr : (0x0d : UInt8) ∉ root) (hl : (0x0a : UInt8) ∉ line) :
    canon [root] (root ++ bytes!"/" ++ line) = without bytes!"./" line := by
  classical
  have hu : Under root (root ++ bytes!"/" ++ line) := ⟨root, line, rfl, rfl, fun i x c hx hc => by
    rw [hx] at hc
    cases hc
    have hm := List.mem_of_getElem? hx
    exact ⟨fun _ => rfl, fun _ => ⟨(h _ hm).1, fun e => hcr (e ▸ hm)⟩⟩⟩
  have := C88_pattern [root] (by simpa using h) [root ++ bytes!"/" ++ line] (by
    intro l hm
    rw [List.mem_singleton.1 hm]
    simp only [List.mem_append, not_or]
    exact ⟨⟨h.nl, by decide⟩, hl⟩)
  rw [joined, List.map_singleton, joined] at this
  rw [this]
  unfold relativePattern
  have hf : ([root] : List Bytes).find? (fun p => decide (Under p (root ++ bytes!"/" ++ line))) = some root := by
    rw [List.find?_cons, decide_eq_true hu]
  rw [hf]
  simp

private theorem joined_textOf (lines : List Bytes) (last : Bytes) : joined (lines ++ [last]) = textOf lines last := by
  induction lines with
  | nil => simp [joined, textOf]
  | cons l lines ih =>
    have : joined (l :: (lines ++ [last])) = l ++ 0x0a :: joined (lines ++ [last]) := by
      cases lines with
      | nil => simp [joined]
      | cons l' lines => exact joined_cons _ _ _
    rw [List.cons_append, this, ih]
    simp [textOf]

/-- What is stored for a file: the lines made relative, and of these the ones C87 keeps. -/
theorem C88_stored_pattern (roots : List Bytes) (hr : ∀ p ∈ roots, PlainPath p) (file : Bytes) (lines : List Bytes) (last : Bytes)
    (h : ∀ l ∈ lines, (0x0a : UInt8) ∉ l) (h' : (0x0a : UInt8) ∉ last) :
    repairText roots file (textOf lines last) = filterCheckLines file (textOf (lines.map (relativePattern roots)) (relativePattern roots last)) := by
  unfold repairText
  rw [← joined_textOf, C88_pattern roots hr (lines ++ [last]) (fun l hl => by
    rcases List.mem_append.1 hl with hl | hl
    · exact h l hl
    · rw [List.mem_singleton.1 hl]; exact h'), List.map_append, List.map_singleton, joined_textOf]

/-- The same for directories without dots. -/
theorem C88_stored (roots : List Bytes) (hr : ∀ p ∈ roots, PlainPath p ∧ (0x2e : UInt8) ∉ p) (file : Bytes) (lines : List Bytes) (last : Bytes)
    (h : ∀ l ∈ lines, (0x0a : UInt8) ∉ l) (h' : (0x0a : UInt8) ∉ last) :
    repairText roots file (textOf lines last) = filterCheckLines file (textOf (lines.map (relative roots)) (relative roots last)) := by
  rw [C88_stored_pattern roots (fun p hp => (hr p hp).1) file lines last h h', relativePattern_eq roots (fun p hp => (hr p hp).2),
    List.map_congr_left fun l _ => relativePattern_eq roots (fun p hp => (hr p hp).2) l]

private theorem relative_drop (roots : List Bytes) (line : Bytes) :
    ∃ k, relative roots line = line.drop k ∧ (k = 0 ∨ line[k - 1]? = some 0x2f) := by
  unfold relative without
  cases hf : roots.find? fun p => decide (p ++ bytes!"/" <+: line) with
  | none =>
    simp only
    split
    · rename_i hd
      obtain ⟨r, e⟩ := hd
      exact ⟨2, rfl, Or.inr (by rw [← e]; rfl)⟩
    · exact ⟨0, rfl, Or.inl rfl⟩
  | some p =>
    have hp : p ++ bytes!"/" <+: line := by simpa using List.find?_some hf
    obtain ⟨r, e⟩ := hp
    simp only
    split
    · rename_i hd
      obtain ⟨r', e'⟩ := hd
      refine ⟨p.length + 1 + 2, by rw [List.drop_drop]; rfl, Or.inr ?_⟩
      have : line = p ++ bytes!"/" ++ (bytes!"./" ++ r') := by
        rw [← e, List.append_cancel_left_eq]
        rw [e', ← e]
        simp
      rw [this]
      simp
    · refine ⟨p.length + 1, rfl, Or.inr ?_⟩
      rw [← e]
      simp

theorem relativePattern_drop (roots : List Bytes) (line : Bytes) :
    ∃ k, relativePattern roots line = line.drop k ∧ (k = 0 ∨ line[k - 1]? = some 0x2f) := by
  classical
  unfold relativePattern without
  cases hf : roots.find? fun p => decide (Under p line) with
  | none =>
    simp only
    split
    · rename_i hd
      obtain ⟨r, e⟩ := hd
      exact ⟨2, rfl, Or.inr (by rw [← e]; rfl)⟩
    · exact ⟨0, rfl, Or.inl rfl⟩
  | some p =>
    have hp : Under p line := by simpa using List.find?_some hf
    obtain ⟨q, r, e, hl, _⟩ := hp
    simp only [← hl]
    split
    · rename_i hd
      obtain ⟨r', e'⟩ := hd
      refine ⟨q.length + 1 + 2, by rw [List.drop_drop]; rfl, Or.inr ?_⟩
      have : line = q ++ bytes!"/" ++ (bytes!"./" ++ r') := by
        rw [e, List.append_cancel_left_eq]
        rw [e', e]
        simp
      rw [this]
      simp
    · refine ⟨q.length + 1, rfl, Or.inr ?_⟩
      rw [e]
      simp

private theorem about_dropped (f : Bytes → Bytes) (hf : ∀ line, ∃ k, f line = line.drop k ∧ (k = 0 ∨ line[k - 1]? = some 0x2f))
    (dir name row column message check : Bytes) (hd : Directory dir) (n : name ≠ []) (hn : (0x2f : UInt8) ∉ name)
    (hr : Number row) (hc : Number column) (hm : OneLine message) (hk : CheckName check)
    (hs : (0x2f : UInt8) ∉ message) (hdc : ∀ a d b, 0x30 ≤ d.toNat → d.toNat ≤ 0x39 → message ≠ a ++ [d, 0x3a] ++ b) :
    ∃ dir', f (dir ++ name ++ (bytes!":" ++ row ++ bytes!":" ++ column ++ bytes!":" ++ message ++ check)) =
        dir' ++ name ++ (bytes!":" ++ row ++ bytes!":" ++ column ++ bytes!":" ++ message ++ check) ∧ dir' <:+ dir ∧
      About (f (dir ++ name ++ (bytes!":" ++ row ++ bytes!":" ++ column ++ bytes!":" ++ message ++ check))) name := by
  obtain ⟨k, e, hk'⟩ := hf (dir ++ name ++ (bytes!":" ++ row ++ bytes!":" ++ column ++ bytes!":" ++ message ++ check))
  have noslash : (0x2f : UInt8) ∉ name ++ (bytes!":" ++ row ++ bytes!":" ++ column ++ bytes!":" ++ message ++ check) := by
    intro h
    simp only [List.mem_append, List.mem_singleton] at h
    rcases h with h | (((((h | h) | h) | h) | h) | h) | h
    · exact hn h
    · revert h; decide
    · have := (hr.2 _ h).1; revert this; decide
    · revert h; decide
    · have := (hc.2 _ h).1; revert this; decide
    · revert h; decide
    · exact hs h
    · obtain ⟨a, b, _, _, ha, hb, rfl⟩ := hk
      have l2 : ¬ Letter 0x2f := by unfold Letter; decide
      simp only [List.mem_append, List.mem_singleton] at h
      rcases h with (((h | h) | h) | h) | h
      · revert h; decide
      · rcases ha _ h with h | h
        · exact l2 h
        · revert h; decide
      · revert h; decide
      · rcases hb _ h with h | h | h
        · exact l2 h
        · revert h; decide
        · revert h; decide
      · revert h; decide
  have hle : k ≤ dir.length := by
    rcases hk' with h0 | h0
    · omega
    · rcases Nat.lt_or_ge dir.length k with hlt | hge
      · exfalso
        rw [List.append_assoc, List.getElem?_append_right (by omega)] at h0
        exact noslash (List.mem_of_getElem? h0)
      · exact hge
  rw [e, List.append_assoc, List.drop_append_of_le_length hle, ← List.append_assoc]
  refine ⟨dir.drop k, rfl, List.drop_suffix k dir, ?_⟩
  refine C87_wellformed_partial (dir.drop k) name row column message check ?_ n hn hr hc hm hk hs hdc
  rcases hd with rfl | ⟨x, hx, rfl⟩
  · exact Or.inl (by simp)
  · rcases Nat.lt_or_ge x.length k with hlt | hge
    · exact Or.inl (List.drop_eq_nil_of_le (by simp; omega))
    · refine Or.inr ⟨x.drop k, fun c hc => hx c (List.mem_of_mem_drop hc), ?_⟩
      rw [List.drop_append_of_le_length hge]

/-- Making a line relative does not change the file it is about. -/
theorem C88_about_pattern (roots : List Bytes) (dir name row column message check : Bytes) (hd : Directory dir) (n : name ≠ []) (hn : (0x2f : UInt8) ∉ name)
    (hr : Number row) (hc : Number column) (hm : OneLine message) (hk : CheckName check)
    (hs : (0x2f : UInt8) ∉ message) (hdc : ∀ a d b, 0x30 ≤ d.toNat → d.toNat ≤ 0x39 → message ≠ a ++ [d, 0x3a] ++ b) :
    ∃ dir', relativePattern roots (dir ++ name ++ (bytes!":" ++ row ++ bytes!":" ++ column ++ bytes!":" ++ message ++ check)) =
        dir' ++ name ++ (bytes!":" ++ row ++ bytes!":" ++ column ++ bytes!":" ++ message ++ check) ∧ dir' <:+ dir ∧
      About (relativePattern roots (dir ++ name ++ (bytes!":" ++ row ++ bytes!":" ++ column ++ bytes!":" ++ message ++ check))) name :=
  about_dropped _ (relativePattern_drop roots) dir name row column message check hd n hn hr hc hm hk hs hdc

/-- The same for directories without dots. -/
theorem C88_about (roots : List Bytes) (dir name row column message check : Bytes) (hd : Directory dir) (n : name ≠ []) (hn : (0x2f : UInt8) ∉ name)
    (hr : Number row) (hc : Number column) (hm : OneLine message) (hk : CheckName check)
    (hs : (0x2f : UInt8) ∉ message) (hdc : ∀ a d b, 0x30 ≤ d.toNat → d.toNat ≤ 0x39 → message ≠ a ++ [d, 0x3a] ++ b) :
    ∃ dir', relative roots (dir ++ name ++ (bytes!":" ++ row ++ bytes!":" ++ column ++ bytes!":" ++ message ++ check)) =
        dir' ++ name ++ (bytes!":" ++ row ++ bytes!":" ++ column ++ bytes!":" ++ message ++ check) ∧ dir' <:+ dir ∧
      About (relative roots (dir ++ name ++ (bytes!":" ++ row ++ bytes!":" ++ column ++ bytes!":" ++ message ++ check))) name :=
  about_dropped _ (relative_drop roots) dir name row column message check hd n hn hr hc hm hk hs hdc

/-- The directory is used as a pattern: a dot in it also removes sibling directories.  In `/v1.0` the line `/v1-0/a.cc` becomes `a.cc`. -/
theorem C88_defect_dot :
    canon [bytes!"/v1.0"] bytes!"/v1-0/a.cc" = bytes!"a.cc" ∧
      relative [bytes!"/v1.0"] bytes!"/v1-0/a.cc" =
        bytes!"/v1-0/a.cc" := by
  constructor <;> decide +kernel

/-- Other special characters are not quoted either: in a directory with a plus sign in its path names stay as they are. -/
theorem C88_defect_plus :
    canon [bytes!"/c++"] bytes!"/c++/a.cc" = bytes!"/c++/a.cc" ∧ relative [bytes!"/c++"] bytes!"/c++/a.cc" = bytes!"a.cc" ∧
      canon [bytes!"/c++"] bytes!"/ccc/a.cc" = bytes!"a.cc" := by
  refine ⟨?_, ?_, ?_⟩ <;> decide +kernel

/-! ## Non-vacuity -/

/-- `/home/j.d` -/
example : PlainPath bytes!"/home/j.d" ∧ (0x0d : UInt8) ∉ (bytes!"/home/j.d" : Bytes) ∧ ¬ PlainPath bytes!"/c++" := by
  unfold PlainPath PatternChar; decide

/-- `/b/./x`, an empty line and `./y/b/z` in the directory `/b`. -/
example : canon [bytes!"/b"] bytes!"/b/./x\n\n./y/b/z" = bytes!"x\n\ny/b/z" := by
  have h := C88_relative [bytes!"/b"] (by unfold PlainPath PatternChar; decide) [bytes!"/b/./x", [], bytes!"./y/b/z"] (by decide)
  exact h.trans (by decide +kernel)

end Verif.Props
