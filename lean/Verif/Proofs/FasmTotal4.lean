import Verif.Proofs.FasmTotal3
/-! # Whole files, with no condition on ticks -/
namespace Verif.Fasm
open Verif.Spec

theorem shape_dangles (s : LineShape) (h : s.Ok) (hd : LineDangles s.text) : Dangles s.text := by
  cases s with
  | bare g post => exact absurd hd (line_bare true (fun _ => true) {} 0 g post h).1
  | feature g f post => exact absurd hd (line_feature true (fun _ => true) {} 0 g f post h).1
  | openRange g name r post => exact absurd hd (line_open true (fun _ => true) {} 0 g name r post h).1
  | inverted g name r post => exact absurd hd (line_inverted true (fun _ => true) {} 0 g name r post h).1
  | badFormat g name r w c post => exact absurd hd (line_badFormat true (fun _ => true) {} 0 g name r w c post h).1
  | dangling g name r w => exact ⟨g, name, r, w, h, rfl⟩

theorem dangles_iff (l : Bytes) : Dangles l ↔ LineDangles l := by
  constructor
  · rintro ⟨g, name, r, w, h, rfl⟩
    exact dangling_iff_body g name r w h
  · intro h
    obtain ⟨s, hok, rfl⟩ := shape_exists l
    exact shape_dangles s hok h

theorem parseLine_one (ann : Bool) (cb : List Event → Bool) (st : St) (line : Nat) (l rest : Bytes) (h : OneLine l) :
    parseLine ann cb st line (l ++ chNl :: rest) = (lineP ann cb st line l).bind fun st => .ok (st, rest) :=
  parseLine_nl' ann cb st line l rest h.1 (fun hd => h.2 ((dangles_iff l).2 hd))

/-- The lines as read. -/
theorem parseLines_reads (ann : Bool) (cb : List Event → Bool) {ls ms : List Bytes} {b : Bool} (hr : Reads ls ms b) :
    (∀ l ∈ ls, 0x0a ∉ l) → ∀ (fuel line : Nat) (st : St), (unlines ls).length ≤ fuel →
      parseLines ann cb fuel line st (unlines ls) =
        (linesP ann cb line st ms).bind fun st => if b then .oob else .ok st := by
  induction hr with
  | nil => intro _ fuel line st _; cases fuel <;> rfl
  | last l h =>
    intro _ fuel line st hf
    obtain ⟨g, name, r, w, hok, rfl⟩ := h
    have e : unlines [(LineShape.dangling g name r w).text] = (LineShape.dangling g name r w).text ++ [chNl] := by
      simp [unlines]
    rw [e] at hf ⊢
    cases fuel with
    | zero => simp at hf
    | succ fuel =>
      rw [parseLines.eq_def]
      cases hs : (LineShape.dangling g name r w).text ++ [chNl] with
      | nil => simp at hs
      | cons c cs =>
        dsimp only
        rw [← hs, parseLine_last ann cb st _ g name r w hok]
        rfl
  | @line l ls ms b h t ih =>
    intro hn fuel line st hf
    rw [unlines_cons] at hf ⊢
    have hpos : (l ++ chNl :: unlines ls).length = l.length + 1 + (unlines ls).length := by simp; omega
    cases fuel with
    | zero => omega
    | succ fuel =>
      rw [parseLines.eq_def]
      cases hs : l ++ chNl :: unlines ls with
      | nil => simp at hs
      | cons c cs =>
        dsimp only
        rw [← hs, parseLine_one ann cb st _ l (unlines ls) ⟨hn l List.mem_cons_self, h⟩, linesP]
        cases lineP ann cb st ((line + 1) % 2 ^ 32) l with
        | oob => rfl
        | shift => rfl
        | ok st' =>
          simp only [Res.bind, Res.bind_ok]
          exact ih (fun x hx => hn x (List.mem_cons_of_mem _ hx)) _ _ _ (by omega)
  | @swallow l l2 ls ms b h t ih =>
    intro hn fuel line st hf
    rw [unlines_cons, unlines_cons] at hf ⊢
    have hpos : (l ++ chNl :: (l2 ++ chNl :: unlines ls)).length = l.length + 1 + (l2.length + 1) + (unlines ls).length := by
      simp; omega
    cases fuel with
    | zero => omega
    | succ fuel =>
      rw [parseLines.eq_def]
      cases hs : l ++ chNl :: (l2 ++ chNl :: unlines ls) with
      | nil => simp at hs
      | cons c cs =>
        dsimp only
        obtain ⟨g, name, r, w, hok, rfl⟩ := h
        rw [← hs, parseLine_swallow ann cb st _ g name r w hok l2 (unlines ls) (hn l2 (by simp)), linesP]
        cases lineP ann cb st ((line + 1) % 2 ^ 32) ((LineShape.dangling g name r w).text ++ bytes!"?") with
        | oob => rfl
        | shift => rfl
        | ok st' =>
          simp only [Res.bind, Res.bind_ok]
          exact ih (fun x hx => hn x (List.mem_cons_of_mem _ (List.mem_cons_of_mem _ hx))) _ _ _ (by omega)

theorem swallowed_line (l : Bytes) (hnl : 0x0a ∉ l) (h : Dangles l) : OneLine (l ++ bytes!"?") := by
  refine ⟨by simp [hnl], ?_⟩
  obtain ⟨g, name, r, w, hok, rfl⟩ := h
  have hbad : (LineShape.badFormat g name r w 0x3f []).Ok := by
    obtain ⟨hg, hn, hr, hinv, hw⟩ := hok
    refine ⟨hg, hn, hr, hinv, hw, by unfold BlankChar; decide, ?_⟩
    rintro ⟨b, hb⟩
    cases b <;> exact absurd hb (by decide)
  have e1 : (LineShape.dangling g name r w).text ++ bytes!"?" = (LineShape.badFormat g name r w 0x3f []).text := by
    simp [LineShape.text]
  rw [e1, dangles_iff]
  exact (line_badFormat true (fun _ => true) {} 0 g name r w 0x3f [] hbad).1

theorem reads_lines {ls ms : List Bytes} {b : Bool} (hr : Reads ls ms b) : (∀ l ∈ ls, 0x0a ∉ l) → ∀ m ∈ ms, OneLine m := by
  induction hr with
  | nil => intro _ m hm; cases hm
  | last l h => intro _ m hm; cases hm
  | line h t ih =>
    intro hn m hm
    rcases List.mem_cons.1 hm with rfl | hm
    · exact ⟨hn _ List.mem_cons_self, h⟩
    · exact ih (fun x hx => hn x (List.mem_cons_of_mem _ hx)) m hm
  | swallow h t ih =>
    intro hn m hm
    rcases List.mem_cons.1 hm with rfl | hm
    · exact swallowed_line _ (hn _ List.mem_cons_self) h
    · exact ih (fun x hx => hn x (List.mem_cons_of_mem _ (List.mem_cons_of_mem _ hx))) m hm

theorem reads_self : ∀ (ms : List Bytes), (∀ m ∈ ms, OneLine m) → Reads ms ms false
  | [], _ => .nil
  | m :: ms, h => .line (h m List.mem_cons_self).2 (reads_self ms fun x hx => h x (List.mem_cons_of_mem _ hx))

theorem reads_exists : ∀ (n : Nat) (ls : List Bytes), ls.length ≤ n → ∃ ms b, Reads ls ms b := by
  intro n
  induction n with
  | zero =>
    intro ls h
    have : ls = [] := List.eq_nil_of_length_eq_zero (by omega)
    subst this
    exact ⟨[], false, .nil⟩
  | succ n ih =>
    intro ls h
    cases ls with
    | nil => exact ⟨[], false, .nil⟩
    | cons l ls =>
      by_cases hd : Dangles l
      · cases ls with
        | nil => exact ⟨[], true, .last l hd⟩
        | cons l2 ls =>
          obtain ⟨ms, b, hm⟩ := ih ls (by simp at h; omega)
          exact ⟨_, b, .swallow hd hm⟩
      · obtain ⟨ms, b, hm⟩ := ih ls (by simp at h; omega)
        exact ⟨_, b, .line hd hm⟩

theorem reads_unique {ls ms : List Bytes} {b : Bool} (hr : Reads ls ms b) :
    ∀ {ms' : List Bytes} {b' : Bool}, Reads ls ms' b' → ms = ms' ∧ b = b' := by
  induction hr with
  | nil => intro ms' b' h; cases h; exact ⟨rfl, rfl⟩
  | last l h =>
    intro ms' b' h'
    cases h' with
    | last => exact ⟨rfl, rfl⟩
    | line hn => exact absurd h hn
  | line hn t ih =>
    intro ms' b' h'
    cases h' with
    | last _ h => exact absurd h hn
    | line _ t' => obtain ⟨rfl, rfl⟩ := ih t'; exact ⟨rfl, rfl⟩
    | swallow h => exact absurd h hn
  | swallow h t ih =>
    intro ms' b' h'
    cases h' with
    | line hn => exact absurd h hn
    | swallow _ t' => obtain ⟨rfl, rfl⟩ := ih t'; exact ⟨rfl, rfl⟩

theorem parse_lines' (ann : Bool) (cb : List Event → Bool) {ls ms : List Bytes} {b : Bool} (hr : Reads ls ms b)
    (hn : ∀ l ∈ ls, 0x0a ∉ l) :
    parse ann cb (unlines ls) = (linesP ann cb 0 {} ms).bind fun st => if b then .oob else .ok st := by
  by_cases h : ls = []
  · subst h; cases hr; rfl
  · unfold parse
    rw [getLast_unlines ls h]
    exact parseLines_reads ann cb hr hn _ 0 {} (Nat.le_refl _)

theorem bind_ok_self {α : Type} (r : Res α) : (r.bind fun a => .ok a) = r := by cases r <;> rfl

theorem parse_one_lines (ann : Bool) (cb : List Event → Bool) (ms : List Bytes) (h : ∀ m ∈ ms, OneLine m) :
    parse ann cb (unlines ms) = linesP ann cb 0 {} ms := by
  rw [parse_lines' ann cb (reads_self ms h) fun m hm => (h m hm).1]
  simp only [Bool.false_eq_true, if_false]
  exact bind_ok_self _

theorem parse_reads (ann : Bool) (cb : List Event → Bool) {ls ms : List Bytes} {b : Bool} (hr : Reads ls ms b)
    (hn : ∀ l ∈ ls, 0x0a ∉ l) :
    parse ann cb (unlines ls) = (parse ann cb (unlines ms)).bind fun st => if b then .oob else .ok st := by
  rw [parse_lines' ann cb hr hn, parse_one_lines ann cb ms (reads_lines hr hn)]

theorem parse_one (ann : Bool) (cb : List Event → Bool) (l : Bytes) (h : OneLine l) :
    parse ann cb (l ++ [0x0a]) = lineP ann cb {} 1 l := by
  have := parse_one_lines ann cb [l] (by intro x hx; rw [List.mem_singleton.1 hx]; exact h)
  have e : unlines [l] = l ++ [0x0a] := by simp [unlines]
  rw [e] at this
  rw [this]
  show (lineP ann cb {} 1 l).bind (fun st => .ok st) = _
  cases lineP ann cb {} 1 l <;> rfl

/-- Appending one line. -/
theorem parse_snoc' (ann : Bool) (cb : List Event → Bool) (ls : List Bytes) (l : Bytes)
    (hls : ∀ x ∈ ls, OneLine x) (hl : OneLine l) (hn : ls.length + 1 < 2 ^ 32) :
    parse ann cb (unlines (ls ++ [l])) =
      (parse ann cb (unlines ls)).bind fun st =>
        (parse ann (fun tr => cb (st.trace ++ tr.map (renumber ls.length))) (l ++ [0x0a])).bind fun st1 =>
          .ok (combine ls.length st st1) := by
  have h1 : ∀ x ∈ ls ++ [l], OneLine x := by
    intro x hx
    rcases List.mem_append.1 hx with h | h
    · exact hls x h
    · rw [List.mem_singleton.1 h]; exact hl
  rw [parse_one_lines ann cb _ h1, parse_one_lines ann cb _ hls, lines_snoc ann cb ls l hn]
  congr 1
  funext st
  rw [parse_one ann _ l hl]
  have := lineP_combine ann cb ls.length st {} 1 l
  rw [combine_empty, Nat.add_comm 1] at this
  rw [this]
  generalize lineP ann _ _ 1 l = r
  cases r <;> rfl

/-- A text that ends in a newline is made of lines. -/
theorem lines_of (content : Bytes) : ∀ (h : content = [] ∨ content.getLast? = some 0x0a),
    ∃ ls : List Bytes, content = unlines ls ∧ ∀ l ∈ ls, 0x0a ∉ l := by
  induction content with
  | nil => intro _; exact ⟨[], rfl, by simp⟩
  | cons c cs ih =>
    intro h
    have h : (c :: cs).getLast? = some 0x0a := by simpa using h
    by_cases hc : c = 0x0a
    · subst hc
      obtain ⟨ls, e, hn⟩ := ih (by
        cases cs with
        | nil => exact Or.inl rfl
        | cons d ds => rw [List.getLast?_cons_cons] at h; exact Or.inr h)
      refine ⟨[] :: ls, ?_, ?_⟩
      · rw [e]; simp [unlines]
      · intro l hl
        rcases List.mem_cons.1 hl with rfl | hl
        · simp
        · exact hn l hl
    · cases cs with
      | nil => exact absurd (by simpa using h) hc
      | cons d ds =>
        obtain ⟨ls, e, hn⟩ := ih (by rw [List.getLast?_cons_cons] at h; exact Or.inr h)
        cases ls with
        | nil => simp [unlines] at e
        | cons l ls =>
          refine ⟨(c :: l) :: ls, ?_, ?_⟩
          · rw [e]; simp [unlines]
          · intro x hx
            rcases List.mem_cons.1 hx with rfl | hx
            · have := hn l List.mem_cons_self
              simp only [List.mem_cons, not_or]
              exact ⟨fun h => hc h.symm, this⟩
            · exact hn x (List.mem_cons_of_mem _ hx)

end Verif.Fasm
