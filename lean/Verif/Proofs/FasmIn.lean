import Verif.Proofs.FasmTotal4
/-! # Contents that lie in a larger buffer -/
namespace Verif.Fasm
open Verif.Spec

/-- With nothing behind the content, `parseIn` is `parse`. -/
theorem parseLinesIn_nil (ann : Bool) (cb : List Event → Bool) : ∀ (fuel line : Nat) (st : St) (input : Bytes),
    parseLinesIn ann cb [] fuel line st input = parseLines ann cb fuel line st input := by
  intro fuel
  induction fuel with
  | zero =>
    intro line st input
    cases input <;> rfl
  | succ fuel ih =>
    intro line st input
    cases input with
    | nil => rfl
    | cons c cs =>
      rw [parseLinesIn, parseLines, if_neg (by simp)]
      simp only [ih]
      intro h; cases h

theorem parseIn_nil (ann : Bool) (cb : List Event → Bool) (content : Bytes) :
    parseIn ann cb content [] = parse ann cb content := by
  unfold parseIn parse
  rw [List.append_nil, parseLinesIn_nil]

theorem parseIn_no_nl (ann : Bool) (cb : List Event → Bool) (content after : Bytes) (h : content.getLast? ≠ some chNl) :
    parseIn ann cb content after = parse ann cb content := by
  unfold parseIn parse
  cases hc : content.getLast? with
  | none => rfl
  | some c =>
    have : c ≠ chNl := fun e => h (by rw [hc, e])
    simp only [if_pos this]

/-- One line. -/
theorem parseIn_line (ann : Bool) (cb : List Event → Bool) (l after : Bytes) :
    parseIn ann cb (l ++ [chNl]) after =
      (parseLine ann cb {} 1 (l ++ chNl :: after)).bind fun a => parseLinesIn ann cb after l.length 1 a.1 a.2 := by
  unfold parseIn
  rw [List.getLast?_concat]
  dsimp only
  rw [if_neg (by decide), List.length_append, List.append_assoc]
  show parseLinesIn ann cb after (l.length + 1) 0 {} (l ++ chNl :: after) = _
  rw [parseLinesIn, if_neg (by simp; omega)]
  rfl

theorem parseLinesIn_done (ann : Bool) (cb : List Event → Bool) (after : Bytes) (fuel line : Nat) (st : St) (input : Bytes)
    (h : input.length ≤ after.length) : parseLinesIn ann cb after fuel line st input = .ok st := by
  rw [parseLinesIn.eq_def]
  dsimp only
  rw [if_pos h]

theorem parseIn_one (ann : Bool) (cb : List Event → Bool) (l after : Bytes) (h : OneLine l) :
    parseIn ann cb (l ++ [chNl]) after = parse ann cb (l ++ [chNl]) := by
  rw [parseIn_line, parseLine_one ann cb {} 1 l after h]
  have := parse_one ann cb l h
  rw [show [chNl] = [(0x0a : UInt8)] from rfl, this]
  cases lineP ann cb {} 1 l with
  | oob => rfl
  | shift => rfl
  | ok st => simp only [Res.bind]; exact parseLinesIn_done ann cb after _ _ _ _ (Nat.le_refl _)

theorem parseIn_swallow (ann : Bool) (cb : List Event → Bool) (l l2 rest : Bytes) (hnl : chNl ∉ l) (h : Dangles l) (h2 : chNl ∉ l2) :
    parseIn ann cb (l ++ [chNl]) (l2 ++ chNl :: rest) = parse ann cb (l ++ bytes!"?" ++ [chNl]) := by
  have h1 := parse_one ann cb _ (swallowed_line l hnl h)
  rw [parseIn_line]
  obtain ⟨g, name, r, w, hok, rfl⟩ := h
  rw [parseLine_swallow ann cb {} 1 g name r w hok l2 rest h2, show [chNl] = [(0x0a : UInt8)] from rfl, h1]
  cases lineP ann cb {} 1 ((LineShape.dangling g name r w).text ++ bytes!"?") with
  | oob => rfl
  | shift => rfl
  | ok st =>
    simp only [Res.bind]
    exact parseLinesIn_done ann cb _ _ _ _ _ (by simp; omega)

theorem skipToEol_none : ∀ (s : Bytes), chNl ∉ s → skipToEol s = .oob
  | [], _ => rfl
  | c :: s, h => by
    rw [skipToEol, if_neg (fun e => h (by simp [e]))]
    exact skipToEol_none s (fun e => h (List.mem_cons_of_mem _ e))

theorem parseLine_overrun (ann : Bool) (cb : List Event → Bool) (st : St) (line : Nat) (g : Nat → Bytes)
    (name : Bytes) (r : RangeText) (w : Bytes) (hok : (LineShape.dangling g name r w).Ok) (after : Bytes) (ha0 : chNl ∉ after) :
    parseLine ann cb st line ((LineShape.dangling g name r w).text ++ chNl :: after) = .oob := by
  obtain ⟨hg, hn, hr, hinv, hw⟩ := hok
  obtain ⟨h1, s1, h2, h3, h4, h5, h6⟩ := upto_tick g name r w (g 9) hg hn hr hinv hw
  rw [LineShape.text, parseLine_upto ann cb st line _ _ name s1 _ _ h1 h2 hn.1 h3, h4]
  have h9 := dropBlank (g 9) [] (hg 9) (by decide)
  rw [List.append_nil] at h9
  have hassign : parseAssign st line r.last r.first
      (0x3d :: (g 7 ++ (w ++ (g 8 ++ 0x27 :: g 9))) ++ chNl :: after) = .oob := by
    unfold parseAssign
    have ha : adv (0x3d :: (g 7 ++ (w ++ (g 8 ++ 0x27 :: g 9))) ++ chNl :: after) =
        (g 7 ++ (w ++ (g 8 ++ 0x27 :: g 9))) ++ chNl :: after := rfl
    simp only [cur_nl, Res.bind_ok, hd_cons, if_true, ha, skipBlank_nl, lead_nl, h5, h6]
    have ha2 : adv (0x27 :: g 9 ++ chNl :: after) = g 9 ++ chNl :: after := rfl
    rw [ha2]
    unfold parseTicked
    have hval : ∀ st : St, parseValue st line chNl after = .oob := by
      intro st
      unfold parseValue
      rw [if_neg (by decide), if_neg (by decide), if_neg (by decide), if_neg (by decide), skipToEol_none after ha0]
      rfl
    have ha3 : adv (chNl :: after) = after := rfl
    simp only [skipBlank_nl, h9, List.nil_append, Res.bind_ok, cur, ha3, hval]
    rfl
  rw [hassign]
  rfl

theorem parseIn_overrun (ann : Bool) (cb : List Event → Bool) (l after : Bytes) (h : Dangles l) (ha : chNl ∉ after) :
    parseIn ann cb (l ++ [chNl]) after = .oob := by
  rw [parseIn_line]
  obtain ⟨g, name, r, w, hok, rfl⟩ := h
  rw [parseLine_overrun ann cb {} 1 g name r w hok after ha]
  rfl

/-- Where `parse` is defined, what follows the line does not matter. -/
theorem parseIn_defined (ann : Bool) (cb : List Event → Bool) (line after : Bytes)
    (hl : (∃ body, line = body ++ [0x0a] ∧ 0x0a ∉ body) ∨ 0x0a ∉ line) (st : St) (h : parse ann cb line = .ok st) :
    parseIn ann cb line after = .ok st := by
  rcases hl with ⟨body, rfl, hnl⟩ | hnl
  · by_cases hd : Dangles body
    · exfalso
      have h1 := parseIn_overrun ann cb body [] hd (by simp)
      rw [parseIn_nil, show [chNl] = [(0x0a : UInt8)] from rfl, h] at h1
      cases h1
    · rw [show [(0x0a : UInt8)] = [chNl] from rfl, parseIn_one ann cb body after ⟨hnl, hd⟩]
      exact h
  · rw [parseIn_no_nl ann cb line after, h]
    intro e
    exact hnl (List.mem_of_getLast? e)

end Verif.Fasm
