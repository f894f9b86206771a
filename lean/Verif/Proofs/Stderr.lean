import Verif.Model.Stderr
import Verif.Spec.Stderr
import Verif.Proofs.AssembleLines
import Verif.Proofs.Assembler
import Verif.Props.C92
/-! # The program with its messages -/
namespace Verif.Fasm
open Verif.Spec

theorem parseLinesInM_done (ann : Bool) (cb : List Event → Bool) (after : Bytes) (fuel line : Nat) (o : Log) (input : Bytes)
    (h : input.length ≤ after.length) : parseLinesInM ann cb after fuel line o input = .ok o := by
  rw [parseLinesInM.eq_def]
  dsimp only
  rw [if_pos h]

theorem parseInM_line (ann : Bool) (cb : List Event → Bool) (l after : Bytes) :
    parseInM ann cb (l ++ [chNl]) after =
      (parseLineM ann cb {} 1 (l ++ chNl :: after)).bind fun a => parseLinesInM ann cb after l.length 1 a.1 a.2 := by
  unfold parseInM
  rw [List.getLast?_concat]
  dsimp only
  rw [if_neg (by decide), List.length_append, List.append_assoc]
  show parseLinesInM ann cb after (l.length + 1) 0 {} (l ++ chNl :: after) = _
  rw [parseLinesInM, if_neg (by simp; omega)]
  rfl

/-- A line that does not stop after the tick. -/
theorem parseInM_one (ann : Bool) (cb : List Event → Bool) (l after : Bytes) (hnl : chNl ∉ l) (hd : ¬ LineDangles l) :
    parseInM ann cb (l ++ [chNl]) after =
      (lineP ann cb {} 1 l).bind fun st => .ok (({} : Log).add st (lineT ann 1 l)) := by
  rw [parseInM_line, lineM_nl ann cb {} 1 l after hnl hd]
  show ((lineP ann cb {} 1 l).bind _).bind _ = _
  cases lineP ann cb {} 1 l with
  | oob => rfl
  | shift => rfl
  | ok st => simp only [Res.bind]; exact parseLinesInM_done ann cb after _ _ _ _ (Nat.le_refl _)

theorem parseInM_no_nl (ann : Bool) (cb : List Event → Bool) (content after : Bytes) (h : content.getLast? ≠ some chNl) (hne : content ≠ []) :
    parseInM ann cb content after = .ok (({} : Log).print 0 .error msgNoNewline) := by
  unfold parseInM
  cases hc : content.getLast? with
  | none => exact absurd (List.getLast?_eq_none_iff.1 hc) hne
  | some c =>
    have : c ≠ chNl := fun e => h (by rw [hc, e])
    simp only [if_pos this]

/-- Forgetting the texts. -/
theorem parseLinesInM_er (ann : Bool) (cb : List Event → Bool) (after : Bytes) : ∀ (fuel line : Nat) (o : Log) (input : Bytes),
    (parseLinesInM ann cb after fuel line o input).bind (fun o => .ok o.st) = parseLinesIn ann cb after fuel line o.st input := by
  intro fuel
  induction fuel with
  | zero =>
    intro line o input
    rw [parseLinesInM.eq_def, parseLinesIn.eq_def]
    dsimp only
    split <;> rfl
  | succ fuel ih =>
    intro line o input
    rw [parseLinesInM.eq_def, parseLinesIn.eq_def]
    dsimp only
    split
    · rfl
    · have h := line_er ann cb o ((line + 1) % 2 ^ 32) input
      revert h
      cases parseLineM ann cb o ((line + 1) % 2 ^ 32) input <;> cases parseLine ann cb o.st ((line + 1) % 2 ^ 32) input <;> intro h
      all_goals first | exact h.elim | rfl | skip
      rename_i a b
      obtain ⟨a1, a2⟩ := a
      obtain ⟨b1, b2⟩ := b
      obtain ⟨h1, h2⟩ : a1.st = b1 ∧ a2 = b2 := h
      subst h1 h2
      exact ih _ _ _

theorem parseInM_er (ann : Bool) (cb : List Event → Bool) (content after : Bytes) :
    (parseInM ann cb content after).bind (fun o => .ok o.st) = parseIn ann cb content after := by
  unfold parseInM parseIn
  cases content.getLast? with
  | none => rfl
  | some c =>
    dsimp only
    split
    · rfl
    · exact parseLinesInM_er ann cb after _ _ _ _

end Verif.Fasm

namespace Verif.Fasm
open Verif.Spec

theorem parseLinesInM_nil (ann : Bool) (cb : List Event → Bool) : ∀ (fuel line : Nat) (o : Log) (input : Bytes),
    parseLinesInM ann cb [] fuel line o input = parseLinesM ann cb fuel line o input := by
  intro fuel
  induction fuel with
  | zero =>
    intro line o input
    cases input <;> rfl
  | succ fuel ih =>
    intro line o input
    cases input with
    | nil => rfl
    | cons c cs =>
      rw [parseLinesInM, parseLinesM, if_neg (by simp)]
      simp only [ih]
      intro h; cases h

theorem parseInM_nil (ann : Bool) (cb : List Event → Bool) (content : Bytes) :
    parseInM ann cb content [] = parseM ann cb content := by
  unfold parseInM parseM
  rw [List.append_nil, parseLinesInM_nil]
  rfl

/-- Where `parse` is defined, what follows the line does not matter. -/
theorem parseInM_defined (cb : List Event → Bool) (line after : Bytes)
    (hl : (∃ body, line = body ++ [0x0a] ∧ 0x0a ∉ body) ∨ 0x0a ∉ line) (st : St) (h : parse true cb line = .ok st) :
    ∃ o, parseInM true cb line after = .ok o ∧ parseM true cb line = .ok o ∧ o.st = st := by
  have key : parseInM true cb line after = parseM true cb line := by
    rcases hl with ⟨body, rfl, hnl⟩ | hnl
    · have hnd : ¬ Dangles body := by
        intro hd
        have h1 := parseIn_overrun true cb body [] hd (by simp)
        rw [parseIn_nil, show [chNl] = [(0x0a : UInt8)] from rfl, h] at h1
        cases h1
      obtain ⟨s, hok, rfl⟩ := shape_exists body
      have hs : s.Swallows = false := by
        cases s with
        | dangling g name r w => exact absurd ⟨g, name, r, w, hok, rfl⟩ hnd
        | bare => rfl
        | feature => rfl
        | openRange => rfl
        | inverted => rfl
        | badFormat => rfl
      have hd := shape_not_dangles s hok hs
      rw [show [(0x0a : UInt8)] = [chNl] from rfl, ← parseInM_nil, parseInM_one true cb _ after hnl hd,
        parseInM_one true cb _ [] hnl hd]
    · rw [← parseInM_nil]
      by_cases hne : line = []
      · subst hne; rfl
      · have : line.getLast? ≠ some chNl := fun e => hnl (List.mem_of_getLast? e)
        rw [parseInM_no_nl true cb line after this hne, parseInM_no_nl true cb line [] this hne]
  have h1 := parseInM_er true cb line after
  rw [parseIn_defined true cb line after hl st h] at h1
  cases hp : parseInM true cb line after with
  | oob => rw [hp] at h1; cases h1
  | shift => rw [hp] at h1; cases h1
  | ok o =>
    rw [hp] at h1
    exact ⟨o, rfl, by rw [← key, hp], by cases h1; rfl⟩

theorem lineMessages_shape (n : Nat) (hn : n < 2 ^ 31) (body : Bytes) (hd : ¬ Dangles body) {ts : List Bytes}
    (h : LineMessages n (body ++ [0x0a]) ts) : lineT true n body = ts := by
  generalize hl : body ++ [0x0a] = l at h
  cases h with
  | shape s hok hnl h =>
    have : body = s.text := List.append_cancel_right hl
    subst this
    refine lineT_says true n hn s hok ?_ h
    cases s with
    | dangling g name r w => exact absurd ⟨g, name, r, w, hok, rfl⟩ hd
    | bare => rfl
    | feature => rfl
    | openRange => rfl
    | inverted => rfl
    | badFormat => rfl
  | noNewline _ hne h => exact absurd (by rw [← hl]; simp) h

theorem lineMessages_exists (n : Nat) (body : Bytes) (hnl : 0x0a ∉ body) : ∃ ts, LineMessages n (body ++ [0x0a]) ts := by
  obtain ⟨s, hok, rfl⟩ := shape_exists body
  obtain ⟨ts, h⟩ := lineSays_exists true n s hnl
  exact ⟨ts, .shape s hok hnl h⟩

end Verif.Fasm

namespace Verif.Asm
open Verif.Db Verif.Spec Verif.Text Verif.Fasm

theorem assembleLineM_snd (after line : Bytes) : (assembleLineM after line).2 = assembleLine after line := by
  unfold assembleLineM assembleLine
  rw [← parseInM_er true _ line after]
  cases parseInM true (fun _ => true) line after <;> rfl

/-- The texts of a line: those of the line with number 1. -/
theorem assembleLineM_says (after line : Bytes) (hl : LineLike line) (hne : line ≠ []) (h : assembleLine after line ≠ .ub) :
    LineMessages 1 line (assembleLineM after line).1 := by
  rw [← assembleLineM_snd] at h
  rcases hl with ⟨body, rfl, hnl⟩ | hnl
  · obtain ⟨s, hok, rfl⟩ := shape_exists body
    obtain ⟨ts, hts⟩ := lineSays_exists true 1 s hnl
    by_cases hs : s.Swallows = false
    · have e := lineT_says true 1 (by decide) s hok hs hts
      unfold assembleLineM at h ⊢
      rw [show [(0x0a : UInt8)] = [chNl] from rfl, parseInM_one true _ _ after hnl (shape_not_dangles s hok hs)] at h ⊢
      cases hp : lineP true (fun _ => true) {} 1 s.text with
      | oob => rw [hp] at h; exact absurd rfl h
      | shift => rw [hp] at h; exact absurd rfl h
      | ok st =>
        simp only [Res.bind, Log.add, List.nil_append, e]
        exact .shape s hok hnl hts
    · cases s with
      | bare => exact absurd rfl hs
      | feature => exact absurd rfl hs
      | openRange => exact absurd rfl hs
      | inverted => exact absurd rfl hs
      | badFormat => exact absurd rfl hs
      | dangling g name r w =>
        unfold assembleLineM at h ⊢
        by_cases ha : (0x0a : UInt8) ∈ after
        · obtain ⟨l2, rest, rfl, h2⟩ := first_nl after ha
          rw [show [(0x0a : UInt8)] = [chNl] from rfl, show l2 ++ 0x0a :: rest = l2 ++ chNl :: rest from rfl, parseInM_line] at h ⊢
          cases hp : parseLineM true (fun _ => true) {} 1 ((LineShape.dangling g name r w).text ++ chNl :: (l2 ++ chNl :: rest)) with
          | oob => rw [hp] at h; exact absurd rfl h
          | shift => rw [hp] at h; exact absurd rfl h
          | ok x =>
            obtain ⟨o1, rest1⟩ := x
            obtain ⟨hout, hr⟩ := lineM_swallow true _ {} 1 g name r w hok l2 rest h2 o1 rest1 hp
            have hlen : rest1.length ≤ (l2 ++ chNl :: rest).length := by rw [hr]; simp; omega
            simp only [Res.bind, parseLinesInM_done true _ _ _ _ _ _ hlen]
            rw [hout]
            cases hts
            exact .shape _ hok hnl (.dangling g name r w)
        · exfalso
          apply h
          have h1 := parseInM_er true (fun _ => true) ((LineShape.dangling g name r w).text ++ [0x0a]) after
          rw [show [(0x0a : UInt8)] = [chNl] from rfl, parseIn_overrun true _ _ after ⟨g, name, r, w, hok, rfl⟩ ha] at h1
          rw [show [(0x0a : UInt8)] = [chNl] from rfl]
          cases hp : parseInM true (fun _ => true) ((LineShape.dangling g name r w).text ++ [chNl]) after with
          | ok o => rw [hp] at h1; cases h1
          | oob => rfl
          | shift => rfl
  · unfold assembleLineM
    rw [parseInM_no_nl true _ line after (fun e => hnl (List.mem_of_getLast? e)) hne]
    exact .noNewline line hne hnl

/-- An accepted line: what is printed is what the parser prints about it. -/
theorem assembleLineM_parse (after line : Bytes) (hl : LineLike line) (st : Fasm.St) (h : parse true (fun _ => true) line = .ok st) :
    ∃ o, parseM true (fun _ => true) line = .ok o ∧ o.st = st ∧ (assembleLineM after line).1 = o.out := by
  obtain ⟨o, h1, h2, h3⟩ := parseInM_defined (fun _ => true) line after hl st h
  refine ⟨o, h2, h3, ?_⟩
  unfold assembleLineM
  rw [h1]

theorem plainLine_ok_iff (line : Bytes) : (∃ fs, plainLine line = .ok fs) ↔ Accepted line := by
  unfold plainLine Accepted
  cases parse true (fun _ => true) line with
  | oob => exact ⟨(fun ⟨_, h⟩ => by cases h), (fun ⟨_, h, _⟩ => by cases h)⟩
  | shift => exact ⟨(fun ⟨_, h⟩ => by cases h), (fun ⟨_, h, _⟩ => by cases h)⟩
  | ok st =>
    dsimp only
    constructor
    · rintro ⟨fs, h⟩
      split at h
      · cases h
      · rename_i hn
        exact ⟨st, rfl, fun e => hn (Or.inl e), fun e => hn (Or.inr e)⟩
    · rintro ⟨st', h, h1, h2⟩
      cases h
      exact ⟨_, if_neg (by rintro (h | h); exact h1 h; exact h2 h)⟩

theorem assembleLine_ok_iff (after line : Bytes) (hl : LineLike line) :
    (∃ fs, assembleLine after line = .ok fs) ↔ Accepted line := by
  rw [← plainLine_ok_iff]
  by_cases h : plainLine line = .ub
  · rw [h]
    constructor
    · rintro ⟨fs, hf⟩
      rcases assembleLine_ub after line hl h with h' | h' <;> rw [h'] at hf <;> cases hf
    · rintro ⟨_, h⟩; cases h
  · rw [assembleLine_plain after line hl h]

theorem assembleLinesM_snd : ∀ (ls : List Bytes) (buf : Bytes), (assembleLinesM buf ls).2 = assembleLines buf ls := by
  intro ls
  induction ls with
  | nil => intro buf; rfl
  | cons l ls ih =>
    intro buf
    rw [assembleLinesM, assembleLines, ← assembleLineM_snd]
    dsimp only
    cases (assembleLineM ((getlineBuffer buf l).drop l.length) l).2 with
    | ok fs => rw [Outcome.bind_ok, ← ih]
    | err => rfl
    | abort => rfl
    | ub => rfl

/-- All lines accepted. -/
theorem assembleLinesM_ok (number : Nat → Nat) (hnum : ∀ i, number i = 1) : ∀ (ls : List Bytes) (buf : Bytes) (i : Nat),
    (∀ l ∈ ls, LineLike l ∧ l ≠ []) → ∀ r, assembleLines buf ls = .ok r →
    (∀ l ∈ ls, Accepted l) ∧ Messages number i ls (assembleLinesM buf ls).1 := by
  intro ls
  induction ls with
  | nil => intro buf i _ r _; exact ⟨by simp, .nil i⟩
  | cons l ls ih =>
    intro buf i hl r h
    rw [assembleLines] at h
    obtain ⟨fs, h1, h⟩ := Outcome.bind_eq_ok.1 h
    obtain ⟨r', h2, h⟩ := Outcome.bind_eq_ok.1 h
    obtain ⟨hl0, hne⟩ := hl l List.mem_cons_self
    obtain ⟨ha, hm⟩ := ih (getlineBuffer buf l) (i + 1) (fun x hx => hl x (List.mem_cons_of_mem _ hx)) r' h2
    refine ⟨?_, ?_⟩
    · intro x hx
      rcases List.mem_cons.1 hx with rfl | hx
      · exact (assembleLine_ok_iff _ _ hl0).1 ⟨fs, h1⟩
      · exact ha x hx
    · rw [assembleLinesM, assembleLineM_snd, h1]
      refine .cons ?_ hm
      rw [hnum]
      exact assembleLineM_says _ l hl0 hne (by rw [h1]; simp)

/-- The first line that is not accepted. -/
theorem assembleLinesM_err (number : Nat → Nat) (hnum : ∀ i, number i = 1) : ∀ (ls : List Bytes) (buf : Bytes) (i : Nat),
    (∀ l ∈ ls, LineLike l ∧ l ≠ []) → assembleLines buf ls = .err →
    ∃ pre bad post, ls = pre ++ bad :: post ∧ (∀ l ∈ pre, Accepted l) ∧ ¬ Accepted bad ∧
      Messages number i (pre ++ [bad]) (assembleLinesM buf ls).1 := by
  intro ls
  induction ls with
  | nil => intro buf i _ h; cases h
  | cons l ls ih =>
    intro buf i hl h
    obtain ⟨hl0, hne⟩ := hl l List.mem_cons_self
    rw [assembleLines] at h
    cases h1 : assembleLine ((getlineBuffer buf l).drop l.length) l with
    | ok fs =>
      rw [h1, Outcome.bind_ok] at h
      have h2 : assembleLines (getlineBuffer buf l) ls = .err := by
        cases h2 : assembleLines (getlineBuffer buf l) ls with
        | ok r => rw [h2] at h; cases h
        | err => rfl
        | abort => rw [h2] at h; cases h
        | ub => rw [h2] at h; cases h
      obtain ⟨pre, bad, post, e, h3, h4, h5⟩ := ih (getlineBuffer buf l) (i + 1) (fun x hx => hl x (List.mem_cons_of_mem _ hx)) h2
      refine ⟨l :: pre, bad, post, by rw [e]; rfl, ?_, h4, ?_⟩
      · intro x hx
        rcases List.mem_cons.1 hx with rfl | hx
        · exact (assembleLine_ok_iff _ _ hl0).1 ⟨fs, h1⟩
        · exact h3 x hx
      · rw [assembleLinesM, assembleLineM_snd, h1]
        refine .cons ?_ h5
        rw [hnum]
        exact assembleLineM_says _ l hl0 hne (by rw [h1]; simp)
    | err =>
      refine ⟨[], l, ls, rfl, by simp, ?_, ?_⟩
      · intro ha
        obtain ⟨fs, hf⟩ := (assembleLine_ok_iff _ _ hl0).2 ha
        rw [h1] at hf; cases hf
      · rw [assembleLinesM, assembleLineM_snd, h1]
        have := Messages.cons (number := number) (i := i) (l := l) (ls := []) (us := [])
          (by rw [hnum]; exact assembleLineM_says _ l hl0 hne (by rw [h1]; simp)) (.nil _)
        rw [List.append_nil] at this
        exact this
    | abort => rw [h1] at h; cases h
    | ub => rw [h1] at h; cases h

theorem inputLines_getlines {text : Bytes} {ls : List Bytes} (h : InputLines text ls) : getlines text = ls := by
  induction h with
  | nil => rfl
  | last l hne h => exact getlines_last l hne h
  | line body text ls h t ih => rw [getlines_cut body text h, ih]

theorem inputLines_exists (text : Bytes) : InputLines text (getlines text) := by
  obtain ⟨n, hlen⟩ : ∃ n, text.length = n := ⟨_, rfl⟩
  induction n using Nat.strongRecOn generalizing text with
  | _ n ih =>
    rcases newline_cases text with h | ⟨body, rest, rfl, h⟩
    · by_cases hne : text = []
      · subst hne; exact .nil
      · rw [getlines_last text hne h]; exact .last text hne h
    · rw [getlines_cut _ _ h]
      exact .line body rest _ h (ih rest.length (by rw [← hlen]; simp; omega) rest rfl)

theorem inputLines_like {text : Bytes} {ls : List Bytes} (h : InputLines text ls) : ∀ l ∈ ls, LineLike l ∧ l ≠ [] := by
  induction h with
  | nil => simp
  | last l hne h => intro x hx; rw [List.mem_singleton.1 hx]; exact ⟨Or.inr h, hne⟩
  | line body text ls h t ih =>
    intro x hx
    rcases List.mem_cons.1 hx with rfl | hx
    · exact ⟨Or.inl ⟨body, rfl, h⟩, by simp⟩
    · exact ih x hx

theorem processFeaturesM_snd (ord : HashOrder) : ∀ (fs : List (FasmFeature × Nat)) (s : PartDatabase × Frames),
    (processFeaturesM ord fs s).2 = fs.foldlM (processFeature ord) s := by
  intro fs
  induction fs with
  | nil => intro s; rfl
  | cons e fs ih =>
    intro s
    rw [processFeaturesM, List.foldlM_cons]
    cases h : processFeature ord s e with
    | ok s' => exact ih s'
    | err => rfl
    | abort => rfl
    | ub => rfl

theorem assembleFramesM_snd (ord : HashOrder) (text : Bytes) (db : PartDatabase) (frames : Frames) :
    (assembleFramesM ord text db frames).2.2 = assembleFrames ord text db frames := by
  unfold assembleFramesM assembleFrames
  cases pudcbFeatures db.tiles.grid with
  | err => rfl
  | abort => rfl
  | ub => rfl
  | ok pudcb =>
    dsimp only
    rw [Outcome.bind_ok, ← assembleLinesM_snd]
    cases (assembleLinesM [] (getlines text)).2 with
    | err => rfl
    | abort => rfl
    | ub => rfl
    | ok parsed =>
      dsimp only
      rw [Outcome.bind_ok]
      cases stepdownFeatures ord db.tiles.banks db.tiles.grid (pudcb ++ parsed.flatten) with
      | err => rfl
      | abort => rfl
      | ub => rfl
      | ok sd => exact processFeaturesM_snd ord _ _

end Verif.Asm
