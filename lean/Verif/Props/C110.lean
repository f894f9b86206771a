import Verif.Proofs.AssembleTrail
import Verif.Props.C96
/-! # C110: blanks, comments and carriage returns at the end of a line mean nothing -/
namespace Verif.Props
open Verif.Db Verif.Asm Verif.Spec Verif.Text Verif.Xc7
open Verif.Fasm (parse Event)

/-- One line: with blanks, a comment, or a carriage return at its end the parser does exactly the same, unless the trailer
has a quotation mark and the line is wrong anyway. -/
theorem C110_line (ann : Bool) (cb : List Event → Bool) (l t : Bytes) (hl : OneLine l) (ht : Trailer t) :
    parse ann cb (l ++ t ++ [0x0a]) = parse ann cb (l ++ [0x0a]) ∨
      (0x22 ∈ t ∧ ∃ st, parse ann cb (l ++ [0x0a]) = .ok st ∧ st.result = .error) := by
  rw [Fasm.parse_one ann cb _ (Fasm.oneLine_trail hl ht), Fasm.parse_one ann cb _ hl]
  exact Fasm.lineP_trailer hl ht ann cb {} 1

/-- Whole texts. -/
theorem C110_text (ann : Bool) (cb : List Event → Bool) (ls : List (Bytes × Bytes))
    (h : ∀ x ∈ ls, OneLine x.1 ∧ Trailer x.2 ∧ 0x22 ∉ x.2) :
    parse ann cb (unlines (ls.map fun x => x.1 ++ x.2)) = parse ann cb (unlines (ls.map (·.1))) := by
  rw [Fasm.parse_one_lines ann cb, Fasm.parse_one_lines ann cb]
  · exact Fasm.linesP_trailer ann cb ls 0 {} h
  · intro m hm
    obtain ⟨x, hx, rfl⟩ := List.mem_map.1 hm
    exact (h x hx).1
  · intro m hm
    obtain ⟨x, hx, rfl⟩ := List.mem_map.1 hm
    exact Fasm.oneLine_trail (h x hx).1 (h x hx).2.1

theorem parse_unfinished (ann : Bool) (cb : List Event → Bool) (a last : Bytes) (h0 : last ≠ []) (hl : 0x0a ∉ last) :
    parse ann cb (a ++ last) = .ok (({} : Fasm.St).report 0 .error) := by
  have h1 : (a ++ last).getLast? = some (last.getLast h0) := by rw [List.getLast?_append, List.getLast?_eq_some_getLast h0]; rfl
  unfold parse
  rw [h1]
  dsimp only
  rw [if_pos]
  intro h
  have h' := List.getLast_mem h0
  rw [h] at h'
  exact hl h'

theorem cr_no_quote : (0x22 : UInt8) ∉ ([0x0d] : Bytes) := by decide

/-- Files with carriage returns: the same calls, messages and result. -/
theorem C110_crlf (ann : Bool) (cb : List Event → Bool) (text : Bytes)
    (h : ∀ pre l post, text = pre ++ l ++ 0x0a :: post → (pre = [] ∨ pre.getLast? = some 0x0a) → ¬ Dangles l) :
    parse ann cb (crlf text) = parse ann cb text := by
  obtain ⟨ls, last, rfl, h1, h2⟩ := text_lines text
  rw [crlf_lines ls last h1 h2]
  by_cases h0 : last = []
  · subst h0
    rw [List.append_nil, List.append_nil, C110_text ann cb (ls.map fun l => (l, [0x0d]))]
    · rw [List.map_map]
      show parse ann cb (unlines (ls.map fun l => l)) = _
      rw [List.map_id']
    · intro x hx
      obtain ⟨l, hl, rfl⟩ := List.mem_map.1 hx
      refine ⟨⟨h1 l hl, ?_⟩, trailer_cr, cr_no_quote⟩
      obtain ⟨a, b, rfl⟩ := List.append_of_mem hl
      refine h (unlines a) l (unlines b) (by simp [unlines]) ?_
      cases ha : a with
      | nil => exact Or.inl rfl
      | cons y ys =>
        right
        rw [← ha]
        exact Fasm.getLast_unlines a (by rw [ha]; simp)
  · rw [parse_unfinished ann cb _ last h0 h2, parse_unfinished ann cb _ last h0 h2]

theorem lines_trail (ls : List (Bytes × Bytes)) (last : Bytes) (h : ∀ x ∈ ls, 0x0a ∉ x.1 ∧ Trailer x.2) (hl : 0x0a ∉ last) :
    getlines (unlines (ls.map (·.1)) ++ last) = (ls.map (·.1)).map (· ++ [0x0a]) ++ (if last = [] then [] else [last]) ∧
    getlines (unlines (ls.map fun x => x.1 ++ x.2) ++ last) =
      (ls.map fun x => x.1 ++ x.2).map (· ++ [0x0a]) ++ (if last = [] then [] else [last]) := by
  constructor
  · refine getlines_unlines _ last ?_ hl
    intro l hl
    obtain ⟨x, hx, rfl⟩ := List.mem_map.1 hl
    exact (h x hx).1
  · refine getlines_unlines _ last ?_ hl
    intro l hl
    obtain ⟨x, hx, rfl⟩ := List.mem_map.1 hl
    intro hm
    rcases List.mem_append.1 hm with hm | hm
    · exact (h x hx).1 hm
    · exact not_mem_trailer (h x hx).2 hm

/-- The assembler: a design that assembles gives the same frames with trailers added to any of its lines; and if no trailer
has a quotation mark it assembles with them only if it does without.  Lines may be anything. -/
theorem C110_assemble (ord : HashOrder) (ls : List (Bytes × Bytes)) (last : Bytes) (db : PartDatabase) (frames : Frames)
    (h : ∀ x ∈ ls, 0x0a ∉ x.1 ∧ Trailer x.2) (hl : 0x0a ∉ last) (r : PartDatabase × Frames) :
    (assembleFrames ord (unlines (ls.map (·.1)) ++ last) db frames = .ok r →
      assembleFrames ord (unlines (ls.map fun x => x.1 ++ x.2) ++ last) db frames = .ok r) ∧
    ((∀ x ∈ ls, 0x22 ∉ x.2) → assembleFrames ord (unlines (ls.map fun x => x.1 ++ x.2) ++ last) db frames = .ok r →
      assembleFrames ord (unlines (ls.map (·.1)) ++ last) db frames = .ok r) := by
  obtain ⟨e1, e2⟩ := lines_trail ls last h hl
  simp only [assembleFrames, Outcome.bind_eq_ok, lines_plain]
  rw [e1, e2]
  constructor
  · rintro ⟨p, hp, q, hq, hr⟩
    exact ⟨p, hp, q, (mapM_trail_ok ls _ h q).1 hq, hr⟩
  · rintro hn ⟨p, hp, q, hq, hr⟩
    exact ⟨p, hp, q, (mapM_trail_ok ls _ h q).2 hn hq, hr⟩

/-- Without lines that stop after a tick the two runs end in the same way also when they fail. -/
theorem C110_assemble_same (ord : HashOrder) (ls : List (Bytes × Bytes)) (last : Bytes) (db : PartDatabase) (frames : Frames)
    (h : ∀ x ∈ ls, OneLine x.1 ∧ Trailer x.2 ∧ 0x22 ∉ x.2) (hl : 0x0a ∉ last) :
    assembleFrames ord (unlines (ls.map fun x => x.1 ++ x.2) ++ last) db frames =
      assembleFrames ord (unlines (ls.map (·.1)) ++ last) db frames := by
  obtain ⟨e1, e2⟩ := lines_trail ls last (fun x hx => ⟨(h x hx).1.1, (h x hx).2.1⟩) hl
  have hlast : ∀ l ∈ (if last = [] then [] else [last]), (0x0a : UInt8) ∉ l := by
    intro l h'
    split at h'
    · cases h'
    · rw [List.mem_singleton.1 h']; exact hl
  simp only [assembleFrames]
  rw [e1, e2, assembleLines_plain, assembleLines_plain, mapM_trail_eq ls _ h]
  · intro l hm
    rcases List.mem_append.1 hm with hm | hm
    · obtain ⟨y, hy, rfl⟩ := List.mem_map.1 hm
      obtain ⟨x, hx, rfl⟩ := List.mem_map.1 hy
      exact Or.inl ⟨_, rfl, (h x hx).1⟩
    · exact Or.inr (hlast l hm)
  · intro l hm
    rcases List.mem_append.1 hm with hm | hm
    · obtain ⟨y, hy, rfl⟩ := List.mem_map.1 hm
      obtain ⟨x, hx, rfl⟩ := List.mem_map.1 hy
      exact Or.inl ⟨_, rfl, Fasm.oneLine_trail (h x hx).1 (h x hx).2.1⟩
    · exact Or.inr (hlast l hm)

/-- A design with carriage returns assembles exactly when it does without, and gives the same frames: every text. -/
theorem C110_assemble_crlf (ord : HashOrder) (text : Bytes) (db : PartDatabase) (frames : Frames) (r : PartDatabase × Frames) :
    assembleFrames ord (crlf text) db frames = .ok r ↔ assembleFrames ord text db frames = .ok r := by
  obtain ⟨ls, last, rfl, h1, h2⟩ := text_lines text
  have h := C110_assemble ord (ls.map fun l => (l, [0x0d])) last db frames (by
    intro x hx
    obtain ⟨l, hl, rfl⟩ := List.mem_map.1 hx
    exact ⟨h1 l hl, trailer_cr⟩) h2 r
  have e : (ls.map fun l => (l, ([0x0d] : Bytes))).map (·.1) = ls := by
    rw [List.map_map]
    show ls.map (fun l => l) = ls
    exact List.map_id' ls
  rw [e] at h
  rw [crlf_lines ls last h1 h2]
  refine ⟨h.2 ?_, h.1⟩
  intro x hx
  obtain ⟨l, hl, rfl⟩ := List.mem_map.1 hx
  exact cr_no_quote

/-- The invocation with carriage returns in everything that is read as FASM. -/
def crlfInput (inv : Invocation) : Invocation :=
  { inv with stdin := crlf inv.stdin, openFile := fun f => (inv.openFile f).map crlf }

theorem inputText_crlf (inv : Invocation) : inputText (crlfInput inv) = (inputText inv).map crlf := by
  unfold inputText crlfInput
  dsimp only
  split
  · split <;> rfl
  · rfl

theorem main_zero (env : Env) (load : LoadOrder) (ord : HashOrder) (inv : Invocation) (out : OStream) (fuel : Nat) (o : OStream) :
    main env load ord inv out fuel = some (.ok (0, o)) ↔
      ¬ inv.args.length > 2 ∧ ∃ path, getOptFlagOrFromEnv inv.dbFlag inv.dbEnv = .ok path ∧
        ¬ (path = [] ∨ env.fileExists [path] = false) ∧ ¬ inv.part = [] ∧
        ∃ db, parseDatabase env load [path] inv.part = .ok db ∧
        ∃ text, inputText inv = some text ∧ ∃ r, assembleFrames ord text db [] = .ok r ∧
          encode r.1.tiles.part kFasm kSource inv.date inv.time r.2 out fuel = some (.ok o) := by
  constructor
  · intro h
    unfold main at h
    split at h
    · cases h
    rename_i ha
    refine ⟨ha, ?_⟩
    cases hp : getOptFlagOrFromEnv inv.dbFlag inv.dbEnv with
    | err => rw [hp] at h; cases h
    | abort => rw [hp] at h; cases h
    | ub => rw [hp] at h; cases h
    | ok path =>
      rw [hp] at h
      dsimp only at h
      refine ⟨path, rfl, ?_⟩
      split at h
      · cases h
      rename_i hpath
      refine ⟨hpath, ?_⟩
      split at h
      · cases h
      rename_i hpart
      refine ⟨hpart, ?_⟩
      cases hd : parseDatabase env load [path] inv.part with
      | err => rw [hd] at h; cases h
      | abort => rw [hd] at h; cases h
      | ub => rw [hd] at h; cases h
      | ok db =>
        rw [hd] at h
        refine ⟨db, rfl, ?_⟩
        dsimp only at h
        unfold mainLoaded at h
        cases ht : inputText inv with
        | none => rw [ht] at h; cases h
        | some text =>
          rw [ht] at h
          refine ⟨text, rfl, ?_⟩
          dsimp only at h
          cases hr : assembleFrames ord text db [] with
          | err => rw [hr] at h; cases h
          | abort => rw [hr] at h; cases h
          | ub => rw [hr] at h; cases h
          | ok r =>
            rw [hr] at h
            refine ⟨r, rfl, ?_⟩
            dsimp only at h
            cases he : encode r.1.tiles.part kFasm kSource inv.date inv.time r.2 out fuel with
            | none => rw [he] at h; cases h
            | some x =>
              rw [he] at h
              cases x with
              | err => cases h
              | abort => cases h
              | ub => cases h
              | ok o' => cases h; rfl
  · rintro ⟨h1, path, h2, h3, h4, db, h5, text, h6, r, h7, h8⟩
    unfold main
    rw [if_neg h1, h2]
    dsimp only
    rw [if_neg h3, if_neg h4, h5]
    dsimp only
    unfold mainLoaded
    rw [h6]
    dsimp only
    rw [h7]
    dsimp only
    rw [h8]
    rfl

/-- The program: exit status 0 and the file, exactly when it is so for the same FASM without carriage returns. -/
theorem C110_program (env : Env) (load : LoadOrder) (ord : HashOrder) (inv : Invocation) (out : OStream) (fuel : Nat) (o : OStream) :
    main env load ord (crlfInput inv) out fuel = some (.ok (0, o)) ↔ main env load ord inv out fuel = some (.ok (0, o)) := by
  rw [main_zero, main_zero, inputText_crlf]
  show (¬ inv.args.length > 2 ∧ _) ↔ _
  refine and_congr Iff.rfl (exists_congr fun path => and_congr Iff.rfl (and_congr Iff.rfl (and_congr Iff.rfl
    (exists_congr fun db => and_congr Iff.rfl ?_))))
  constructor
  · rintro ⟨text, ht, r, hr, he⟩
    cases hi : inputText inv with
    | none => rw [hi] at ht; cases ht
    | some t =>
      rw [hi] at ht
      cases ht
      exact ⟨t, rfl, r, (C110_assemble_crlf ord t db [] r).1 hr, he⟩
  · rintro ⟨text, ht, r, hr, he⟩
    exact ⟨crlf text, by rw [ht]; rfl, r, (C110_assemble_crlf ord text db [] r).2 hr, he⟩

/-! ## Examples -/

theorem one_line_example : OneLine bytes!"A.B[3:0] = 4'b1010" :=
  ⟨by decide, fun h => by
    obtain ⟨_, mx, mn, _, h⟩ := (Fasm.dangles_iff _).1 h
    exact absurd h (by unfold Fasm.AssignDangles; decide +kernel)⟩

theorem trailer_example : Trailer bytes!" \t# four bits {\r" :=
  ⟨bytes!" \t", bytes!"# four bits {\r", by decide, (by unfold Blank; decide), by decide, Or.inr (Or.inl rfl)⟩

/-- The hypotheses of `C110_text` are met, and the text is read. -/
example : parse true (fun _ => true) (unlines [bytes!"A.B[3:0] = 4'b1010" ++ bytes!" \t# four bits {\r"]) =
    parse true (fun _ => true) (unlines [bytes!"A.B[3:0] = 4'b1010"]) ∧
    parse true (fun _ => true) (unlines [bytes!"A.B[3:0] = 4'b1010"]) =
      .ok { trace := [.feature 1 bytes!"A.B" 0 4 10] } :=
  ⟨C110_text true _ [(_, _)] (by
    intro x hx
    rw [List.mem_singleton.1 hx]
    exact ⟨one_line_example, trailer_example, by decide⟩), by decide +kernel⟩

/-- The exception is real: a quotation mark in a comment can end the text of an annotation left open. -/
theorem C110_quote : Trailer bytes!"# \"}" ∧
    (∃ st, parse true (fun _ => true) bytes!"A {k=\"v\n" = .ok st ∧ st.result = .error) ∧
    ∃ st, parse true (fun _ => true) bytes!"A {k=\"v# \"}\n" = .ok st ∧ st.result = .success :=
  ⟨⟨[], _, rfl, (by intro c hc; cases hc), by decide, Or.inr (Or.inl rfl)⟩,
    ⟨_, rfl, by decide +kernel⟩, ⟨_, rfl, by decide +kernel⟩⟩

/-- A status-0 run with carriage returns. -/
example : ∃ fuel0, ∀ fuel ≥ fuel0, ∃ o, main fileEnv sameLoad sameOrder (crlfInput fileInv) ⟨[], 0, true, false⟩ fuel = some (.ok (0, o)) := by
  obtain ⟨_, _, fuel0, hrun⟩ := file_example
  refine ⟨fuel0, fun fuel hf => ?_⟩
  obtain ⟨o, _, h1, _⟩ := hrun fuel hf
  exact ⟨o, (C110_program _ _ _ _ _ _ _).2 h1⟩

end Verif.Props
