import Verif.Props.C119
import Verif.Props.C122
/-! # C66, C121: not only successful runs -/
namespace Verif.Props
open Verif.Db Verif.Asm Verif.Spec Verif.Text Verif.Xc7

theorem database_err (x : LibTexts) (env : Env) (load : LoadOrder) (root : Path) (part : Bytes) :
    parseDatabase env load root part = .err ↔ ∃ m, DatabaseTrouble x env root part (.says m) := by
  have hsame := C104_same_database x env load root part
  have hdbt := C104_database x env load root part
  constructor
  · intro h
    rw [h] at hsame
    cases hM : parseDatabaseM x env load root part with
    | err m => exact ⟨m, (hdbt.2.1 m).1 hM⟩
    | ok db => rw [hM] at hsame; cases hsame
    | abort => rw [hM] at hsame; cases hsame
    | ub => rw [hM] at hsame; cases hsame
  · rintro ⟨m, hm⟩
    rw [(hdbt.2.1 m).2 hm] at hsame
    exact hsame.symm

theorem refused_iff (x : LibTexts) (env : Env) (load : LoadOrder) (inv : Invocation) : RunRefused x env load inv ↔
    (∀ path, ¬ Configured env inv path) ∨ (∃ path, Configured env inv path ∧ parseDatabase env load [path] inv.part = .err) ∨
    (∃ path, Configured env inv path ∧ (∃ db, parseDatabase env load [path] inv.part = .ok db) ∧ ∀ text, ¬ Input inv text) ∨
    ∃ db text, Starts env load inv db text ∧ TextRefused db.tiles text := by
  constructor
  · intro h
    cases h with
    | settings h => exact Or.inl h
    | database path m h h1 => exact Or.inr (Or.inl ⟨path, h, (database_err x env load _ _).2 ⟨m, h1⟩⟩)
    | input path db h h1 h2 => exact Or.inr (Or.inr (Or.inl ⟨path, h, ⟨db, h1⟩, h2⟩))
    | text db text h h1 => exact Or.inr (Or.inr (Or.inr ⟨db, text, h, h1⟩))
  · rintro (h | ⟨path, h, h1⟩ | ⟨path, h, ⟨db, h1⟩, h2⟩ | ⟨db, text, h, h1⟩)
    · exact .settings h
    · obtain ⟨m, hm⟩ := (database_err x env load _ _).1 h1
      exact .database path m h hm
    · exact .input path db h h1 h2
    · exact .text db text h h1

/-- What has to be shown. -/
theorem same_way {env env' : Env} {load load' : LoadOrder} (hload : LoadOk load) (hload' : LoadOk load') {ord ord' : HashOrder} (hord : Permutes ord)
    (hord' : Permutes ord') (inv : Invocation) (out : OStream) (hshort : ∀ text, Input inv text → ∀ line, IsLine text line → line.length < 2 ^ 28)
    (hconf : ∀ path, Configured env inv path ↔ Configured env' inv path)
    (herr : ∀ path, Configured env inv path → (parseDatabase env load [path] inv.part = .err ↔ parseDatabase env' load' [path] inv.part = .err))
    (hok : ∀ path, Configured env inv path → ((∃ db, parseDatabase env load [path] inv.part = .ok db) ↔ ∃ db, parseDatabase env' load' [path] inv.part = .ok db))
    (hstart : ∀ db db' text, Starts env load inv db text → Starts env' load' inv db' text →
      (Assembles db.tiles text ↔ Assembles db'.tiles text) ∧ (TextRefused db.tiles text ↔ TextRefused db'.tiles text))
    (hsucc : ∀ o fuel, main env load ord inv out fuel = some (.ok (0, o)) ↔ main env' load' ord' inv out fuel = some (.ok (0, o))) :
    SameWay out (main env load ord inv out) (main env' load' ord' inv out) := by
  have x : LibTexts := ⟨fun _ => [], fun _ => ([], 0), fun _ => []⟩
  have input : ∀ {env load db text}, Starts env load inv db text → Input inv text := fun h => h.2.2.1
  have hshort1 : ∀ db text, Starts env load inv db text → ∀ line, IsLine text line → line.length < 2 ^ 28 := fun db text h => hshort text (input h)
  have hshort2 : ∀ db text, Starts env' load' inv db text → ∀ line, IsLine text line → line.length < 2 ^ 28 := fun db text h => hshort text (input h)
  obtain ⟨r, p, n, c⟩ := C119_program env load ord inv out hload hord hshort1 x
  obtain ⟨r', p', n', c'⟩ := C119_program env' load' ord' inv out hload' hord' hshort2 x
  have s1 : ∀ db text, Starts env load inv db text → ∃ db', Starts env' load' inv db' text := by
    intro db text hs
    obtain ⟨path, h1, h2, h3⟩ := starts_configured env load inv hs
    obtain ⟨db', h4⟩ := (hok path h1).1 ⟨db, h2⟩
    obtain ⟨a1, a2, a3, a4, a5⟩ := (hconf path).1 h1
    exact ⟨db', a1, a5, h3, path, a2, a3, a4, h4⟩
  have s2 : ∀ db' text, Starts env' load' inv db' text → ∃ db, Starts env load inv db text := by
    intro db' text hs
    obtain ⟨path, h1, h2, h3⟩ := starts_configured env' load' inv hs
    obtain ⟨db, h4⟩ := (hok path ((hconf path).2 h1)).2 ⟨db', h2⟩
    obtain ⟨a1, a2, a3, a4, a5⟩ := (hconf path).2 h1
    exact ⟨db, a1, a5, h3, path, a2, a3, a4, h4⟩
  have refused : RunRefused x env load inv ↔ RunRefused x env' load' inv := by
    rw [refused_iff, refused_iff]
    refine or_congr ?_ (or_congr ?_ (or_congr ?_ ?_))
    · simp only [hconf]
    · exact exists_congr fun path => (and_congr_right (herr path)).trans (and_congr_left fun _ => hconf path)
    · exact exists_congr fun path => (and_congr_right fun h => and_congr_left fun _ => hok path h).trans (and_congr_left fun _ => hconf path)
    · constructor
      · rintro ⟨db, text, hs, ht⟩
        obtain ⟨db', hs'⟩ := s1 db text hs
        exact ⟨db', text, hs', (hstart db db' text hs hs').2.1 ht⟩
      · rintro ⟨db', text, hs', ht⟩
        obtain ⟨db, hs⟩ := s2 db' text hs'
        exact ⟨db, text, hs, (hstart db db' text hs hs').2.2 ht⟩
  have success : ∀ o, EndsWith (main env load ord inv out) (.ok (0, o)) ↔ EndsWith (main env' load' ord' inv out) (.ok (0, o)) := by
    intro o
    unfold EndsWith
    simp only [hsucc o]
  have assembles : (∃ db text, Starts env load inv db text ∧ Assembles db.tiles text) ↔
      ∃ db text, Starts env' load' inv db text ∧ Assembles db.tiles text := by
    constructor
    · rintro ⟨db, text, hs, ht⟩
      obtain ⟨db', hs'⟩ := s1 db text hs
      exact ⟨db', text, hs', (hstart db db' text hs hs').1.1 ht⟩
    · rintro ⟨db', text, hs', ht⟩
      obtain ⟨db, hs⟩ := s2 db' text hs'
      exact ⟨db, text, hs, (hstart db db' text hs hs').1.2 ht⟩
  have never : NeverEnds (main env load ord inv out) ↔ NeverEnds (main env' load' ord' inv out) := by
    constructor
    · intro h
      obtain ⟨db, text, h1, h2, h3⟩ := n.1 h
      obtain ⟨db', text', h4, h5⟩ := assembles.1 ⟨db, text, h1, h2⟩
      refine n'.2 ⟨db', text', h4, h5, ?_⟩
      apply Classical.byContradiction
      intro h6
      obtain ⟨o, ho⟩ := p'.2 ⟨db', text', h4, h5, h6⟩
      exact endsWith_ends ((success o).2 ho) h
    · intro h
      obtain ⟨db, text, h1, h2, h3⟩ := n'.1 h
      obtain ⟨db', text', h4, h5⟩ := assembles.2 ⟨db, text, h1, h2⟩
      refine n.2 ⟨db', text', h4, h5, ?_⟩
      apply Classical.byContradiction
      intro h6
      obtain ⟨o, ho⟩ := p.2 ⟨db', text', h4, h5, h6⟩
      exact endsWith_ends ((success o).1 ho) h
  refine ⟨r.trans (refused.trans r'.symm), success, never, ?_⟩
  rw [c, c']
  -- crashes: none of the others
  have other : ∀ {env load ord}, (∀ (_ : LoadOk load) (_ : Permutes ord),
      (∀ db text, Starts env load inv db text → ∀ line, IsLine text line → line.length < 2 ^ 28) →
      (RunCrashes x env load inv ↔ ¬ RunRefused x env load inv ∧ ¬ ∃ db text, Starts env load inv db text ∧ Assembles db.tiles text)) := by
    intro env load ord hload hord hshort
    obtain ⟨r, p, n, c⟩ := C119_program env load ord inv out hload hord hshort x
    constructor
    · intro h
      have hc := c.2 h
      refine ⟨fun hr => ?_, ?_⟩
      · have hr := r.2 hr
        rcases hc with hc | hc
        · exact absurd (endsWith_unique hr hc) (by simp)
        · exact absurd (endsWith_unique hr hc) (by simp)
      · rintro ⟨db, text, h1, h2⟩
        by_cases hw : WalkEndless db.tiles.part
        · have := n.2 ⟨db, text, h1, h2, hw⟩
          rcases hc with hc | hc
          · exact endsWith_ends hc this
          · exact endsWith_ends hc this
        · obtain ⟨o, ho⟩ := p.2 ⟨db, text, h1, h2, hw⟩
          rcases hc with hc | hc
          · exact absurd (endsWith_unique ho hc) (by simp)
          · exact absurd (endsWith_unique ho hc) (by simp)
    · rintro ⟨h1, h2⟩
      rcases C119_cases env load inv x with h | h | h
      · exact absurd h h1
      · exact h
      · exact absurd h h2
  rw [other hload hord hshort1, other hload' hord' hshort2, refused, assembles]

section
variable {T T' : Tiles} (S : SameAll T T')
include S

theorem refused_same (hT : TilesOk T) (hT' : TilesOk T') (hag : AliasesOk T) (text : Bytes) (h : TextRefused T text) : TextRefused T' text := by
  obtain ⟨h1, h2⟩ := h
  refine ⟨pudcOk_same S h1, ?_⟩
  cases h2 with
  | line pre bad post h h1 h2 => exact .line pre bad post h h1 h2
  | tick pre body post h h0 h1 h2 h3 => exact .tick pre body post h h0 h1 h2 h3
  | name h h1 h2 pre line post F h3 h4 h5 h6 =>
    refine .name h ?_ ?_ pre line post F h3 (fun G hG => featureOk_same S hT hT' hag G (h4 G hG)) h5 h6
    · rw [← basic_same S]; exact stepdownOk_same S _ h1
    · intro G hG
      refine featureOk_same S hT hT' hag G (h2 G ?_)
      unfold PudcFeature at hG ⊢
      simp only [S.pudc]
      exact hG

end

theorem same_text {T T' : Tiles} (S : SameAll T T') (hT : TilesOk T) (hT' : TilesOk T') (hag : AliasesOk T) (text : Bytes) :
    (Assembles T text ↔ Assembles T' text) ∧ (TextRefused T text ↔ TextRefused T' text) :=
  ⟨⟨assembles_same S hT hT' hag text, assembles_same S.symm hT' hT (aliasesAgree_same S hT' hag) text⟩,
    ⟨refused_same S hT hT' hag text, refused_same S.symm hT' hT (aliasesAgree_same S hT' hag) text⟩⟩

theorem sameWay_trans {out : OStream} {a b c : Nat → Option (Outcome (Nat × OStream))} (h : SameWay out a b) (h' : SameWay out b c) : SameWay out a c :=
  ⟨h.1.trans h'.1, fun o => (h.2.1 o).trans (h'.2.1 o), h.2.2.1.trans h'.2.2.1, h.2.2.2.trans h'.2.2.2⟩

/-- Reproducible, whatever becomes of the run: for a database in which nothing is left to the hash order, a run that is refused is
refused under any other iteration orders, a run that prints prints the same, one that never ends never ends, and one that is
broken off or undefined is so again. -/
theorem C66_ends (env : Env) (load load' : LoadOrder) (hload : LoadOk load) (hload' : LoadOk load') (ord ord' : HashOrder)
    (hord : Permutes ord) (hord' : Permutes ord') (inv : Invocation)
    (hset : ∀ db text, Starts env load inv db text → Settled db.tiles)
    (hshort : ∀ text, Input inv text → ∀ line, IsLine text line → line.length < 2 ^ 28) (out : OStream) :
    SameWay out (main env load ord inv out) (main env load' ord' inv out) := by
  have x : LibTexts := ⟨fun _ => [], fun _ => ([], 0), fun _ => []⟩
  refine same_way hload hload' hord hord' inv out hshort (fun _ => Iff.rfl)
    (fun path _ => (database_err x env load _ _).trans (database_err x env load' _ _).symm) ?_ ?_
    (fun o fuel => C66_reproducible env load load' hload hload' ord ord' hord hord' inv hset out o fuel)
  · intro path _
    constructor
    · rintro ⟨db, h⟩
      obtain ⟨info, grid, paths, part, pins, h1, h2, h3, h4, h5, _⟩ := parseDatabase_iff.1 h
      exact ⟨_, parseDatabase_iff.2 ⟨info, grid, paths, part, pins, h1, h2, h3, h4, h5, rfl⟩⟩
    · rintro ⟨db, h⟩
      obtain ⟨info, grid, paths, part, pins, h1, h2, h3, h4, h5, _⟩ := parseDatabase_iff.1 h
      exact ⟨_, parseDatabase_iff.2 ⟨info, grid, paths, part, pins, h1, h2, h3, h4, h5, rfl⟩⟩
  · intro db db' text hs hs'
    obtain ⟨db0, hs0, h1, h2⟩ := canonical hload hs
    have hset0 := h2 (hset db text hs)
    obtain ⟨db1, h3, h4⟩ := h1 load hload
    obtain ⟨db2, h5, h6⟩ := h1 load' hload'
    obtain ⟨rfl, _⟩ := starts_unique hs h3
    obtain ⟨rfl, _⟩ := starts_unique hs' h5
    have ok : ∀ {load db}, LoadOk load → Starts env load inv db text → TilesOk db.tiles := by
      intro load db hl h
      obtain ⟨_, _, _, path, _, _, _, hparse⟩ := h
      exact (C45_loaded env load hl _ _ db hparse).1
    have a := same_text (h4 hset0).1 (ok sameLoad_ok hs0) (ok hload hs) hset0.aliases text
    have b := same_text (h6 hset0).1 (ok sameLoad_ok hs0) (ok hload' hs') hset0.aliases text
    exact ⟨a.1.symm.trans b.1, a.2.symm.trans b.2⟩

theorem lines_alike {env env' : Env} (hm : LinesMoved env env') (load : LoadOrder) (root : Path) (part : Bytes) :
    Alike (fun _ _ => True) (parseDatabase env load root part) (parseDatabase env' load root part) := by
  unfold parseDatabase
  refine alike_bind (R := (· = ·)) ?_ fun info _ h => ?_
  · rw [lines_info hm]; exact alike_refl (fun _ => rfl) _
  subst h
  refine alike_bind (R := (· = ·)) ?_ fun grid _ h => ?_
  · rw [lines_json hm _ _ _ _ (by decide) (by decide) (by decide)]; exact alike_refl (fun _ => rfl) _
  subst h
  refine alike_bind (R := (· = ·)) ?_ fun paths _ h => ?_
  · rw [lines_index hm]; exact alike_refl (fun _ => rfl) _
  subst h
  refine alike_bind (R := (· = ·)) ?_ fun p _ h => ?_
  · rw [lines_json hm _ _ _ _ (by decide) (by decide) (by decide)]; exact alike_refl (fun _ => rfl) _
  subst h
  refine alike_bind (R := SamePins) ?_ fun pins _ h => ?_
  · rw [path_last]; exact alike_pins hm _
  exact alike_ok trivial

theorem alike_err {α : Type} {R : α → α → Prop} {r r' : Outcome α} (h : Alike R r r') : (r = .err ↔ r' = .err) ∧ ((∃ a, r = .ok a) ↔ ∃ a, r' = .ok a) := by
  rcases h with ⟨rfl, _⟩ | ⟨m, m', rfl, rfl, _⟩
  · exact ⟨Iff.rfl, Iff.rfl⟩
  · exact ⟨⟨fun h => (by cases h), fun h => (by cases h)⟩, ⟨fun _ => ⟨m', rfl⟩, fun _ => ⟨m, rfl⟩⟩⟩

/-- Lines in another order: whatever becomes of the run, the same becomes of it. -/
theorem C121_ends {env env' : Env} (hm : LinesMoved env env') (load load' : LoadOrder) (hload : LoadOk load) (hload' : LoadOk load')
    (ord ord' : HashOrder) (hord : Permutes ord) (hord' : Permutes ord') (inv : Invocation)
    (hset : ∀ db text, Starts env load inv db text → Settled db.tiles)
    (hshort : ∀ text, Input inv text → ∀ line, IsLine text line → line.length < 2 ^ 28) (out : OStream) :
    SameWay out (main env load ord inv out) (main env' load' ord' inv out) := by
  have key : ∀ db db' text, Starts env load inv db text → Starts env' load inv db' text →
      SameAll db.tiles db'.tiles ∧ db'.tiles.grid = db.tiles.grid ∧ db'.tiles.part = db.tiles.part := by
    intro db db' text hs hs'
    obtain ⟨a1, a2, a3, path, a4, a5, a6, a7⟩ := id hs
    obtain ⟨db2, h1, S⟩ := (lines_database hm load hload [path] inv.part).1 db a7
    have : Starts env' load inv db2 text := ⟨a1, a2, a3, path, a4, a5, by rw [hm.exists_eq]; exact a6, h1⟩
    obtain ⟨rfl, _⟩ := starts_unique hs' this
    exact S
  have start : ∀ db' text, Starts env' load inv db' text → ∃ db, Starts env load inv db text := by
    intro db' text hs'
    obtain ⟨a1, a2, a3, path, a4, a5, a6, a7⟩ := id hs'
    obtain ⟨db, h2, _⟩ := (lines_database hm load hload [path] inv.part).2 db' a7
    exact ⟨db, a1, a2, a3, path, a4, a5, by rw [← hm.exists_eq]; exact a6, h2⟩
  refine sameWay_trans (b := main env' load ord inv out) ?_ ?_
  · refine same_way hload hload hord hord inv out hshort ?_ (fun path _ => (alike_err (lines_alike hm load [path] inv.part)).1)
      (fun path _ => (alike_err (lines_alike hm load [path] inv.part)).2) ?_
      (fun o fuel => C121_program hm load load hload hload ord ord hord hord inv hset out o fuel)
    · intro path
      unfold Configured
      rw [hm.exists_eq]
    · intro db db' text hs hs'
      obtain ⟨_, _, _, path, _, _, _, hparse⟩ := id hs
      obtain ⟨_, _, _, path', _, _, _, hparse'⟩ := id hs'
      exact same_text (key db db' text hs hs').1 (C45_loaded env load hload _ _ db hparse).1 (C45_loaded env' load hload _ _ db' hparse').1
        (hset db text hs).aliases text
  · refine C66_ends env' load load' hload hload' ord ord' hord hord' inv ?_ hshort out
    intro db' text hs'
    obtain ⟨db, hs⟩ := start db' text hs'
    obtain ⟨_, hg, hp⟩ := key db db' text hs hs'
    have h := hset db text hs
    refine ⟨?_, ?_, ?_, ?_⟩
    · unfold AliasesOk; rw [hg]; exact h.aliases
    · rw [hg]; exact h.onePudc
    · rw [hp]; exact h.banks
    · rw [hp]; exact h.buses

/-- The hypotheses are met: the small directory with its lines moved, whatever the output already holds. -/
example (out : OStream) : SameWay out (main lineEnv sameLoad sameOrder fileInv out) (main lineEnv' reversed sameOrder fileInv out) := by
  refine C121_ends lineEnv_moved sameLoad reversed sameLoad_ok reversed_ok sameOrder sameOrder sameOrder_permutes sameOrder_permutes fileInv ?_ ?_ out
  · intro db text hs
    obtain ⟨rfl, rfl⟩ := starts_unique line_starts hs
    exact line_settled
  · intro text ht line hl
    have : text = bytes!"T.F\n" := by
      obtain ⟨_, _, h1, _⟩ := line_starts
      have e := (inputText_iff _ _).2 h1
      rw [(inputText_iff _ _).2 ht] at e
      exact Option.some.inj e
    subst this
    obtain ⟨pre, post, h, _⟩ := hl
    have h := congrArg List.length h
    rw [List.length_append, List.length_append] at h
    have : (bytes!"T.F\n" : Bytes).length = 4 := rfl
    omega

/-- A run that is refused: a statement whose name has no dot.  It is refused in any other order too. -/
example (out : OStream) : EndsWith (main fileEnv reversed sameOrder { fileInv with stdin := bytes!"T.F\nX\n" } out) (.ok (1, out)) := by
  have hs : Starts fileEnv sameLoad { fileInv with stdin := bytes!"T.F\nX\n" } ⟨fileTiles, []⟩ bytes!"T.F\nX\n" :=
    ⟨by decide, by decide, Or.inr ⟨fun _ _ h => by simp [fileInv] at h, rfl⟩, bytes!"d", Or.inr ⟨rfl, rfl⟩, by decide, by decide, file_database⟩
  have he : assembleFrames sameOrder bytes!"T.F\nX\n" ⟨fileTiles, []⟩ [] = .err := by
    have h : (assembleFrames sameOrder bytes!"T.F\nX\n" ⟨fileTiles, []⟩ [] >>= fun _ => .ok ()) = .err := by decide +kernel
    revert h
    cases assembleFrames sameOrder bytes!"T.F\nX\n" ⟨fileTiles, []⟩ [] with
    | ok r => intro h; cases h
    | err => intro _; rfl
    | abort => intro h; cases h
    | ub => intro h; cases h
  refine (C66_ends fileEnv sameLoad reversed sameLoad_ok reversed_ok sameOrder sameOrder sameOrder_permutes sameOrder_permutes
    { fileInv with stdin := bytes!"T.F\nX\n" } ?_ ?_ out).1.1 ⟨0, fun fuel _ => (C72_program _ _ _ _ out fuel _ _ hs).1 he⟩
  · intro db text h
    obtain ⟨rfl, rfl⟩ := starts_unique hs h
    exact file_settled
  · intro text ht line hl
    have : text = bytes!"T.F\nX\n" := by
      have e := (inputText_iff _ _).2 hs.2.2.1
      rw [(inputText_iff _ _).2 ht] at e
      exact Option.some.inj e
    subst this
    obtain ⟨pre, post, h, _⟩ := hl
    have h := congrArg List.length h
    rw [List.length_append, List.length_append] at h
    have : (bytes!"T.F\nX\n" : Bytes).length = 6 := rfl
    omega

end Verif.Props
