import Verif.Spec.Rewritten
import Verif.Props.C123
import Verif.Props.SameEnds
/-! # C124: a database written in another way -/
namespace Verif.Props
open Verif.Db Verif.Asm Verif.Spec Verif.Text Verif.Xc7
open Verif.Db.JsonText (parseJson)

theorem noBusClash_load {p p' : Db.Part} (h : PartReordered p p') (hc : NoBusClash p) : NoBusClash p' := by
  have key : ∀ {rs rs' : ClockRegionHalf}, RowsReordered rs rs' → ∀ row' ∈ rs', ∃ row ∈ rs, row.Perm row' := by
    rintro rs rs' ⟨zs, rfl, rfl, hz⟩ row hr
    obtain ⟨z, hz', rfl⟩ := List.mem_map.1 hr
    exact ⟨z.1, List.mem_map.2 ⟨z, hz', rfl⟩, hz z hz'⟩
  intro row hr c c' h1 h2
  obtain ⟨row', hr', hp⟩ : ∃ row', (row' ∈ p.topRows ∨ row' ∈ p.bottomRows) ∧ row'.Perm row := by
    rcases hr with hr | hr
    · obtain ⟨r', h3, h4⟩ := key h.2.2.1 row hr; exact ⟨r', Or.inl h3, h4⟩
    · obtain ⟨r', h3, h4⟩ := key h.2.2.2 row hr; exact ⟨r', Or.inr h3, h4⟩
  exact hc row' hr' c c' (hp.mem_iff.2 h1) (hp.mem_iff.2 h2)

/-- Whether anything is left to the hash order is itself not left to it. -/
theorem settled_load {env : Env} {load load' : LoadOrder} (hload : LoadOk load) (hload' : LoadOk load') {inv : Invocation} {db : PartDatabase}
    {text : Bytes} (hs : Starts env load inv db text) (hset : Settled db.tiles) :
    ∃ db', Starts env load' inv db' text ∧ Settled db'.tiles := by
  obtain ⟨db0, hs0, _, h0⟩ := canonical hload hs
  have hset := h0 hset
  obtain ⟨a, b, c, path, e, f, g, hparse⟩ := hs0
  obtain ⟨info, grid, paths, part, pins, h1, h2, h3, h4, h5, rfl⟩ := parseDatabase_iff.1 hparse
  obtain ⟨jg, hjg⟩ := parseJsonFile_ok h2
  obtain ⟨jp, hjp⟩ := parseJsonFile_ok h4
  have hl := loaded hjg hjp
  refine ⟨_, ⟨a, b, c, path, e, f, g, parseDatabase_iff.2 ⟨info, grid, paths, part, pins, h1, h2, h3, h4, h5, rfl⟩⟩, ?_⟩
  have S := sameAll_load hload' hl (tilesDatabase env paths) pins hset.onePudc hset.banks
  have hok' := (C45_loaded env load' hload' _ _ _ (parseDatabase_iff.2 ⟨info, grid, paths, part, pins, h1, h2, h3, h4, h5, rfl⟩)).1
  refine ⟨aliasesAgree_same S hok' hset.aliases, ?_, ((hload'.part part).2.1.map _).nodup_iff.1 hset.banks, noBusClash_load (hload'.part part) hset.buses⟩
  intro t p t' p' h h'
  exact hset.onePudc t p t' p' ((pudcPin_reordered (hload'.grid grid) _ _).2 h) ((pudcPin_reordered (hload'.grid grid) _ _).2 h')

/-- A loaded database loads in any order. -/
theorem starts_load {env : Env} {load : LoadOrder} (load' : LoadOrder) {inv : Invocation} {db : PartDatabase}
    {text : Bytes} (hs : Starts env load inv db text) : ∃ db', Starts env load' inv db' text := by
  obtain ⟨a, b, c, path, e, f, g, hparse⟩ := hs
  obtain ⟨info, grid, paths, part, pins, h1, h2, h3, h4, h5, rfl⟩ := parseDatabase_iff.1 hparse
  exact ⟨_, a, b, c, path, e, f, g, parseDatabase_iff.2 ⟨info, grid, paths, part, pins, h1, h2, h3, h4, h5, rfl⟩⟩

/-- What the program does depends on the files through the database only. -/
theorem main_same_database {env env' : Env} {load load' : LoadOrder} {inv : Invocation} {db : PartDatabase} {text : Bytes}
    (hs : Starts env load inv db text) (hs' : Starts env' load' inv db text) (ord : HashOrder) (out : OStream) :
    main env' load' ord inv out = main env load ord inv out := by
  have key : ∀ {env : Env} {load : LoadOrder}, Starts env load inv db text → main env load ord inv out = mainLoaded ord inv db out := by
    rintro env load ⟨h1, h2, h3, path, h4, h5, h6, h7⟩
    funext fuel
    unfold main
    rw [if_neg (by omega), (C61_setting _ _ _).2 h4]
    dsimp only
    rw [if_neg (by rw [not_or]; exact ⟨h5, by rw [h6]; simp⟩), if_neg h2, h7]
  rw [key hs, key hs']

/-- Moving members: the database is one of those that can be loaded from the other directory. -/
theorem members_starts {env env' : Env} (hm : MembersMoved env env') (load' : LoadOrder) (hload' : LoadOk load') (inv : Invocation) {db : PartDatabase} {text : Bytes} :
    (Starts env' load' inv db text → ∃ load, LoadOk load ∧ Starts env load inv db text) ∧
    ∀ load, Starts env load inv db text → ∃ load2 db', LoadOk load2 ∧ Starts env load2 inv db' text ∧ Starts env' load' inv db' text := by
  constructor
  · rintro ⟨a, b, c, path, e, f, g, hparse⟩
    obtain ⟨load, h1, h2⟩ := C120_database hm load' hload' [path] inv.part
    exact ⟨load, h1, a, b, c, path, e, f, by rw [← hm.exists_eq]; exact g, (h2 db).1 hparse⟩
  · intro load hs
    obtain ⟨_, _, _, path, _⟩ := id hs
    obtain ⟨a, b, c, path, e, f, g, _⟩ := id hs
    obtain ⟨load2, h1, h2⟩ := C120_database hm load' hload' [path] inv.part
    obtain ⟨db', a', b', c', path', e', f', g', h3⟩ := starts_load load2 hs
    have he : path' = path := by
      have := (C61_setting _ _ _).2 e
      rw [(C61_setting _ _ _).2 e'] at this
      exact Outcome.ok.inj this
    subst he
    exact ⟨load2, db', h1, ⟨a, b, c, _, e, f, g, h3⟩, a, b, c, _, e, f, by rw [hm.exists_eq]; exact g, (h2 db').2 h3⟩

/-- One step keeps whether the program gets to assembling, and whether anything is left to the hash order. -/
def Keeps (inv : Invocation) (env env' : Env) : Prop :=
  ∀ text, (∀ load db, LoadOk load → Starts env load inv db text → ∃ load' db', LoadOk load' ∧ Starts env' load' inv db' text ∧ (Settled db.tiles → Settled db'.tiles)) ∧
    ∀ load' db', LoadOk load' → Starts env' load' inv db' text → ∃ load db, LoadOk load ∧ Starts env load inv db text

theorem keeps_members {env env' : Env} (hm : MembersMoved env env') (inv : Invocation) : Keeps inv env env' := by
  intro text
  constructor
  · intro load db hload hs
    obtain ⟨load2, db', h1, h2, h3⟩ := (members_starts hm load hload inv).2 load hs
    refine ⟨load, db', hload, h3, fun hset => ?_⟩
    obtain ⟨db2, h4, h5⟩ := settled_load hload h1 hs hset
    obtain ⟨rfl, _⟩ := starts_unique h2 h4
    exact h5
  · intro load' db' hload' hs
    obtain ⟨load, h1, h2⟩ := (members_starts hm load' hload' inv).1 hs
    exact ⟨load, db', h1, h2⟩

theorem keeps_same {env env' : Env} (he : env'.fileExists = env.fileExists)
    (hd : ∀ load root part, parseDatabase env' load root part = parseDatabase env load root part) (inv : Invocation) : Keeps inv env env' := by
  have key : ∀ load db text, Starts env' load inv db text ↔ Starts env load inv db text := by
    intro load db text
    unfold Starts
    simp only [he, hd]
  intro text
  exact ⟨fun load db hl hs => ⟨load, db, hl, (key _ _ _).2 hs, id⟩, fun load db hl hs => ⟨load, db, hl, (key _ _ _).1 hs⟩⟩

theorem keeps_lines {env env' : Env} (hm : LinesMoved env env') (inv : Invocation) : Keeps inv env env' := by
  intro text
  constructor
  · rintro load db hload ⟨a1, a2, a3, path, a4, a5, a6, a7⟩
    obtain ⟨db2, h1, S, hg, hp⟩ := (lines_database hm load hload [path] inv.part).1 db a7
    refine ⟨load, db2, hload, ⟨a1, a2, a3, path, a4, a5, by rw [hm.exists_eq]; exact a6, h1⟩, fun h => ⟨?_, ?_, ?_, ?_⟩⟩
    · unfold AliasesOk; rw [hg]; exact h.aliases
    · rw [hg]; exact h.onePudc
    · rw [hp]; exact h.banks
    · rw [hp]; exact h.buses
  · rintro load db hload ⟨a1, a2, a3, path, a4, a5, a6, a7⟩
    obtain ⟨db2, h1, _⟩ := (lines_database hm load hload [path] inv.part).2 db a7
    exact ⟨load, db2, hload, a1, a2, a3, path, a4, a5, by rw [← hm.exists_eq]; exact a6, h1⟩

/-- One step, and the whole way: the program does the same. -/
structure Step (inv : Invocation) (out : OStream) (env env' : Env) : Prop where
  keeps : Keeps inv env env'
  success : ∀ load load' ord ord', LoadOk load → LoadOk load' → Permutes ord → Permutes ord' →
    (∀ db text, Starts env load inv db text → Settled db.tiles) → ∀ o fuel,
    (main env load ord inv out fuel = some (.ok (0, o)) ↔ main env' load' ord' inv out fuel = some (.ok (0, o)))
  ends : ∀ load load' ord ord', LoadOk load → LoadOk load' → Permutes ord → Permutes ord' →
    (∀ db text, Starts env load inv db text → Settled db.tiles) →
    (∀ text, Input inv text → ∀ line, IsLine text line → line.length < 2 ^ 28) →
    (∃ db text, Starts env load inv db text) → SameWay out (main env load ord inv out) (main env' load' ord' inv out)

theorem keeps_trans {inv : Invocation} {a b c : Env} (h : Keeps inv a b) (h' : Keeps inv b c) : Keeps inv a c := by
  intro text
  constructor
  · intro load db hl hs
    obtain ⟨l1, d1, h1, h2, h3⟩ := (h text).1 load db hl hs
    obtain ⟨l2, d2, h4, h5, h6⟩ := (h' text).1 l1 d1 h1 h2
    exact ⟨l2, d2, h4, h5, fun hh => h6 (h3 hh)⟩
  · intro load db hl hs
    obtain ⟨l1, d1, h1, h2⟩ := (h' text).2 load db hl hs
    exact (h text).2 l1 d1 h1 h2

theorem keeps_settled {inv : Invocation} {a b : Env} (h : Keeps inv a b) {load load' : LoadOrder} (hload : LoadOk load) (hload' : LoadOk load')
    (hset : ∀ db text, Starts a load inv db text → Settled db.tiles) : ∀ db text, Starts b load' inv db text → Settled db.tiles := by
  intro db' text hs'
  obtain ⟨l1, d1, h1, h2⟩ := (h text).2 load' db' hload' hs'
  obtain ⟨d2, h3⟩ := starts_load load h2
  obtain ⟨l3, d3, h4, h5, h6⟩ := (h text).1 load d2 hload h3
  obtain ⟨d4, h7, h8⟩ := settled_load h4 hload' h5 (h6 (hset _ _ h3))
  obtain ⟨rfl, _⟩ := starts_unique hs' h7
  exact h8

theorem step_trans {inv : Invocation} {out : OStream} {a b c : Env} (h : Step inv out a b) (h' : Step inv out b c) : Step inv out a c where
  keeps := keeps_trans h.keeps h'.keeps
  success := by
    intro load load' ord ord' hl hl' ho ho' hset o fuel
    rw [h.success load load' ord ord' hl hl' ho ho' hset o fuel,
      h'.success load' load' ord' ord' hl' hl' ho' ho' (keeps_settled h.keeps hl hl' hset) o fuel]
  ends := by
    rintro load load' ord ord' hl hl' ho ho' hset hshort ⟨db, text, hs⟩
    refine sameWay_trans (h.ends load load ord ord hl hl ho ho hset hshort ⟨db, text, hs⟩)
      (h'.ends load load' ord ord' hl hl' ho ho' (keeps_settled h.keeps hl hl hset) hshort ?_)
    obtain ⟨l1, d1, _, h1, _⟩ := (h.keeps text).1 load db hl hs
    obtain ⟨d2, h2⟩ := starts_load load h1
    exact ⟨d2, text, h2⟩

theorem step_equal {inv : Invocation} {out : OStream} {env env' : Env} (he : env'.fileExists = env.fileExists)
    (hd : ∀ load root part, parseDatabase env' load root part = parseDatabase env load root part)
    (hmain : ∀ load ord, main env' load ord inv out = main env load ord inv out) : Step inv out env env' where
  keeps := keeps_same he hd inv
  success := by
    intro load load' ord ord' hl hl' ho ho' hset o fuel
    rw [hmain]
    exact C66_reproducible env load load' hl hl' ord ord' ho ho' inv hset out o fuel
  ends := by
    intro load load' ord ord' hl hl' ho ho' hset hshort _
    rw [hmain]
    exact C66_ends env load load' hl hl' ord ord' ho ho' inv hset hshort out

theorem step_lines {env env' : Env} (hm : LinesMoved env env') (inv : Invocation) (out : OStream) : Step inv out env env' where
  keeps := keeps_lines hm inv
  success := fun load load' ord ord' hl hl' ho ho' hset o fuel => C121_program hm load load' hl hl' ord ord' ho ho' inv hset out o fuel
  ends := fun load load' ord ord' hl hl' ho ho' hset hshort _ => C121_ends hm load load' hl hl' ord ord' ho ho' inv hset hshort out

theorem step_members {env env' : Env} (hm : MembersMoved env env') (inv : Invocation) (out : OStream) : Step inv out env env' where
  keeps := keeps_members hm inv
  success := fun load load' ord ord' hl hl' ho ho' hset o fuel => C120_program hm load load' hl hl' ord ord' ho ho' inv hset out o fuel
  ends := by
    rintro load load' ord ord' hl hl' ho ho' hset hshort ⟨db, text, hs⟩
    obtain ⟨load2, db', h1, h2, h3⟩ := (members_starts hm load' hl' inv).2 load hs
    rw [main_same_database h2 h3]
    exact C66_ends env load load2 hl h1 ord ord' ho ho' inv hset hshort out

theorem rewritten_step {big : Bytes → Bool} {env env' : Env} (h : Rewritten big env env') (hj : env.json = parseJson big) (inv : Invocation) (out : OStream) :
    env'.json = parseJson big ∧ Step inv out env env' := by
  induction h with
  | same => exact ⟨hj, step_equal rfl (fun _ _ _ => rfl) fun _ _ => rfl⟩
  | members _ hm ih => exact ⟨hm.json_eq.trans ih.1, step_trans ih.2 (step_members hm inv out)⟩
  | lines _ hm ih => exact ⟨hm.json_eq.trans ih.1, step_trans ih.2 (step_lines hm inv out)⟩
  | mapping _ hm ih => exact ⟨hm.json_eq.trans ih.1, step_trans ih.2 (step_equal hm.exists_eq (fun l r p => C122_database hm l r p) fun l o => funext (C122_program hm l o inv out))⟩
  | json _ hm ih =>
    exact ⟨hm.json_eq.trans ih.1, step_trans ih.2 (step_equal hm.exists_eq (fun l r p => C123_database hm ih.1 l r p) fun l o => funext (C123_program hm ih.1 l o inv out))⟩

/-- The program succeeds with one writing of a database exactly if it does with any other, and its output is the same. -/
theorem C124_program {big : Bytes → Bool} {env env' : Env} (h : Rewritten big env env') (hj : env.json = parseJson big) (load load' : LoadOrder)
    (hload : LoadOk load) (hload' : LoadOk load') (ord ord' : HashOrder) (hord : Permutes ord) (hord' : Permutes ord') (inv : Invocation)
    (hset : ∀ db text, Starts env load inv db text → Settled db.tiles) (out o : OStream) (fuel : Nat) :
    main env load ord inv out fuel = some (.ok (0, o)) ↔ main env' load' ord' inv out fuel = some (.ok (0, o)) :=
  (rewritten_step h hj inv out).2.success load load' ord ord' hload hload' hord hord' hset o fuel

/-- It gets as far as assembling with one exactly if it does with the other, and nothing is left to the hash order there either. -/
theorem C124_starts {big : Bytes → Bool} {env env' : Env} (h : Rewritten big env env') (hj : env.json = parseJson big) (load load' : LoadOrder)
    (hload : LoadOk load) (hload' : LoadOk load') (inv : Invocation) (text : Bytes) :
    ((∃ db, Starts env load inv db text) ↔ ∃ db, Starts env' load' inv db text) ∧
    ((∀ db, Starts env load inv db text → Settled db.tiles) → ∀ db, Starts env' load' inv db text → Settled db.tiles) := by
  have k := (rewritten_step h hj inv ⟨[], 0, true, false⟩).2.keeps
  refine ⟨⟨?_, ?_⟩, ?_⟩
  · rintro ⟨db, hs⟩
    obtain ⟨l, d, _, h1, _⟩ := (k text).1 load db hload hs
    exact starts_load load' h1
  · rintro ⟨db, hs⟩
    obtain ⟨l, d, _, h1⟩ := (k text).2 load' db hload' hs
    exact starts_load load h1
  · intro hset db hs
    refine keeps_settled k hload hload' (fun db1 text1 hs1 => ?_) db text hs
    have : text1 = text := by
      have e := (inputText_iff _ _).2 hs1.2.2.1
      rw [(inputText_iff _ _).2 hs.2.2.1] at e
      exact (Option.some.inj e).symm
    subst this
    exact hset db1 hs1

/-- Whatever becomes of the assembling: refused, printed, endless, broken off. -/
theorem C124_ends {big : Bytes → Bool} {env env' : Env} (h : Rewritten big env env') (hj : env.json = parseJson big) (load load' : LoadOrder)
    (hload : LoadOk load) (hload' : LoadOk load') (ord ord' : HashOrder) (hord : Permutes ord) (hord' : Permutes ord') (inv : Invocation)
    (hset : ∀ db text, Starts env load inv db text → Settled db.tiles)
    (hshort : ∀ text, Input inv text → ∀ line, IsLine text line → line.length < 2 ^ 28) (out : OStream)
    (hs : ∃ db text, Starts env load inv db text) : SameWay out (main env load ord inv out) (main env' load' ord' inv out) :=
  (rewritten_step h hj inv out).2.ends load load' ord ord' hload hload' hord hord' hset hshort hs

/-- Where it does not get that far, it ends without output, whichever way the database is written. -/
theorem C124_not_started {big : Bytes → Bool} {env env' : Env} (h : Rewritten big env env') (hj : env.json = parseJson big) (load load' : LoadOrder)
    (hload : LoadOk load) (hload' : LoadOk load') (ord : HashOrder) (hord : Permutes ord) (inv : Invocation) (out : OStream)
    (hshort : ∀ text, Input inv text → ∀ line, IsLine text line → line.length < 2 ^ 28)
    (hs : ¬ ∃ db text, Starts env load inv db text) :
    ¬ NeverEnds (main env' load' ord inv out) ∧ ∀ o fuel, main env' load' ord inv out fuel ≠ some (.ok (0, o)) := by
  have hn : ¬ ∃ db text, Starts env' load' inv db text := by
    rintro ⟨db, text, h1⟩
    obtain ⟨db', h2⟩ := (C124_starts h hj load load' hload hload' inv text).1.2 ⟨db, h1⟩
    exact hs ⟨db', text, h2⟩
  have x : LibTexts := ⟨fun _ => [], fun _ => ([], 0), fun _ => []⟩
  obtain ⟨_, _, n, _⟩ := C119_program env' load' ord inv out hload' hord (fun db text h1 => hshort text h1.2.2.1) x
  refine ⟨fun h1 => ?_, fun o fuel h1 => ?_⟩
  · obtain ⟨db, text, h2, _⟩ := n.1 h1
    exact hn ⟨db, text, h2⟩
  · rcases C58_stages_partial env' load' ord inv out o fuel 0 h1 with ⟨h2, _⟩ | ⟨_, db, text, _, _, h2, _⟩
    · cases h2
    · exact hn ⟨db, text, h2⟩

/-! ## Example: the JSON and the table of parts of the small directory, both rewritten -/

/-- The directory with JSON texts, rewritten twice. -/
def twiceEnv : Env :=
  { textEnv gridText' with
    read := fun p =>
      if p = [bytes!"d", kMapping, kPartsYaml] then some (bytes!"# parts\np:\n speedgrade: \"1\"\n\n package: k\n device: d", some 7)
      else (textEnv gridText').read p }

theorem twiceEnv_read (p : Path) : twiceEnv.read p = (textEnv gridText').read p ∨ p = [bytes!"d", kMapping, kPartsYaml] := by
  by_cases h : p = [bytes!"d", kMapping, kPartsYaml]
  · exact Or.inr h
  · left
    show (if p = [bytes!"d", kMapping, kPartsYaml] then _ else (textEnv gridText').read p) = _
    rw [if_neg h]

theorem textEnv_parts : (textEnv gridText').read [bytes!"d", kMapping, kPartsYaml] = some (bytes!"p:\n device: d\n package: k\n speedgrade: '1'\n", none) := by
  decide +kernel

theorem twiceEnv_parts : twiceEnv.read [bytes!"d", kMapping, kPartsYaml] = some (bytes!"# parts\np:\n speedgrade: \"1\"\n\n package: k\n device: d", some 7) := by
  decide +kernel

theorem twiceEnv_rewritten : Rewritten (fun _ => false) (textEnv gridText) twiceEnv := by
  refine .mapping (.json .same textEnv_respelled) ?_
  exact
    { exists_eq := rfl
      listing_eq := rfl
      json_eq := rfl
      junk_eq := rfl
      other := by
        intro p name h1 _
        rcases twiceEnv_read (p ++ [name]) with h | h
        · exact h
        · exact absurd (Option.some.inj (line_last h).symm) h1
      none_iff := by
        intro p
        rcases twiceEnv_read p with h | rfl
        · rw [h]
        · rw [textEnv_parts, twiceEnv_parts]
          exact ⟨fun h => (by cases h), fun h => (by cases h)⟩
      same := by
        intro p name text b text' b' _ h1 h2
        rcases twiceEnv_read (p ++ [name]) with h | h
        · rw [h, h1] at h2; cases h2; exact Or.inl rfl
        · rw [h, textEnv_parts] at h1
          rw [h, twiceEnv_parts] at h2
          cases h1; cases h2
          exact parts_rewritten }

/-- The program succeeds with what was written twice in another way, in another hash order. -/
example : ∃ fuel o, main twiceEnv reversed sameOrder fileInv ⟨[], 0, true, false⟩ fuel = some (.ok (0, o)) := by
  obtain ⟨fuel, o, h⟩ := textEnv_succeeds
  refine ⟨fuel, o, (C124_program twiceEnv_rewritten rfl sameLoad reversed sameLoad_ok reversed_ok sameOrder sameOrder sameOrder_permutes
    sameOrder_permutes fileInv ?_ _ o fuel).1 h⟩
  intro db text hs
  obtain ⟨rfl, rfl⟩ := starts_unique textEnv_starts hs
  exact file_settled

end Verif.Props
