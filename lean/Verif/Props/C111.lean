import Verif.Proofs.DbCrlf
import Verif.Spec.CrlfFiles
import Verif.Props.C110
import Verif.Props.C70
/-! # C111: carriage returns in the files of the database -/
namespace Verif.Props
open Verif.Db Verif.Asm Verif.Spec Verif.Text Verif.Xc7
open Verif.Db.JsonText (parseJson parseJson_crlf)

theorem crlf_last {σ : Type} (after after' : Option UInt8) (sink : σ → Nat → Bytes → Outcome σ) (n : Nat) (last : Bytes) (st : σ)
    (h : last = [] ∨ (after = none ↔ after' = none)) : lastStep after' sink n last st = lastStep after sink n last st := by
  unfold lastStep
  by_cases h0 : last = []
  · rw [if_pos h0, if_pos h0]
  · rw [if_neg h0, if_neg h0]
    rcases h with h | h
    · exact absurd h h0
    · cases after with
      | none => rw [h.1 rfl]
      | some b =>
        cases after' with
        | none => exact absurd (h.2 rfl) (by simp)
        | some b' => rfl

/-- Behind the last newline is nothing. -/
theorem ended {ls : List Bytes} {last : Bytes} (hlast : (0x0a : UInt8) ∉ last) {P : Prop}
    (h : unlines ls ++ last = [] ∨ (unlines ls ++ last).getLast? = some 0x0a ∨ P) : last = [] ∨ P := by
  rcases h with h | h | h
  · exact Or.inl (List.append_eq_nil_iff.1 h).2
  · by_cases h0 : last = []
    · exact Or.inl h0
    · rw [List.getLast?_append, List.getLast?_eq_some_getLast h0] at h
      have h : last.getLast h0 = 0x0a := by simpa using h
      exact absurd (h ▸ List.getLast_mem h0) hlast
  · exact Or.inr h

/-- The text is read to the end or its end does not matter. -/
abbrev SameEnd (text : Bytes) (after after' : Option UInt8) : Prop :=
  text = [] ∨ text.getLast? = some 0x0a ∨ (after = none ↔ after' = none)

theorem generator_same {σ : Type} (after after' : Option UInt8) (sink : σ → Nat → Bytes → Outcome σ) (ls : List Bytes) (last : Bytes)
    (hl : ∀ l ∈ ls, (0x0a : UInt8) ∉ l) (hlast : (0x0a : UInt8) ∉ last) (h : ∀ l ∈ ls, ∀ st n, sink st n (l ++ [0x0d]) = sink st n l)
    (he : SameEnd (unlines ls ++ last) after after') (st : σ) :
    linesGenerator after' (crlf (unlines ls ++ last)) sink st = linesGenerator after (unlines ls ++ last) sink st := by
  rw [generator_crlf after' sink ls last hl hlast, linesGenerator_parts after sink ls last hl hlast, feed_same sink ls h]
  congr 1
  funext s
  exact crlf_last after after' sink _ last s (ended hlast he)

/-- Segment bits: every file. -/
theorem C111_segbits (junk : Bytes → Nat) (after after' : Option UInt8) (text : Bytes) (he : SameEnd text after after') :
    parseSegmentsBits junk after' (crlf text) = parseSegmentsBits junk after text := by
  obtain ⟨ls, last, rfl, hl, hlast⟩ := text_lines text
  unfold parseSegmentsBits
  by_cases h : unlines ls ++ last = []
  · rw [if_pos h, if_pos ((crlf_nil_iff _).2 h)]
  · rw [if_neg h, if_neg (fun h' => h ((crlf_nil_iff _).1 h')),
      generator_same after after' _ ls last hl hlast (fun l _ st n => segbitsLine_cr junk st n l) he]

theorem lines_of_noBlank {ls : List Bytes} {last : Bytes} (h : NoBlankLine (unlines ls ++ last)) : ∀ l ∈ ls, l ≠ [] := by
  intro l hl h0
  subst h0
  obtain ⟨a, b, rfl⟩ := List.append_of_mem hl
  have := h (unlines a) (unlines b ++ last) (by simp [unlines])
  cases ha : a with
  | nil => rw [ha] at this; exact this.1 rfl
  | cons x xs => exact this.2 (Fasm.getLast_unlines a (by rw [ha]; simp))

theorem lines_of_noOpen {ls : List Bytes} {last : Bytes} (h : NoOpenLine (unlines ls ++ last)) : ∀ l ∈ ls, l ≠ [] ∧ l.getLast? ≠ some 0x2c := by
  intro l hl
  refine ⟨lines_of_noBlank h.1 l hl, fun h0 => ?_⟩
  obtain ⟨a, b, rfl⟩ := List.append_of_mem hl
  refine h.2 (unlines a ++ l) (unlines b ++ last) (by simp [unlines]) ?_
  rw [List.getLast?_append, h0]; rfl

/-- Pseudo PIPs: with carriage returns the file is read exactly when it has no blank line and is read without them, and then
to the same. -/
theorem C111_ppips (after : Option UInt8) (ls : List Bytes) (last : Bytes) (hl : ∀ l ∈ ls, 0x0a ∉ l) (hlast : 0x0a ∉ last) (r : PseudoPIPs) :
    parsePseudoPIPs after (crlf (unlines ls ++ last)) = .ok r ↔
      (∀ l ∈ ls, l ≠ []) ∧ parsePseudoPIPs after (unlines ls ++ last) = .ok r := by
  unfold parsePseudoPIPs
  by_cases h : unlines ls ++ last = []
  · rw [if_pos h, if_pos ((crlf_nil_iff _).2 h)]
    have : ls = [] := by
      cases ls with
      | nil => rfl
      | cons l ls => simp [unlines] at h
    subst this
    simp
  · rw [if_neg h, if_neg (fun h' => h ((crlf_nil_iff _).1 h'))]
    by_cases hb : ∀ l ∈ ls, l ≠ []
    · rw [generator_same after after _ ls last hl hlast (fun l hm st n => ppipLine_cr st n l (hb l hm)) (Or.inr (Or.inr Iff.rfl))]
      exact ⟨fun h => ⟨hb, h⟩, fun h => h.2⟩
    · constructor
      · intro h'
        exfalso
        have hx : ([] : Bytes) ∈ ls := by
          apply Classical.byContradiction
          intro hn
          exact hb fun l hm h0 => hn (h0 ▸ hm)
        rw [generator_crlf after _ ls last hl hlast, Outcome.bind_eq_ok] at h'
        obtain ⟨s, h1, _⟩ := h'
        exact feed_never _ ls [] hx (fun st n => ppipLine_blank st n) _ _ _ h1
      · intro h'; exact absurd h'.1 hb

theorem C111_ppips_same (after after' : Option UInt8) (text : Bytes) (h : NoBlankLine text) (he : SameEnd text after after') :
    parsePseudoPIPs after' (crlf text) = parsePseudoPIPs after text := by
  obtain ⟨ls, last, rfl, hl, hlast⟩ := text_lines text
  unfold parsePseudoPIPs
  by_cases h0 : unlines ls ++ last = []
  · rw [if_pos h0, if_pos ((crlf_nil_iff _).2 h0)]
  · rw [if_neg h0, if_neg (fun h' => h0 ((crlf_nil_iff _).1 h')),
      generator_same after after' _ ls last hl hlast (fun l hm st n => ppipLine_cr st n l (lines_of_noBlank h l hm)) he]

/-- Package pins: the same reading when no line is blank or ends in a comma. -/
theorem C111_pins_same (after after' : Option UInt8) (text : Bytes) (h : NoOpenLine text) (he : SameEnd text after after') :
    parsePackagePins after' (crlf text) = parsePackagePins after text := by
  obtain ⟨ls, last, rfl, hl, hlast⟩ := text_lines text
  unfold parsePackagePins
  by_cases h0 : unlines ls ++ last = []
  · rw [if_pos h0, if_pos ((crlf_nil_iff _).2 h0)]
  · rw [if_neg h0, if_neg (fun h' => h0 ((crlf_nil_iff _).1 h')),
      generator_same after after' _ ls last hl hlast (fun l hm st n => csvLine_cr l (lines_of_noOpen h l hm) st n) he]

/-- A pin file that is read without carriage returns is refused with them if a line is blank or ends in a comma. -/
theorem C111_pins_refused (after : Option UInt8) (ls : List Bytes) (last : Bytes) (hl : ∀ l ∈ ls, 0x0a ∉ l) (hlast : 0x0a ∉ last)
    (r : PackagePins) (hr : parsePackagePins after (unlines ls ++ last) = .ok r) (hb : ∃ l ∈ ls, l = [] ∨ l.getLast? = some 0x2c) :
    parsePackagePins after (crlf (unlines ls ++ last)) = .err := by
  unfold parsePackagePins at hr ⊢
  have h : unlines ls ++ last ≠ [] := by
    obtain ⟨l, hm, _⟩ := hb
    cases ls with
    | nil => cases hm
    | cons l ls => simp [unlines]
  rw [if_neg h, linesGenerator_parts after _ ls last hl hlast, Outcome.bind_eq_ok] at hr
  obtain ⟨s, h1, _⟩ := hr
  rw [if_neg (fun h' => h ((crlf_nil_iff _).1 h')), generator_crlf after _ ls last hl hlast,
    feed_bad csvLine (fun l => l ≠ [] ∧ l.getLast? ≠ some 0x2c) (fun l hg st n => csvLine_cr l hg st n)
      (fun l hg st n st' hk => csvLine_open l hg st n st' hk) ls ?_ 0 [] s h1]
  · rfl
  · obtain ⟨l, hm, hx⟩ := hb
    refine ⟨l, hm, ?_⟩
    rintro ⟨ha, hb⟩
    rcases hx with h | h
    · exact ha h
    · exact hb h

/-- The two mapping files. -/
theorem C111_mapping (parts devices : Bytes) :
    parsePartsInfos (crlf parts) (crlf devices) = parsePartsInfos parts devices ∧
    parsePartsInfos (crlf parts) devices = parsePartsInfos parts devices ∧
    parsePartsInfos parts (crlf devices) = parsePartsInfos parts devices := by
  refine ⟨?_, ?_, ?_⟩
  · unfold parsePartsInfos
    rw [yaml_crlf]
    congr 1
    funext f
    exact yaml_crlf parts _ _
  · unfold parsePartsInfos
    congr 1
    funext f
    exact yaml_crlf parts _ _
  · unfold parsePartsInfos
    rw [yaml_crlf]

/-- JSON: the same document, for every text. -/
theorem C111_json (big : Bytes → Bool) (text : Bytes) : parseJson big (crlf text) = parseJson big text := parseJson_crlf big text

/-! ## The whole database, the whole program -/

theorem parseFile_crlf {α : Type} {env env' : Env} (hc : CrlfOf env env') (parse : Option UInt8 → Bytes → Outcome α) (p : Path)
    (h : ∀ text b b', env.read p = some (text, b) → SameEnd text b b' → parse b' (crlf text) = parse b text) :
    parseFile env' parse p = parseFile env parse p := by
  unfold parseFile
  cases h1 : env.read p with
  | none => rw [(hc.none_iff p).1 h1]
  | some c =>
    cases h2 : env'.read p with
    | none => rw [(hc.none_iff p).2 h2] at h1; cases h1
    | some c' =>
      obtain ⟨h3, h4⟩ := hc.read p c.1 c.2 c'.1 c'.2 h1 h2
      dsimp only
      rw [h3]
      exact h c.1 c.2 c'.2 h1 h4

theorem parseJsonFile_crlf {α : Type} {env env' : Env} (hc : CrlfOf env env') (hj : ∀ text, env.json (crlf text) = env.json text)
    (u : Json → Outcome α) (p : Path) : parseJsonFile env' u p = parseJsonFile env u p := by
  unfold parseJsonFile
  cases h1 : env.read p with
  | none => rw [(hc.none_iff p).1 h1]
  | some c =>
    cases h2 : env'.read p with
    | none => rw [(hc.none_iff p).2 h2] at h1; cases h1
    | some c' =>
      obtain ⟨h3, h4⟩ := hc.read p c.1 c.2 c'.1 c'.2 h1 h2
      dsimp only
      rw [h3, hc.json_eq, hj]

theorem parsePartInfo_crlf {env env' : Env} (hc : CrlfOf env env') (root : Path) (part : Bytes) :
    parsePartInfo env' root part = parsePartInfo env root part := by
  unfold parsePartInfo
  cases h1 : env.read (root ++ [kMapping, kPartsYaml]) with
  | none => rw [(hc.none_iff _).1 h1]
  | some c =>
    cases h2 : env'.read (root ++ [kMapping, kPartsYaml]) with
    | none => rw [(hc.none_iff _).2 h2] at h1; cases h1
    | some c' =>
      cases h3 : env.read (root ++ [kMapping, kDevicesYaml]) with
      | none => rw [(hc.none_iff _).1 h3]
      | some d =>
        cases h4 : env'.read (root ++ [kMapping, kDevicesYaml]) with
        | none => rw [(hc.none_iff _).2 h4] at h3; cases h3
        | some d' =>
          dsimp only
          rw [(hc.read _ c.1 c.2 c'.1 c'.2 h1 h2).1, (hc.read _ d.1 d.2 d'.1 d'.2 h3 h4).1, (C111_mapping c.1 d.1).1]

theorem databasePaths_crlf {env env' : Env} (hc : CrlfOf env env') (p : Path) : databasePaths env' p = databasePaths env p := by
  unfold databasePaths ifExists
  rw [hc.exists_eq]

/-- The pseudo-PIP files that are read have the right name. -/
theorem indexed_ppips (env : Env) (root : Path) (paths : List (Bytes × DbPaths)) (h : indexTileTypes env root = .ok paths)
    (t : Bytes) (d : DbPaths) (hd : paths.lookup t = some d) (p : Path) (hp : d.ppips = some p) :
    ∃ base name, p = base ++ [name] ∧ (bytes!"ppips_" : Bytes) <+: name := by
  unfold indexTileTypes at h
  split at h
  · cases h
  · rename_i entries _
    have h := Outcome.ok.inj h
    subst h
    have key : ∀ (entries : List (Path × Bool)) (m : List (Bytes × DbPaths)),
        (∀ e ∈ m, ∀ p, e.2.ppips = some p → ∃ base name, p = base ++ [name] ∧ (bytes!"ppips_" : Bytes) <+: name) →
        ∀ e ∈ entries.foldl (fun m e =>
            let filename := e.1.getLast?.getD []
            if e.2 && startsWith tileTypePrefix filename && jsonSuffix.isSuffixOf filename then
              let p := databasePaths env e.1
              insertNew m p.1 p.2
            else m) m, ∀ p, e.2.ppips = some p → ∃ base name, p = base ++ [name] ∧ (bytes!"ppips_" : Bytes) <+: name := by
      intro entries
      induction entries with
      | nil => intro m hm; exact hm
      | cons x entries ih =>
        intro m hm
        rw [List.foldl_cons]
        refine ih _ ?_
        dsimp only
        split
        · unfold insertNew
          split
          · exact hm
          · intro e he
            rcases List.mem_append.1 he with he | he
            · exact hm e he
            · rw [List.mem_singleton.1 he]
              intro p hp
              have hp : ifExists env (x.1.dropLast ++ [ppipsPrefix ++ ((((x.1.getLast?.getD []).drop tileTypePrefix.length).take
                  ((x.1.getLast?.getD []).length - tileTypePrefix.length - jsonSuffix.length)).map toLower) ++ dbSuffix]) = some p := hp
              unfold ifExists at hp
              split at hp
              · cases hp
                exact ⟨_, _, rfl, by rw [List.append_assoc]; exact List.prefix_append _ _⟩
              · cases hp
        · exact hm
    have hm : ∃ e ∈ _, e = (t, d) := ⟨(t, d), mem_of_lookup hd, rfl⟩
    obtain ⟨e, he, rfl⟩ := hm
    exact key entries [] (by intro e he; cases he) _ he p hp

theorem parseTileType_crlf {env env' : Env} (hc : CrlfOf env env') (d : DbPaths)
    (h : ∀ p text b, d.ppips = some p → env.read p = some (text, b) → NoBlankLine text) : parseTileType env' d = parseTileType env d := by
  have h1 : ∀ p, d.ppips = some p → parseFile env' parsePseudoPIPs p = parseFile env parsePseudoPIPs p := by
    intro p hp
    exact parseFile_crlf hc _ p fun text b b' hr he => C111_ppips_same b b' text (h p text b hp hr) he
  have h2 : ∀ p, parseFile env' (parseSegmentsBits env'.junk) p = parseFile env (parseSegmentsBits env.junk) p := by
    intro p
    rw [hc.junk_eq]
    exact parseFile_crlf hc _ p fun text b b' _ he => C111_segbits env.junk b b' text he
  obtain ⟨sb, br, pp⟩ := d
  unfold parseTileType
  simp only [h2]
  cases pp with
  | none => rfl
  | some p => simp only [h1 p rfl]

theorem indexTileTypes_crlf {env env' : Env} (hc : CrlfOf env env') (root : Path) : indexTileTypes env' root = indexTileTypes env root := by
  unfold indexTileTypes
  rw [hc.listing_eq]
  simp only [databasePaths_crlf hc]

theorem pins_crlf {env env' : Env} (hc : CrlfOf env env') (hp : PlainFiles env) (root : Path) (part : Bytes) :
    parseFile env' parsePackagePins (root ++ [part, kPackagePins]) = parseFile env parsePackagePins (root ++ [part, kPackagePins]) := by
  have e4 : root ++ [part, kPackagePins] = (root ++ [part]) ++ [bytes!"package_pins.csv"] := by
    rw [List.append_assoc]; rfl
  rw [e4]
  exact parseFile_crlf hc _ _ fun text b b' hr he => C111_pins_same b b' text (hp.2 (root ++ [part]) text b hr) he

theorem tilesDatabase_crlf {env env' : Env} (hc : CrlfOf env env') (hp : PlainFiles env) (root : Path) (paths : List (Bytes × DbPaths))
    (hi : indexTileTypes env root = .ok paths) : tilesDatabase env' paths = tilesDatabase env paths := by
  funext t
  unfold tilesDatabase
  cases hd : paths.lookup t with
  | none => rfl
  | some d =>
    dsimp only
    rw [parseTileType_crlf hc d]
    intro p text b hpp hr
    obtain ⟨base, name, rfl, hn⟩ := indexed_ppips env root paths hi t d hd p hpp
    exact hp.1 base name text b hn hr

theorem bind_same {α β : Type} {r r' : Outcome α} {f g : α → Outcome β} (h : r = r') (hf : ∀ a, r' = .ok a → f a = g a) : (r >>= f) = (r' >>= g) := by
  subst h
  cases r with
  | ok a => rw [Outcome.bind_ok, Outcome.bind_ok]; exact hf a rfl
  | err => rfl
  | abort => rfl
  | ub => rfl

/-- A database whose files have carriage returns is the same database, if its files of pseudo PIPs have no blank lines and
its pin file no blank lines and no trailing commas.  (`hj` holds for the JSON parser: `C111_json`.) -/
theorem C111_database {env env' : Env} (hc : CrlfOf env env') (hj : ∀ text, env.json (crlf text) = env.json text) (hp : PlainFiles env)
    (load : LoadOrder) (root : Path) (part : Bytes) : parseDatabase env' load root part = parseDatabase env load root part := by
  unfold parseDatabase
  refine bind_same (parsePartInfo_crlf hc root part) fun info _ => ?_
  refine bind_same (parseJsonFile_crlf hc hj parseTileGrid _) fun grid _ => ?_
  refine bind_same (indexTileTypes_crlf hc root) fun paths hi => ?_
  refine bind_same (parseJsonFile_crlf hc hj parsePart _) fun p _ => ?_
  refine bind_same (pins_crlf hc hp root part) fun pins _ => ?_
  rw [tilesDatabase_crlf hc hp root paths hi]

/-- The program. -/
theorem C111_program {env env' : Env} (hc : CrlfOf env env') (hj : ∀ text, env.json (crlf text) = env.json text) (hp : PlainFiles env)
    (load : LoadOrder) (ord : HashOrder) (inv : Invocation) (out : OStream) (fuel : Nat) :
    main env' load ord inv out fuel = main env load ord inv out fuel := by
  unfold main
  simp only [hc.exists_eq, C111_database hc hj hp]

/-- Everything at once: carriage returns in the database and in the FASM. -/
theorem C111_all {env env' : Env} (hc : CrlfOf env env') (hj : ∀ text, env.json (crlf text) = env.json text) (hp : PlainFiles env)
    (load : LoadOrder) (ord : HashOrder) (inv : Invocation) (out o : OStream) (fuel : Nat) :
    main env' load ord (crlfInput inv) out fuel = some (.ok (0, o)) ↔ main env load ord inv out fuel = some (.ok (0, o)) := by
  rw [C111_program hc hj hp, C110_program]

/-! ## Examples -/

/-- The directory with carriage returns in every file. -/
def crlfEnv (env : Env) : Env := { env with read := fun p => (env.read p).map fun c => (crlf c.1, c.2) }

theorem crlfEnv_of (env : Env) : CrlfOf env (crlfEnv env) where
  exists_eq := rfl
  listing_eq := rfl
  json_eq := rfl
  junk_eq := rfl
  none_iff := fun p => by unfold crlfEnv; simp
  read := by
    intro p text b text' b' h1 h2
    have h2 : (env.read p).map (fun c => (crlf c.1, c.2)) = some (text', b') := h2
    rw [h1] at h2
    cases h2
    exact ⟨rfl, Or.inr (Or.inr Iff.rfl)⟩

theorem crlf_mem {s : Bytes} (h : (0x0a : UInt8) ∈ s) : (0x0a : UInt8) ∈ crlf s := by
  unfold crlf
  rw [List.mem_flatMap]
  exact ⟨0x0a, h, by simp⟩

theorem crlf_eq_iff {s x : Bytes} (hx : (0x0a : UInt8) ∉ x) : crlf s = x ↔ s = x := by
  constructor
  · intro h
    have hs : (0x0a : UInt8) ∉ s := fun h' => hx (h ▸ crlf_mem h')
    rw [← h, crlf_none s hs]
  · rintro rfl; exact crlf_none s hx

theorem example_json (text : Bytes) : fileEnv.json (crlf text) = fileEnv.json text ∧ dirEnv.json (crlf text) = dirEnv.json text := by
  have h1 := crlf_eq_iff (s := text) (x := bytes!"G") (by decide)
  have h2 := crlf_eq_iff (s := text) (x := bytes!"P") (by decide)
  unfold fileEnv dirEnv
  simp only [h1, h2, and_self]

/-- The places of the newlines, one by one. -/
theorem open_places (text : Bytes)
    (h : ∀ i < text.length, text[i]? = some 0x0a → 0 < i ∧ text[i - 1]? ≠ some 0x0a ∧ text[i - 1]? ≠ some 0x2c) : NoOpenLine text := by
  have key : ∀ pre post, text = pre ++ 0x0a :: post → pre ≠ [] ∧ pre.getLast? ≠ some 0x0a ∧ pre.getLast? ≠ some 0x2c := by
    intro pre post e
    obtain ⟨h1, h2, h3⟩ := h pre.length (by rw [e]; simp) (by rw [e]; simp)
    have e2 : text[pre.length - 1]? = pre.getLast? := by
      rw [e, List.getLast?_eq_getElem?, List.getElem?_append_left (by omega)]
    rw [e2] at h2 h3
    exact ⟨List.ne_nil_of_length_pos h1, h2, h3⟩
  exact ⟨fun pre post e => ⟨(key pre post e).1, (key pre post e).2.1⟩, fun pre post e => (key pre post e).2.2⟩

theorem noBlank_nil : NoBlankLine [] := by
  intro pre post h
  have := congrArg List.length h
  simp at this

theorem file_plain : PlainFiles fileEnv := by
  constructor
  · intro p name text b hn h
    exfalso
    have key : ∀ q : Path, p ++ [name] = q → q.getLast? = some name := by
      intro q h; rw [← h, List.getLast?_concat]
    unfold fileEnv at h
    dsimp only at h
    repeat' split at h
    all_goals first
      | cases h; done
      | (rename_i hq
         have := key _ hq
         have := Option.some.inj this
         rw [← this] at hn
         revert hn; decide)
  · intro p text b h
    unfold fileEnv at h
    dsimp only at h
    repeat' split at h
    all_goals first
      | cases h; done
      | (cases h; exact ⟨noBlank_nil, fun pre post h => by have := congrArg List.length h; simp at this⟩)
      | (exfalso; rename_i hq
         have := congrArg List.getLast? hq
         rw [List.getLast?_concat] at this
         revert this; decide)

/-- A directory with pins and pseudo PIPs. -/
theorem dir_plain : PlainFiles dirEnv := by
  have hd : NoOpenLine dirPip := open_places _ (by decide +kernel)
  have hp : NoOpenLine (unlines [dirHeader, dirRow]) := open_places _ (by decide +kernel)
  constructor
  · intro p name text b hn h
    unfold dirEnv at h
    dsimp only at h
    repeat' split at h
    all_goals first
      | cases h; done
      | (cases h; exact hd.1)
      | (exfalso; rename_i hq
         have := congrArg List.getLast? hq
         rw [List.getLast?_concat] at this
         have := Option.some.inj this
         rw [this] at hn
         revert hn; decide)
  · intro p text b h
    unfold dirEnv at h
    dsimp only at h
    repeat' split at h
    all_goals first
      | cases h; done
      | (cases h; exact hp)
      | (exfalso; rename_i hq
         have := congrArg List.getLast? hq
         rw [List.getLast?_concat] at this
         revert this; decide)

example (load : LoadOrder) : parseDatabase (crlfEnv dirEnv) load [bytes!"d"] bytes!"p" = parseDatabase dirEnv load [bytes!"d"] bytes!"p" :=
  C111_database (crlfEnv_of dirEnv) (fun t => (example_json t).2) dir_plain _ _ _

/-- A status-0 run with carriage returns everywhere. -/
example : ∃ fuel0, ∀ fuel ≥ fuel0, ∃ o,
    main (crlfEnv fileEnv) sameLoad sameOrder (crlfInput fileInv) ⟨[], 0, true, false⟩ fuel = some (.ok (0, o)) := by
  obtain ⟨_, _, fuel0, hrun⟩ := file_example
  refine ⟨fuel0, fun fuel hf => ?_⟩
  obtain ⟨o, _, h1, _⟩ := hrun fuel hf
  exact ⟨o, (C111_all (crlfEnv_of fileEnv) (fun t => (example_json t).1) file_plain _ _ _ _ _ _).2 h1⟩

/-- A blank line: read without the carriage return, refused with it. -/
theorem C111_blank_example : parsePseudoPIPs none bytes!"A.B hint\n\n" = .ok [(bytes!"A.B", .hint)] ∧
    parsePseudoPIPs none (crlf bytes!"A.B hint\n\n") = .err ∧
    parsePackagePins none bytes!"pin,bank,site,tile,pin_function\nA,1,S,T,F,\n" = .ok [⟨bytes!"A", 1, bytes!"S", bytes!"T", bytes!"F"⟩] ∧
    parsePackagePins none (crlf bytes!"pin,bank,site,tile,pin_function\nA,1,S,T,F,\n") = .err := by
  refine ⟨by decide +kernel, by decide +kernel, by decide +kernel, by decide +kernel⟩

/-- The other way round: a row without function is refused, and read when a carriage return takes the place of the function. -/
theorem C111_empty_cell : parsePackagePins none bytes!"pin,bank,site,tile,pin_function\nA,1,S,T,\n" = .err ∧
    parsePackagePins none (crlf bytes!"pin,bank,site,tile,pin_function\nA,1,S,T,\n") = .ok [⟨bytes!"A", 1, bytes!"S", bytes!"T", []⟩] := by
  refine ⟨by decide +kernel, by decide +kernel⟩

end Verif.Props
