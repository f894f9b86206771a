import Verif.Spec.MappingOrder
import Verif.Props.C121
/-! # C122: how the mapping files are written -/
namespace Verif.Props
open Verif.Db Verif.Asm Verif.Spec Verif.Text Verif.Xc7

theorem propValue_perm {ps ps' : List (Bytes × Bytes)} (h : ps.Perm ps') (hn : (ps.map (·.1)).Nodup) (k : Bytes) :
    propValue ps k = propValue ps' k := by
  unfold propValue
  have h1 : ps.reverse.Perm ps'.reverse := (List.reverse_perm ps).trans (h.trans (List.reverse_perm ps').symm)
  have h2 : (ps.reverse.map (·.1)).Nodup := by
    rw [List.map_reverse]
    exact ((List.reverse_perm _).nodup_iff).2 hn
  have := perm_sameMap h1 h2 k
  revert this
  cases ps.reverse.lookup k <;> cases ps'.reverse.lookup k <;> intro this
  · rfl
  · exact this.elim
  · exact this.elim
  · exact congrArg some this

theorem sameEntries_lookup {ks ks' : List YamlKind} (h : SameEntries ks ks') (name : Bytes) :
    (entryOf ks name = none ∧ entryOf ks' name = none) ∨
    ∃ ps ps', entryOf ks name = some ps ∧ entryOf ks' name = some ps' ∧ ∀ k, propValue ps k = propValue ps' k := by
  unfold entryOf
  split
  · exact Or.inl ⟨rfl, rfl⟩
  · have := h.2.sameMap h.1 name
    revert this
    cases (entriesOf ks).lookup name <;> cases (entriesOf ks').lookup name <;> intro this
    · exact Or.inl ⟨rfl, rfl⟩
    · exact this.elim
    · exact this.elim
    · exact Or.inr ⟨_, _, rfl, rfl, propValue_perm this.1 this.2⟩

theorem sameEntries_fabric {ks ks' : List YamlKind} (h : SameEntries ks ks') (d : Bytes) : fabricOf ks d = fabricOf ks' d := by
  unfold fabricOf
  rcases sameEntries_lookup h d with ⟨h1, h2⟩ | ⟨ps, ps', h1, h2, h3⟩
  · rw [h1, h2]
  · rw [h1, h2]; exact h3 _

theorem info_congr {ks ks' : List YamlKind} (h : ∀ d, fabricOf ks d = fabricOf ks' d) {ps ps' : List (Bytes × Bytes)}
    (hp : ∀ k, propValue ps k = propValue ps' k) : infoOf ks ps = infoOf ks' ps' := by
  unfold infoOf
  simp only [hp, h]

/-- The two tables: rejected both, or with the same records. -/
def SameTables (r r' : Outcome (List (Bytes × PartInfo))) : Prop :=
  (r = .err ∧ r' = .err) ∨ ∃ m m', r = .ok m ∧ r' = .ok m' ∧ ∀ name, m.lookup name = m'.lookup name

theorem tables_devices (P : Bytes) (parts : List (Bytes × YamlKind)) (hp : LinesOf P (parts.map (·.1))) (hpl : ∀ l ∈ parts, YamlLine l.1 l.2)
    (D D' : Bytes) (ds ds' : List (Bytes × YamlKind)) (hd : LinesOf D (ds.map (·.1))) (hdl : ∀ l ∈ ds, YamlLine l.1 l.2)
    (hd' : LinesOf D' (ds'.map (·.1))) (hdl' : ∀ l ∈ ds', YamlLine l.1 l.2) (h : SameEntries (ds.map (·.2)) (ds'.map (·.2))) :
    SameTables (parsePartsInfos P D) (parsePartsInfos P D') := by
  have hfab := sameEntries_fabric h
  have hinfo : ∀ ps, infoOf (ds.map (·.2)) ps = infoOf (ds'.map (·.2)) ps := fun ps => info_congr hfab fun _ => rfl
  by_cases hbad : (∃ e ∈ entriesOf (ds.map (·.2)), e.1 ≠ [] ∧ propValue e.2 nameFabric = none) ∨
      (∃ e ∈ entriesOf (parts.map (·.2)), e.1 ≠ [] ∧ infoOf (ds.map (·.2)) e.2 = none)
  · refine Or.inl ⟨C40_rejected P D parts ds hp hpl hd hdl hbad, C40_rejected P D' parts ds' hp hpl hd' hdl' ?_⟩
    rcases hbad with ⟨⟨n, ps⟩, he, h1, h2⟩ | ⟨e, he, h1, h2⟩
    · obtain ⟨ps', he', h3, h4⟩ := h.2.mem_left he
      exact Or.inl ⟨(n, ps'), he', h1, by rw [← propValue_perm h3 h4]; exact h2⟩
    · exact Or.inr ⟨e, he, h1, by rw [← hinfo]; exact h2⟩
  · have some_of : ∀ {o : Option Bytes}, ¬ o = none → o.isSome := by intro o h; cases o; exact absurd rfl h; rfl
    have some_of' : ∀ {o : Option PartInfo}, ¬ o = none → o.isSome := by intro o h; cases o; exact absurd rfl h; rfl
    have hf1 : ∀ e ∈ entriesOf (ds.map (·.2)), e.1 ≠ [] → (propValue e.2 nameFabric).isSome := fun e he h1 =>
      some_of fun h2 => hbad (Or.inl ⟨e, he, h1, h2⟩)
    have hi1 : ∀ e ∈ entriesOf (parts.map (·.2)), e.1 ≠ [] → (infoOf (ds.map (·.2)) e.2).isSome := fun e he h1 =>
      some_of' fun h2 => hbad (Or.inr ⟨e, he, h1, h2⟩)
    obtain ⟨m, h1, h2⟩ := C40_table P D parts ds hp hpl hd hdl hf1 hi1
    obtain ⟨m', h3, h4⟩ := C40_table P D' parts ds' hp hpl hd' hdl' (by
        rintro ⟨n, ps'⟩ he' hn
        obtain ⟨ps, he, h5, h6⟩ := h.2.mem_right he'
        show (propValue ps' nameFabric).isSome
        rw [← propValue_perm h5 h6]
        exact hf1 (n, ps) he hn) (by
        intro e he hn
        rw [← hinfo]
        exact hi1 e he hn)
    refine Or.inr ⟨m, m', h1, h3, fun name => ?_⟩
    rw [h2, h4]
    congr 1
    funext ps
    exact hinfo ps

theorem tables_parts (D : Bytes) (ds : List (Bytes × YamlKind)) (hd : LinesOf D (ds.map (·.1))) (hdl : ∀ l ∈ ds, YamlLine l.1 l.2)
    (P P' : Bytes) (ps ps' : List (Bytes × YamlKind)) (hp : LinesOf P (ps.map (·.1))) (hpl : ∀ l ∈ ps, YamlLine l.1 l.2)
    (hp' : LinesOf P' (ps'.map (·.1))) (hpl' : ∀ l ∈ ps', YamlLine l.1 l.2) (h : SameEntries (ps.map (·.2)) (ps'.map (·.2))) :
    SameTables (parsePartsInfos P D) (parsePartsInfos P' D) := by
  by_cases hbad : (∃ e ∈ entriesOf (ds.map (·.2)), e.1 ≠ [] ∧ propValue e.2 nameFabric = none) ∨
      (∃ e ∈ entriesOf (ps.map (·.2)), e.1 ≠ [] ∧ infoOf (ds.map (·.2)) e.2 = none)
  · refine Or.inl ⟨C40_rejected P D ps ds hp hpl hd hdl hbad, C40_rejected P' D ps' ds hp' hpl' hd hdl ?_⟩
    rcases hbad with h1 | ⟨⟨n, q⟩, he, h1, h2⟩
    · exact Or.inl h1
    · obtain ⟨q', he', h3, h4⟩ := h.2.mem_left he
      exact Or.inr ⟨(n, q'), he', h1, by rw [← info_congr (fun _ => rfl) (propValue_perm h3 h4)]; exact h2⟩
  · have some_of : ∀ {o : Option Bytes}, ¬ o = none → o.isSome := by intro o h; cases o; exact absurd rfl h; rfl
    have some_of' : ∀ {o : Option PartInfo}, ¬ o = none → o.isSome := by intro o h; cases o; exact absurd rfl h; rfl
    have hf1 : ∀ e ∈ entriesOf (ds.map (·.2)), e.1 ≠ [] → (propValue e.2 nameFabric).isSome := fun e he h1 =>
      some_of fun h2 => hbad (Or.inl ⟨e, he, h1, h2⟩)
    have hi1 : ∀ e ∈ entriesOf (ps.map (·.2)), e.1 ≠ [] → (infoOf (ds.map (·.2)) e.2).isSome := fun e he h1 =>
      some_of' fun h2 => hbad (Or.inr ⟨e, he, h1, h2⟩)
    obtain ⟨m, h1, h2⟩ := C40_table P D ps ds hp hpl hd hdl hf1 hi1
    obtain ⟨m', h3, h4⟩ := C40_table P' D ps' ds hp' hpl' hd hdl hf1 (by
        rintro ⟨n, q'⟩ he' hn
        obtain ⟨q, he, h5, h6⟩ := h.2.mem_right he'
        show (infoOf (ds.map (·.2)) q').isSome
        rw [← info_congr (fun _ => rfl) (propValue_perm h5 h6)]
        exact hi1 (n, q) he hn)
    refine Or.inr ⟨m, m', h1, h3, fun name => ?_⟩
    rw [h2, h4]
    rcases sameEntries_lookup h name with ⟨h5, h6⟩ | ⟨q, q', h5, h6, h7⟩
    · rw [h5, h6]
    · rw [h5, h6]; exact info_congr (fun _ => rfl) h7

theorem sameTables_trans {a b c : Outcome (List (Bytes × PartInfo))} (h : SameTables a b) (h' : SameTables b c) : SameTables a c := by
  rcases h with ⟨h1, h2⟩ | ⟨m, m', h1, h2, h3⟩ <;> rcases h' with ⟨h4, h5⟩ | ⟨n, n', h4, h5, h6⟩
  · exact Or.inl ⟨h1, h5⟩
  · rw [h2] at h4; cases h4
  · rw [h2] at h4; cases h4
  · rw [h2] at h4; cases h4
    exact Or.inr ⟨m, n', h1, h5, fun k => (h3 k).trans (h6 k)⟩

theorem sameTables_refl (P D : Bytes) : SameTables (parsePartsInfos P D) (parsePartsInfos P D) := by
  have key : ∀ r : Outcome (List (Bytes × PartInfo)), ((∃ m, r = .ok m) ∨ r = .err) → SameTables r r := by
    rintro r (⟨m, rfl⟩ | rfl)
    · exact Or.inr ⟨m, m, rfl, rfl, fun _ => rfl⟩
    · exact Or.inl ⟨rfl, rfl⟩
  apply key
  unfold parsePartsInfos
  rcases parseMappingYAML_cases fabricSink fabricSink_cases D [] with ⟨f, h⟩ | h
  · rw [h, Outcome.bind_ok]
    exact parseMappingYAML_cases _ (partSink_cases f) _ _
  · rw [h]; exact Or.inr rfl

/-- The lines of a file are all understood, or one of them is not. -/
theorem mapping_lines (text : Bytes) : (∃ ls : List (Bytes × YamlKind), LinesOf text (ls.map (·.1)) ∧ ∀ l ∈ ls, YamlLine l.1 l.2) ∨
    ∃ ls, LinesOf text ls ∧ ∃ l ∈ ls, BadYamlLine l := by
  obtain ⟨ls, hl⟩ := linesOf_exists text
  by_cases h : ∃ l ∈ ls, BadYamlLine l
  · exact Or.inr ⟨ls, hl, h⟩
  · obtain ⟨es, rfl, hes⟩ := choose_all (P := fun l e => YamlLine l e) ls (by
      intro l hl
      rcases C40_lines_total l with h1 | h1
      · exact h1
      · exact (h ⟨l, hl, h1⟩).elim)
    exact Or.inl ⟨es, hl, hes⟩

/-- Two ways of writing the mapping files, and the same table of parts. -/
theorem C122_table {P P' D D' : Bytes} (hP : SameMapping P P') (hD : SameMapping D D') :
    (parsePartsInfos P D = .err ∧ parsePartsInfos P' D' = .err) ∨
    ∃ m m', parsePartsInfos P D = .ok m ∧ parsePartsInfos P' D' = .ok m' ∧ ∀ name, m.lookup name = m'.lookup name := by
  have hr := sameTables_refl
  refine sameTables_trans (b := parsePartsInfos P D') ?_ ?_
  · rcases hD with rfl | ⟨ds, ds', h1, h2, h3, h4, h5⟩
    · exact hr P D
    · rcases mapping_lines P with ⟨ps, h6, h7⟩ | ⟨ls, h6, l, h7, h8⟩
      · exact tables_devices P ps h6 h7 D D' ds ds' h1 h2 h3 h4 h5
      · exact Or.inl ⟨C40_bad_part_line P D ls h6 l h7 h8, C40_bad_part_line P D' ls h6 l h7 h8⟩
  · rcases hP with rfl | ⟨ps, ps', h1, h2, h3, h4, h5⟩
    · exact hr P D'
    · rcases mapping_lines D' with ⟨ds, h6, h7⟩ | ⟨ls, h6, l, h7, h8⟩
      · exact tables_parts D' ds h6 h7 P P' ps ps' h1 h2 h3 h4 h5
      · exact Or.inl ⟨C40_bad_device_line P D' ls h6 l h7 h8, C40_bad_device_line P' D' ls h6 l h7 h8⟩

/-! ## The program -/

theorem rewritten_file {α : Type} {env env' : Env} (hm : MappingsRewritten env env') (parse : Option UInt8 → Bytes → Outcome α) (p : Path) (name : Bytes)
    (h1 : name ≠ bytes!"parts.yaml") (h2 : name ≠ bytes!"devices.yaml") : parseFile env' parse (p ++ [name]) = parseFile env parse (p ++ [name]) := by
  unfold parseFile
  rw [hm.other p name h1 h2]

theorem rewritten_json {α : Type} {env env' : Env} (hm : MappingsRewritten env env') (u : Json → Outcome α) (p : Path) (name : Bytes)
    (h1 : name ≠ bytes!"parts.yaml") (h2 : name ≠ bytes!"devices.yaml") : parseJsonFile env' u (p ++ [name]) = parseJsonFile env u (p ++ [name]) := by
  unfold parseJsonFile
  rw [hm.other p name h1 h2, hm.json_eq]

theorem rewritten_json' {α : Type} {env env' : Env} (hm : MappingsRewritten env env') (u : Json → Outcome α) (root : Path) (a name : Bytes)
    (h1 : name ≠ bytes!"parts.yaml") (h2 : name ≠ bytes!"devices.yaml") : parseJsonFile env' u (root ++ [a, name]) = parseJsonFile env u (root ++ [a, name]) := by
  rw [path_last]
  exact rewritten_json hm u _ name h1 h2

theorem rewritten_pins {env env' : Env} (hm : MappingsRewritten env env') (root : Path) (part : Bytes) :
    parseFile env' parsePackagePins (root ++ [part, kPackagePins]) = parseFile env parsePackagePins (root ++ [part, kPackagePins]) := by
  rw [path_last]
  exact rewritten_file hm _ _ kPackagePins (by decide) (by decide)

theorem rewritten_info {env env' : Env} (hm : MappingsRewritten env env') (root : Path) (part : Bytes) :
    parsePartInfo env' root part = parsePartInfo env root part := by
  unfold parsePartInfo
  rw [path_last root kMapping kPartsYaml, path_last root kMapping kDevicesYaml]
  cases h1 : env.read (root ++ [kMapping] ++ [kPartsYaml]) with
  | none => rw [(hm.none_iff _).1 h1]
  | some P =>
    cases h2 : env'.read (root ++ [kMapping] ++ [kPartsYaml]) with
    | none => rw [(hm.none_iff _).2 h2] at h1; cases h1
    | some P' =>
      cases h3 : env.read (root ++ [kMapping] ++ [kDevicesYaml]) with
      | none => rw [(hm.none_iff _).1 h3]
      | some D =>
        cases h4 : env'.read (root ++ [kMapping] ++ [kDevicesYaml]) with
        | none => rw [(hm.none_iff _).2 h4] at h3; cases h3
        | some D' =>
          dsimp only
          rcases C122_table (hm.same _ _ P.1 P.2 P'.1 P'.2 (Or.inl rfl) h1 h2) (hm.same _ _ D.1 D.2 D'.1 D'.2 (Or.inr rfl) h3 h4) with
            ⟨h5, h6⟩ | ⟨m, m', h5, h6, h7⟩
          · rw [h5, h6]
          · rw [h5, h6, Outcome.bind_ok, Outcome.bind_ok, h7]

theorem rewritten_index {env env' : Env} (hm : MappingsRewritten env env') (root : Path) : indexTileTypes env' root = indexTileTypes env root := by
  unfold indexTileTypes databasePaths ifExists
  rw [hm.listing_eq, hm.exists_eq]

theorem rewritten_tiles {env env' : Env} (hm : MappingsRewritten env env') (root : Path) (paths : List (Bytes × DbPaths))
    (hi : indexTileTypes env root = .ok paths) : tilesDatabase env' paths = tilesDatabase env paths := by
  funext t
  unfold tilesDatabase
  cases hd : paths.lookup t with
  | none => rfl
  | some d =>
    dsimp only
    have hf : ∀ {α : Type} (parse : Option UInt8 → Bytes → Outcome α) p, (d.ppips = some p ∨ d.segbits = some p ∨ d.blockRam = some p) →
        parseFile env' parse p = parseFile env parse p := by
      intro α parse p hp
      obtain ⟨base, name, rfl, hn⟩ := indexed_names env root paths hi t d hd p hp
      refine rewritten_file hm parse base name ?_ ?_ <;> rintro rfl <;> rcases hn with hn | hn <;> revert hn <;> decide
    have ht : parseTileType env' d = parseTileType env d := by
      obtain ⟨sb, br, pp⟩ := d
      unfold parseTileType
      rw [hm.junk_eq]
      refine bind_same ?_ fun _ _ => bind_same ?_ fun _ _ => bind_same ?_ fun _ _ => rfl
      · cases pp with
        | none => rfl
        | some p => exact hf _ p (Or.inl rfl)
      · cases sb with
        | none => rfl
        | some p => exact bind_same (hf _ p (Or.inr (Or.inl rfl))) fun _ _ => rfl
      · cases br with
        | none => rfl
        | some p => exact bind_same (hf _ p (Or.inr (Or.inr rfl))) fun _ _ => rfl
    rw [ht]

/-- The database is the same, whether it loads or not. -/
theorem C122_database {env env' : Env} (hm : MappingsRewritten env env') (load : LoadOrder) (root : Path) (part : Bytes) :
    parseDatabase env' load root part = parseDatabase env load root part := by
  unfold parseDatabase
  refine bind_same (rewritten_info hm root part) fun info _ => ?_
  refine bind_same (rewritten_json' hm parseTileGrid root info.fabric kTilegrid (by decide) (by decide)) fun grid _ => ?_
  refine bind_same (rewritten_index hm root) fun paths hi => ?_
  refine bind_same (rewritten_json' hm parsePart root part kPartJson (by decide) (by decide)) fun p _ => ?_
  refine bind_same (rewritten_pins hm root part) fun pins _ => ?_
  rw [rewritten_tiles hm root paths hi]

/-- Everything the program does is the same: the status, the output, and whether it fails or hangs. -/
theorem C122_program {env env' : Env} (hm : MappingsRewritten env env') (load : LoadOrder) (ord : HashOrder) (inv : Invocation) (out : OStream) (fuel : Nat) :
    main env' load ord inv out fuel = main env load ord inv out fuel := by
  unfold main
  simp only [hm.exists_eq, C122_database hm]

/-! ## Examples, and why the conditions -/

theorem plain_quoted (q : Bytes) (h1 : q.head? ≠ some 0x22) (h2 : q.head? ≠ some 0x27) : Quoted q q :=
  Or.inr (Or.inr ⟨rfl, fun t => ⟨fun e => h1 (by rw [e]; rfl), fun e => h2 (by rw [e]; rfl)⟩⟩)

theorem key_line (k : Bytes) (h : ∀ c, (k ++ bytes!":").head? = some c → NoWhite [c] ∧ c ≠ 0x23) (h1 : k.head? ≠ some 0x22) (h2 : k.head? ≠ some 0x27) :
    YamlLine (k ++ bytes!":") (.key k) := YamlLine.key k [] k white_nil h (plain_quoted k h1 h2)

theorem prop_line (k q v : Bytes) (h1 : strip (0x20 :: k ++ 0x3a :: 0x20 :: q) = k ++ 0x3a :: 0x20 :: q) (h2 : 0x3a ∉ k)
    (h3 : (k ++ bytes!":").head? ≠ some 0x23) (h4 : strip k = k) (h5 : strip (0x20 :: q) = q) (h6 : Quoted q v) :
    YamlLine (0x20 :: k ++ 0x3a :: 0x20 :: q) (.prop k v) := by
  refine YamlLine.prop _ k (0x20 :: q) q k v ?_ ?_ h2 h3 ?_ ?_ h6
  · intro c hc; cases hc; exact (isSpace_iff _).1 rfl
  · have := strip_spec (0x20 :: k ++ 0x3a :: 0x20 :: q); rw [h1] at this; exact this
  · have := strip_spec k; rw [h4] at this; exact this
  · have := strip_spec (0x20 :: q); rw [h5] at this; exact this

/-- The parts of the small directory: its lines. -/
def partLines : List (Bytes × YamlKind) :=
  [(bytes!"p:", .key bytes!"p"), (bytes!" device: d", .prop nameDevice bytes!"d"), (bytes!" package: k", .prop namePackage bytes!"k"),
   (bytes!" speedgrade: '1'", .prop nameSpeedgrade bytes!"1")]

/-- The same, with a comment, a blank line, other quotes, and the properties in another order. -/
def partLines' : List (Bytes × YamlKind) :=
  [(bytes!"# parts", .skip), (bytes!"p:", .key bytes!"p"), (bytes!" speedgrade: \"1\"", .prop nameSpeedgrade bytes!"1"), (bytes!"", .skip),
   (bytes!" package: k", .prop namePackage bytes!"k"), (bytes!" device: d", .prop nameDevice bytes!"d")]

theorem key_p : YamlLine bytes!"p:" (.key bytes!"p") :=
  key_line bytes!"p" (by intro c hc; cases hc; exact ⟨(isSpace_false_iff _).1 rfl, by decide⟩) (by decide) (by decide)
theorem prop_device : YamlLine bytes!" device: d" (.prop nameDevice bytes!"d") :=
  prop_line nameDevice bytes!"d" bytes!"d" (by decide +kernel) (by decide) (by decide) (by decide +kernel) (by decide +kernel) (plain_quoted _ (by decide) (by decide))
theorem prop_package : YamlLine bytes!" package: k" (.prop namePackage bytes!"k") :=
  prop_line namePackage bytes!"k" bytes!"k" (by decide +kernel) (by decide) (by decide) (by decide +kernel) (by decide +kernel) (plain_quoted _ (by decide) (by decide))
theorem prop_grade : YamlLine bytes!" speedgrade: '1'" (.prop nameSpeedgrade bytes!"1") :=
  prop_line nameSpeedgrade bytes!"'1'" bytes!"1" (by decide +kernel) (by decide) (by decide) (by decide +kernel) (by decide +kernel) (Or.inr (Or.inl rfl))
theorem prop_grade' : YamlLine bytes!" speedgrade: \"1\"" (.prop nameSpeedgrade bytes!"1") :=
  prop_line nameSpeedgrade bytes!"\"1\"" bytes!"1" (by decide +kernel) (by decide) (by decide) (by decide +kernel) (by decide +kernel) (Or.inl rfl)

theorem parts_rewritten : SameMapping bytes!"p:\n device: d\n package: k\n speedgrade: '1'\n"
    bytes!"# parts\np:\n speedgrade: \"1\"\n\n package: k\n device: d" := by
  refine Or.inr ⟨partLines, partLines', ⟨by decide, Or.inl (by decide)⟩, ?_,
    ⟨by decide, Or.inr ⟨partLines'.dropLast.map (·.1), bytes!" device: d", by decide, by decide, by decide⟩⟩, ?_, by decide, ?_⟩
  · intro l hl
    simp only [partLines, List.mem_cons, List.not_mem_nil, or_false] at hl
    rcases hl with rfl | rfl | rfl | rfl
    · exact key_p
    · exact prop_device
    · exact prop_package
    · exact prop_grade
  · intro l hl
    simp only [partLines', List.mem_cons, List.not_mem_nil, or_false] at hl
    rcases hl with rfl | rfl | rfl | rfl | rfl | rfl
    · have := strip_spec bytes!"# parts"
      exact YamlLine.comment _ bytes!" parts" this
    · exact key_p
    · exact prop_grade'
    · exact YamlLine.blank _ white_nil
    · exact prop_package
    · exact prop_device
  · exact ⟨[(bytes!"p", [(nameDevice, bytes!"d"), (namePackage, bytes!"k"), (nameSpeedgrade, bytes!"1")],
      [(nameSpeedgrade, bytes!"1"), (namePackage, bytes!"k"), (nameDevice, bytes!"d")])], by decide, rfl, by decide⟩

/-- The small directory with its `parts.yaml` rewritten. -/
def yamlEnv : Env :=
  { fileEnv with
    read := fun p =>
      if p = [bytes!"d", kMapping, kPartsYaml] then some (bytes!"# parts\np:\n speedgrade: \"1\"\n\n package: k\n device: d", some 7)
      else fileEnv.read p }

theorem yamlEnv_read (p : Path) : yamlEnv.read p = fileEnv.read p ∨ p = [bytes!"d", kMapping, kPartsYaml] := by
  by_cases h : p = [bytes!"d", kMapping, kPartsYaml]
  · exact Or.inr h
  · left
    show (if p = [bytes!"d", kMapping, kPartsYaml] then _ else fileEnv.read p) = _
    rw [if_neg h]

theorem yamlEnv_rewritten : MappingsRewritten fileEnv yamlEnv where
  exists_eq := rfl
  listing_eq := rfl
  json_eq := rfl
  junk_eq := rfl
  other := by
    intro p name h1 _
    rcases yamlEnv_read (p ++ [name]) with h | h
    · exact h
    · exact absurd (Option.some.inj (line_last h).symm) h1
  none_iff := by
    intro p
    rcases yamlEnv_read p with h | rfl
    · rw [h]
    · exact ⟨fun h => (by revert h; decide +kernel), fun h => (by revert h; decide +kernel)⟩
  same := by
    intro p name text b text' b' _ h1 h2
    rcases yamlEnv_read (p ++ [name]) with h | h
    · rw [h, h1] at h2; cases h2; exact Or.inl rfl
    · rw [h] at h1 h2
      have e1 : fileEnv.read [bytes!"d", kMapping, kPartsYaml] = some (bytes!"p:\n device: d\n package: k\n speedgrade: '1'\n", none) := by decide +kernel
      have e2 : yamlEnv.read [bytes!"d", kMapping, kPartsYaml] = some (bytes!"# parts\np:\n speedgrade: \"1\"\n\n package: k\n device: d", some 7) := by
        decide +kernel
      rw [e1] at h1; rw [e2] at h2
      cases h1; cases h2
      exact parts_rewritten

/-- The program succeeds with the rewritten file. -/
example : ∃ fuel o, main yamlEnv sameLoad sameOrder fileInv ⟨[], 0, true, false⟩ fuel = some (.ok (0, o)) := by
  obtain ⟨_, _, fuel0, h⟩ := file_example
  obtain ⟨o, _, h1, _⟩ := h fuel0 (Nat.le_refl _)
  exact ⟨fuel0, o, (C122_program yamlEnv_rewritten _ _ _ _ _).trans h1⟩

/-- Two entries in another order. -/
example : SameEntries [.key bytes!"d", .prop nameFabric bytes!"f", .key bytes!"e", .prop nameFabric bytes!"g"]
    [.key bytes!"e", .prop nameFabric bytes!"g", .skip, .key bytes!"d", .prop nameFabric bytes!"f"] :=
  ⟨by decide, [(bytes!"e", [(nameFabric, bytes!"g")], [(nameFabric, bytes!"g")]), (bytes!"d", [(nameFabric, bytes!"f")], [(nameFabric, bytes!"f")])],
    by decide, rfl, by decide⟩

/-- A device listed twice means its first entry, a property listed twice its last value: there the order matters. -/
theorem C122_order_twice :
    parsePartsInfos bytes!"p:\n device: d\n package: k\n speedgrade: 1\n" bytes!"d:\n fabric: f\nd:\n fabric: g\n" =
      .ok [(bytes!"p", ⟨bytes!"d", bytes!"f", bytes!"k", bytes!"1"⟩)] ∧
    parsePartsInfos bytes!"p:\n device: d\n package: k\n speedgrade: 1\n" bytes!"d:\n fabric: g\nd:\n fabric: f\n" =
      .ok [(bytes!"p", ⟨bytes!"d", bytes!"g", bytes!"k", bytes!"1"⟩)] ∧
    parsePartsInfos bytes!"p:\n device: d\n package: k\n speedgrade: 1\n" bytes!"d:\n fabric: f\n fabric: g\n" =
      .ok [(bytes!"p", ⟨bytes!"d", bytes!"g", bytes!"k", bytes!"1"⟩)] ∧
    parsePartsInfos bytes!"p:\n device: d\n package: k\n speedgrade: 1\n" bytes!"d:\n fabric: g\n fabric: f\n" =
      .ok [(bytes!"p", ⟨bytes!"d", bytes!"f", bytes!"k", bytes!"1"⟩)] := by
  refine ⟨by decide +kernel, by decide +kernel, by decide +kernel, by decide +kernel⟩

end Verif.Props
