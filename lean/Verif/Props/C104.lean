import Verif.Proofs.DatabaseMessages
import Verif.Props.C70
import Verif.Props.C102
import Verif.Props.C103
/-! # C104: what is said about a database that cannot be loaded -/
namespace Verif.Props
open Verif.Db Verif.Spec Verif.Text
open Verif.Fasm (lit)

/-- Loading with messages is the loading of C70. -/
theorem C104_same_database (x : LibTexts) (env : Env) (load : LoadOrder) (root : Path) (part : Bytes) :
    (parseDatabaseM x env load root part).forget = parseDatabase env load root part := parseDatabaseM_forget x env load root part

theorem pathText_iff (p : Path) (t : Bytes) : PathText p t ↔ t = showPath p := by
  have hs : ∀ (p : Path) c, showPath (p ++ [c]) = appendPath (showPath p) c := by
    intro p c; simp [showPath]
  constructor
  · intro h
    induction h with
    | nil => rfl
    | absolute p c h => rw [hs, appendPath, if_pos h]
    | joined c hp h ht ih => rw [hs, ← ih, appendPath, if_neg h, if_pos ht]
    | slash c hp h ht hs' ih => rw [hs, ← ih, appendPath, if_neg h, if_neg (by simp [ht, hs'])]
  · rintro rfl
    have key : ∀ n (p : Path), p.length = n → PathText p (showPath p) := by
      intro n
      induction n with
      | zero => intro p hp; rw [List.eq_nil_of_length_eq_zero hp]; exact .nil
      | succ n ih =>
        intro p hp
        have hne : p ≠ [] := by intro h; rw [h] at hp; cases hp
        have e := List.dropLast_concat_getLast hne
        rw [← e, hs]
        have hq := ih p.dropLast (by simp [hp])
        generalize p.dropLast = q at hq ⊢
        generalize p.getLast hne = c
        unfold appendPath
        by_cases h : c.head? = some 0x2f
        · rw [if_pos h]; exact .absolute q c h
        · rw [if_neg h]
          by_cases h2 : showPath q = [] ∨ (showPath q).getLast? = some 0x2f
          · rw [if_pos h2]; exact .joined c hq h h2
          · rw [if_neg h2]
            rw [not_or] at h2
            exact .slash c hq h h2.1 h2.2
    exact key _ p rfl

theorem tells_mapFile (x : LibTexts) (env : Env) (p : Path) : Tells (mapFileM x env p) (Unopened x env p) := by
  unfold mapFileM Unopened
  cases h : env.read p with
  | none =>
    refine ⟨?_, fun hn => absurd ⟨rfl, _, (pathText_iff p _).2 rfl, rfl⟩ (hn _)⟩
    rintro t ⟨_, text, ht, rfl⟩
    rw [(pathText_iff _ _).1 ht]
    rfl
  | some c => exact tells_pure c rfl fun t ht => by cases ht.1

theorem tells_jsonFile {α : Type} (x : LibTexts) (env : Env) (p : Path) (f : Json → Said α) (D : Json → Trouble → Prop)
    (hf : ∀ j, Tells (f j) (D j)) : Tells (parseJsonFileM x env f p) (JsonFileTrouble x env p D) := by
  unfold parseJsonFileM
  cases h : env.read p with
  | none =>
    refine tells_congr (tells_bind (cs := []) (tells_mapFile x env p) fun a ha => ?_) fun t => ?_
    · unfold mapFileM at ha; rw [h] at ha; cases ha
    · rw [firstOf_single]
      constructor
      · exact .unopened t
      · intro ht
        cases ht with
        | unopened _ ht => exact ht
        | noJson c b hc _ => rw [h] at hc; cases hc
        | within c b j _ hc _ _ => rw [h] at hc; cases hc
  | some c =>
    obtain ⟨c, b⟩ := c
    have e : mapFileM x env p = .ok (c, b) := by unfold mapFileM; rw [h]
    have hno : ∀ t, ¬ Unopened x env p t := fun t ht => by have := ht.1; rw [h] at this; cases this
    rw [e, Said.bind_ok]
    dsimp only
    cases hj : env.json c with
    | none =>
      refine ⟨fun t ht => ?_, fun hn => absurd (.noJson c b h hj) (hn _)⟩
      cases ht with
      | unopened _ ht => exact absurd ht (hno t)
      | noJson c' b' hc _ =>
        rw [h] at hc; cases hc
        unfold msgJson
        rw [Fasm.dec_eq]
        rfl
      | within c' b' j _ hc hj' _ => rw [h] at hc; cases hc; rw [hj] at hj'; cases hj'
    | some j =>
      refine tells_congr (hf j) fun t => ⟨fun ht => .within c b j t h hj ht, fun ht => ?_⟩
      cases ht with
      | unopened _ ht => exact absurd ht (hno t)
      | noJson c' b' hc hj' => rw [h] at hc; cases hc; rw [hj] at hj'; cases hj'
      | within c' b' j' _ hc hj' ht => rw [h] at hc; cases hc; rw [hj] at hj'; cases hj'; exact ht

theorem tells_pinFile (x : LibTexts) (env : Env) (p : Path) :
    Tells (mapFileM x env p >>= fun c => parsePackagePinsM c.2 c.1) (PinFileTrouble x env p) := by
  cases h : env.read p with
  | none =>
    refine tells_congr (tells_bind (cs := []) (tells_mapFile x env p) fun a ha => ?_) fun t => ?_
    · unfold mapFileM at ha; rw [h] at ha; cases ha
    · rw [firstOf_single]
      constructor
      · exact Or.inl
      · rintro (ht | ⟨c, b, hc, _⟩)
        · exact ht
        · rw [h] at hc; cases hc
  | some c =>
    obtain ⟨c, b⟩ := c
    have e : mapFileM x env p = .ok (c, b) := by unfold mapFileM; rw [h]
    rw [e, Said.bind_ok]
    obtain ⟨ls, hls⟩ := linesOf_exists c
    have h1 : parsePackagePinsM b c = linesGeneratorM b c csvLineM [] := by
      unfold parsePackagePinsM
      by_cases hc : c = []
      · rw [if_pos hc, hc]; rfl
      · rw [if_neg hc]
    rw [h1]
    have ht := tells_lines b csvLineM PinLineTrouble tells_pinLine ls c c.length 0 [] hls (Nat.le_refl _)
    refine tells_congr ht fun t => ?_
    rw [Nat.zero_add]
    constructor
    · intro h2
      exact Or.inr ⟨c, b, h, ls, hls, h2⟩
    · rintro (ht | ⟨c', b', hc, ls', hls', h2⟩)
      · have := ht.1; rw [h] at this; cases this
      · rw [h] at hc; cases hc
        rw [C35_lines_unique c ls ls' hls hls']
        exact h2

/-- A table that is read is well-formed. -/
theorem table_good (partsYaml devicesYaml : Bytes) (pls dls : List Bytes) (hp : LinesOf partsYaml pls) (hd : LinesOf devicesYaml dls)
    (m : List (Bytes × PartInfo)) (h : parsePartsInfos partsYaml devicesYaml = .ok m) :
    ∃ parts devices : List (Bytes × YamlKind), pls = parts.map (·.1) ∧ dls = devices.map (·.1) ∧
      (∀ l ∈ parts, YamlLine l.1 l.2) ∧ (∀ l ∈ devices, YamlLine l.1 l.2) ∧
      (∀ e ∈ entriesOf (devices.map (·.2)), e.1 ≠ [] → (propValue e.2 nameFabric).isSome) ∧
      (∀ e ∈ entriesOf (parts.map (·.2)), e.1 ≠ [] → (infoOf (devices.map (·.2)) e.2).isSome) := by
  have good : ∀ ls : List Bytes, (∀ l ∈ ls, ¬ BadYamlLine l) → ∃ ks : List (Bytes × YamlKind), ls = ks.map (·.1) ∧ ∀ l ∈ ks, YamlLine l.1 l.2 := by
    intro ls hall
    induction ls with
    | nil => exact ⟨[], rfl, by simp⟩
    | cons x ls ih =>
      obtain ⟨ks, h1, h2⟩ := ih (fun l hl => hall l (List.mem_cons_of_mem _ hl))
      rcases yamlLine_total x with ⟨k, hk⟩ | hbad
      · refine ⟨(x, k) :: ks, by simp [h1], ?_⟩
        intro l hl
        rcases List.mem_cons.1 hl with rfl | hl
        · exact hk
        · exact h2 l hl
      · exact absurd hbad (hall x (by simp))
  obtain ⟨parts, rfl, hpl⟩ := good pls fun l hl hb => by rw [C40_bad_part_line _ _ _ hp l hl hb] at h; cases h
  obtain ⟨devices, rfl, hdl⟩ := good dls fun l hl hb => by rw [C40_bad_device_line _ _ _ hd l hl hb] at h; cases h
  have hrej := C40_rejected partsYaml devicesYaml parts devices hp hpl hd hdl
  refine ⟨parts, devices, rfl, rfl, hpl, hdl, ?_, ?_⟩
  · intro e he hk
    cases hv : propValue e.2 nameFabric with
    | some v => rfl
    | none => rw [hrej (Or.inl ⟨e, he, hk, hv⟩)] at h; cases h
  · intro e he hk
    cases hv : infoOf (devices.map (·.2)) e.2 with
    | some v => rfl
    | none => rw [hrej (Or.inr ⟨e, he, hk, hv⟩)] at h; cases h

theorem tells_partInfo (x : LibTexts) (env : Env) (root : Path) (part : Bytes) :
    Tells (parsePartInfoM x env root part) (FirstOf [Unopened x env (partsPath root), Unopened x env (devicesPath root),
      DevicesTrouble env root, PartsTrouble env root, UnknownPart env root part]) := by
  unfold parsePartInfoM
  refine tells_bind (tells_mapFile x env (partsPath root)) fun pc hpc => ?_
  refine tells_bind (tells_mapFile x env (devicesPath root)) fun dc hdc => ?_
  have read : ∀ {p c}, mapFileM x env p = .ok c → env.read p = some c := by
    intro p c h
    unfold mapFileM at h
    cases hr : env.read p with
    | none => rw [hr] at h; cases h
    | some c' => rw [hr] at h; cases h; rfl
  have hpr : env.read (partsPath root) = some pc := read hpc
  have hdr : env.read (devicesPath root) = some dc := read hdc
  obtain ⟨pc, pb⟩ := pc
  obtain ⟨dc, db⟩ := dc
  obtain ⟨pls, hpl⟩ := linesOf_exists pc
  obtain ⟨dls, hdl⟩ := linesOf_exists dc
  dsimp only
  have hpu : ∀ ls, HasLines env (partsPath root) ls → ls = pls := by
    rintro ls ⟨c, b, h1, h2⟩
    rw [hpr] at h1; cases h1
    exact C35_lines_unique _ _ _ h2 hpl
  have hdu : ∀ ls, HasLines env (devicesPath root) ls → ls = dls := by
    rintro ls ⟨c, b, h1, h2⟩
    rw [hdr] at h1; cases h1
    exact C35_lines_unique _ _ _ h2 hdl
  have hprob := C102_first_problem pc dc pls dls hpl hdl
  have htable : Tells (parsePartsInfosM pc dc) (FirstOf [DevicesTrouble env root, PartsTrouble env root]) := by
    have hfo : ∀ t, FirstOf [DevicesTrouble env root, PartsTrouble env root] t ↔ ∃ m, parsePartsInfosM pc dc = .err m ∧ t = .says m := by
      intro t
      rw [firstOf_cons, firstOf_single]
      constructor
      · rintro (⟨ls, m, h1, h2, rfl⟩ | ⟨_, devices, ls, m, h1, h2, h3, h4, h5, rfl⟩)
        · rw [hdu _ h1] at h2
          exact ⟨m, (hprob m).2 (Or.inl h2), rfl⟩
        · rw [hpu _ h4] at h5
          exact ⟨m, (hprob m).2 (Or.inr ⟨devices, (hdu _ h1).symm, h2, h3, h5⟩), rfl⟩
      · rintro ⟨m, hm, rfl⟩
        rcases (hprob m).1 hm with h | ⟨devices, h1, h2, h3, h4⟩
        · exact Or.inl ⟨dls, m, ⟨dc, db, hdr, hdl⟩, h, rfl⟩
        · by_cases hd : ∃ t, DevicesTrouble env root t
          · left
            obtain ⟨t, ls, m', h5, h6, rfl⟩ := hd
            rw [hdu _ h5] at h6
            have := (hprob m').2 (Or.inl h6)
            rw [hm] at this
            cases this
            exact ⟨dls, _, ⟨dc, db, hdr, hdl⟩, h6, rfl⟩
          · exact Or.inr ⟨fun t ht => hd ⟨t, ht⟩, devices, pls, m, h1 ▸ ⟨dc, db, hdr, hdl⟩, h2, h3, ⟨pc, pb, hpr, hpl⟩, h4, rfl⟩
    refine ⟨fun t ht => ?_, fun hn => ?_⟩
    · obtain ⟨m, hm, rfl⟩ := (hfo t).1 ht
      exact hm
    · rcases C102_total pc dc with h | ⟨m, hm⟩
      · exact h
      · exact absurd ((hfo _).2 ⟨m, hm, rfl⟩) (hn _)
  refine tells_append (ds := [UnknownPart env root part]) htable fun infos hinfos => ?_
  have hok : parsePartsInfos pc dc = .ok infos := by rw [← C102_same_parser, hinfos]; rfl
  obtain ⟨parts, devices, rfl, rfl, h1, h2, h3, h4⟩ := table_good pc dc pls dls hpl hdl infos hok
  have hPT : ∀ info, PartTable env root part info ↔ info = infos.lookup part := by
    intro info
    obtain ⟨m, hm, hl⟩ := C40_table pc dc parts devices hpl h1 hdl h2 h3 h4
    rw [hok] at hm
    cases hm
    have hthis : PartTable env root part (infos.lookup part) :=
      ⟨parts, devices, ⟨pc, pb, hpr, hpl⟩, ⟨dc, db, hdr, hdl⟩, h1, h2, h3, h4, hl part⟩
    constructor
    · rintro ⟨parts', devices', ⟨pc', pb', g1, g2⟩, ⟨dc', db', g3, g4⟩, g5, g6, g7, g8, rfl⟩
      have e1 : env.read (partsPath root) = some (pc', pb') := g1
      have e2 : env.read (devicesPath root) = some (dc', db') := g3
      rw [hpr] at e1; cases e1
      rw [hdr] at e2; cases e2
      obtain ⟨m, hm, hl⟩ := C40_table pc dc parts' devices' g2 g5 g4 g6 g7 g8
      rw [hok] at hm
      cases hm
      exact (hl part).symm
    · rintro rfl; exact hthis
  cases hl : infos.lookup part with
  | none =>
    refine ⟨fun t ht => ?_, fun hn => absurd ((firstOf_single _ _).2 ⟨(hPT none).2 hl.symm, rfl⟩) (hn _)⟩
    obtain ⟨_, rfl⟩ := (firstOf_single _ _).1 ht
    show Said.err _ = Said.err _
    rw [quoting_lit]
    have : lit "invalid or unknown part \"" = lit "invalid or unknown part" ++ lit " \"" := by decide +kernel
    rw [this]
  | some i =>
    refine tells_pure i rfl fun t ht => ?_
    obtain ⟨h, _⟩ := (firstOf_single _ _).1 ht
    rw [hPT, hl] at h
    cases h

theorem tells_listing (env : Env) (root : Path) :
    Tells (Said.ofOutcome (lit "could not initialize directory iterator") (indexTileTypes env root)) (Unlisted env root) := by
  unfold indexTileTypes Unlisted
  cases h : env.listing root with
  | none => exact ⟨fun t ht => by rw [ht.2]; rfl, fun hn => absurd ⟨rfl, rfl⟩ (hn _)⟩
  | some e => exact tells_pure _ rfl fun t ht => by cases ht.1

theorem tells_database (x : LibTexts) (env : Env) (load : LoadOrder) (root : Path) (part : Bytes) :
    Tells (parseDatabaseM x env load root part) (DatabaseTrouble x env root part) := by
  unfold parseDatabaseM DatabaseTrouble
  refine tells_append (ds := [FabricTrouble x env root part, Unlisted env root,
    JsonFileTrouble x env (root ++ [part, bytes!"part.json"]) (PartTrouble x),
    PinFileTrouble x env (root ++ [part, bytes!"package_pins.csv"])]) (tells_partInfo x env root part) fun info hinfo => ?_
  have hPT : ∀ i, PartTable env root part (some i) ↔ i = info := by
    intro i
    have hok : parsePartInfo env root part = .ok info := by rw [← parsePartInfoM_forget x, hinfo]; rfl
    constructor
    · intro h
      have := (table_lookup h).1 i rfl
      rw [hok] at this
      cases this
      rfl
    · rintro rfl
      have hno := (tells_ok_iff (tells_partInfo x env root part)).1 ⟨i, hinfo⟩
      unfold parsePartInfo at hok
      cases hp : env.read (root ++ [kMapping, kPartsYaml]) with
      | none => rw [hp] at hok; cases hok
      | some pc =>
        rw [hp] at hok
        dsimp only at hok
        cases hd : env.read (root ++ [kMapping, kDevicesYaml]) with
        | none => rw [hd] at hok; cases hok
        | some dc =>
          rw [hd] at hok
          dsimp only at hok
          obtain ⟨m, hm, hok⟩ := Outcome.bind_eq_ok.1 hok
          obtain ⟨pls, hpl⟩ := linesOf_exists pc.1
          obtain ⟨dls, hdl⟩ := linesOf_exists dc.1
          obtain ⟨parts, devices, rfl, rfl, h1, h2, h3, h4⟩ := table_good pc.1 dc.1 pls dls hpl hdl m hm
          obtain ⟨m', hm', hl⟩ := C40_table pc.1 dc.1 parts devices hpl h1 hdl h2 h3 h4
          rw [hm] at hm'
          cases hm'
          refine ⟨parts, devices, ⟨pc.1, pc.2, hp, hpl⟩, ⟨dc.1, dc.2, hd, hdl⟩, h1, h2, h3, h4, ?_⟩
          rw [← hl part]
          cases hk : m.lookup part with
          | none => rw [hk] at hok; cases hok
          | some i' => rw [hk] at hok; cases hok; rfl
  refine tells_bind (tells_congr (tells_jsonFile x env (root ++ [info.fabric, kTilegrid]) (parseTileGridM x) (GridTrouble x) (tells_grid x))
    fun t => ?_) fun grid _ => ?_
  · constructor
    · intro h; exact ⟨info, (hPT info).2 rfl, h⟩
    · rintro ⟨i, hi, h⟩
      rw [(hPT i).1 hi] at h
      exact h
  refine tells_bind (tells_listing env root) fun paths _ => ?_
  refine tells_bind (tells_jsonFile x env (root ++ [part, kPartJson]) (parsePartM x) (PartTrouble x) (tells_part x)) fun p _ => ?_
  have e : ∀ (c : Said (Bytes × Option UInt8)) (g : PackagePins → Said PartDatabase),
      (c >>= fun content => parsePackagePinsM content.2 content.1 >>= g) = ((c >>= fun c => parsePackagePinsM c.2 c.1) >>= g) := by
    intro c g; rw [bind_assoc]
  rw [e]
  exact tells_bind (tells_pinFile x env (root ++ [part, kPackagePins])) fun pins _ => tells_done _

/-- A database is loaded exactly if there is no trouble with its files; otherwise the first trouble decides how loading ends and what is
said. -/
theorem C104_database (x : LibTexts) (env : Env) (load : LoadOrder) (root : Path) (part : Bytes) :
    ((∃ db, parseDatabaseM x env load root part = .ok db) ↔ ∀ t, ¬ DatabaseTrouble x env root part t) ∧
    (∀ m, parseDatabaseM x env load root part = .err m ↔ DatabaseTrouble x env root part (.says m)) ∧
    (parseDatabaseM x env load root part = .abort ↔ DatabaseTrouble x env root part .terminated) ∧
    (parseDatabaseM x env load root part = .ub ↔ DatabaseTrouble x env root part .undefined) :=
  ⟨tells_ok_iff (tells_database x env load root part), fun m => tells_iff (tells_database x env load root part) (.says m),
    tells_iff (tells_database x env load root part) .terminated, tells_iff (tells_database x env load root part) .undefined⟩

/-- A part that is not in the table is named. -/
theorem C104_unknown_part (x : LibTexts) (env : Env) (load : LoadOrder) (root : Path) (part : Bytes) (h : PartTable env root part none) :
    parseDatabaseM x env load root part = .err (ascii "invalid or unknown part \"" ++ part ++ ascii "\"") := by
  obtain ⟨parts, devices, ⟨pc, pb, h1, h2⟩, ⟨dc, db, h3, h4⟩, h5, h6, h7, h8, h9⟩ := h
  obtain ⟨m, hm, hl⟩ := C40_table pc dc parts devices h2 h5 h4 h6 h7 h8
  have hm' : parsePartsInfosM pc dc = .ok m := Said.forget_eq_ok.1 (by rw [C102_same_parser, hm])
  have e1 : mapFileM x env (root ++ [kMapping, kPartsYaml]) = .ok (pc, pb) := by
    unfold mapFileM; rw [show env.read (root ++ [kMapping, kPartsYaml]) = some (pc, pb) from h1]
  have e2 : mapFileM x env (root ++ [kMapping, kDevicesYaml]) = .ok (dc, db) := by
    unfold mapFileM; rw [show env.read (root ++ [kMapping, kDevicesYaml]) = some (dc, db) from h3]
  unfold parseDatabaseM parsePartInfoM
  rw [e1, Said.bind_ok, e2, Said.bind_ok]
  dsimp only
  rw [hm', Said.bind_ok, hl, ← h9]
  rfl

example (x : LibTexts) (load : LoadOrder) : parseDatabaseM x dirEnv load [bytes!"d"] bytes!"q" = .err (ascii "invalid or unknown part \"q\"") :=
  C104_unknown_part x dirEnv load _ _ (dir_table _ _ (by decide))

/-- The tile grid of the example directory is no JSON. -/
example (x : LibTexts) (load : LoadOrder) :
    parseDatabaseM x { dirEnv with json := fun _ => none } load [bytes!"d"] bytes!"p" =
      .err (ascii "json parsing error, " ++ (x.jsonError bytes!"G").1 ++ ascii " (" ++ dec (x.jsonError bytes!"G").2 ++ ascii ")") := by
  have h : parsePartInfoM x { dirEnv with json := fun _ => none } [bytes!"d"] bytes!"p" = .ok ⟨bytes!"d", bytes!"f", bytes!"k", bytes!"1"⟩ := by
    apply Said.forget_eq_ok.1
    rw [parsePartInfoM_forget]
    decide +kernel
  unfold parseDatabaseM
  rw [h, Said.bind_ok]
  unfold parseJsonFileM
  have e : mapFileM x { dirEnv with json := fun _ => none } ([bytes!"d"] ++ [bytes!"f", kTilegrid]) = .ok (bytes!"G", none) := by
    unfold mapFileM
    have : dirEnv.read ([bytes!"d"] ++ [bytes!"f", kTilegrid]) = some (bytes!"G", none) := by decide +kernel
    rw [show ({ dirEnv with json := fun _ => none } : Env).read = dirEnv.read from rfl, this]
  rw [e, Said.bind_ok]
  dsimp only
  unfold msgJson
  rw [Fasm.dec_eq]
  rfl

/-- Undefined behaviour is possible: the bits of a tile are a number. -/
example (x : LibTexts) (load : LoadOrder) (env : Env) (root : Path) (part : Bytes) (info : PartInfo) (content : Bytes × Option UInt8) (j : Json)
    (h : parsePartInfoM x env root part = .ok info) (hr : env.read (root ++ [info.fabric, bytes!"tilegrid.json"]) = some content)
    (hj : env.json content.1 = some j) (ht : GridTrouble x j .undefined) : parseDatabaseM x env load root part = .ub := by
  unfold parseDatabaseM parseJsonFileM mapFileM
  rw [h, Said.bind_ok, show env.read (root ++ [info.fabric, kTilegrid]) = some content from hr]
  simp only [Said.bind_ok, hj]
  rw [(C103_grid x j).2.2.2.2 ht]
  rfl

end Verif.Props
