import Verif.Props.C107
import Verif.Props.C108
import Verif.Props.C66
/-! # C109: the files of the parts of a design, put together, are the file of the design -/
namespace Verif.Props
open Verif.Db Verif.Spec Verif.Text Verif.Asm Verif.Xc7

/-- Without STEPDOWN, what a whole wants is what one of its parts wants. -/
theorem wants_whole {tiles : Tiles} (t t' whole : Bytes) (hl : ∀ line, IsLine whole line ↔ IsLine t line ∨ IsLine t' line)
    (hn : NoStepdown tiles t) (hn' : NoStepdown tiles t') (k w b : Nat) : Wants tiles whole k w b ↔ Wants tiles t k w b ∨ Wants tiles t' k w b := by
  have hw := C106_no_stepdown t t' whole hl hn hn'
  unfold Wants Lists
  simp only [design_of_noStepdown hw, design_of_noStepdown hn, design_of_noStepdown hn', basic_whole t t' whole hl]
  constructor
  · rintro ⟨tile, c, ⟨F, f, a, bs, h | h, h2⟩, h3⟩
    · exact Or.inl ⟨tile, c, ⟨F, f, a, bs, h, h2⟩, h3⟩
    · exact Or.inr ⟨tile, c, ⟨F, f, a, bs, h, h2⟩, h3⟩
  · rintro (⟨tile, c, ⟨F, f, a, bs, h, h2⟩, h3⟩ | ⟨tile, c, ⟨F, f, a, bs, h, h2⟩, h3⟩)
    · exact ⟨tile, c, ⟨F, f, a, bs, Or.inl h, h2⟩, h3⟩
    · exact ⟨tile, c, ⟨F, f, a, bs, Or.inr h, h2⟩, h3⟩

theorem touches_part {tiles : Tiles} (t t' whole : Bytes) (hl : ∀ line, IsLine whole line ↔ IsLine t line ∨ IsLine t' line)
    (hn : NoStepdown tiles t) (hn' : NoStepdown tiles t') (k : Nat) :
    TouchesFrame tiles (Design tiles whole) k ↔ TouchesFrame tiles (Design tiles t) k ∨ TouchesFrame tiles (Design tiles t') k := by
  have hw := C106_no_stepdown t t' whole hl hn hn'
  unfold TouchesFrame Lists
  simp only [design_of_noStepdown hw, design_of_noStepdown hn, design_of_noStepdown hn', basic_whole t t' whole hl]
  constructor
  · rintro ⟨tile, c, ⟨F, f, a, bs, h | h, h2⟩, h3⟩
    · exact Or.inl ⟨tile, c, ⟨F, f, a, bs, h, h2⟩, h3⟩
    · exact Or.inr ⟨tile, c, ⟨F, f, a, bs, h, h2⟩, h3⟩
  · rintro (⟨tile, c, ⟨F, f, a, bs, h, h2⟩, h3⟩ | ⟨tile, c, ⟨F, f, a, bs, h, h2⟩, h3⟩)
    · exact ⟨tile, c, ⟨F, f, a, bs, Or.inl h, h2⟩, h3⟩
    · exact ⟨tile, c, ⟨F, f, a, bs, Or.inr h, h2⟩, h3⟩

theorem byte_or (x y z : UInt8) (h : ∀ i < 8, z.toNat.testBit i = true ↔ (x.toNat.testBit i = true ∨ y.toNat.testBit i = true)) : z = x ||| y := by
  apply UInt8.toNat.inj
  rw [UInt8.toNat_or]
  apply Nat.eq_of_testBit_eq
  intro i
  rw [Nat.testBit_or]
  by_cases hi : i < 8
  · have := h i hi
    cases h5 : x.toNat.testBit i <;> cases h6 : y.toNat.testBit i <;> cases h7 : z.toNat.testBit i <;> simp_all
  · have big : ∀ x : UInt8, x.toNat.testBit i = false := fun x =>
      Nat.testBit_lt_two_pow (Nat.lt_of_lt_of_le x.toNat_lt (Nat.pow_le_pow_right (by decide) (by omega : 8 ≤ i)))
    rw [big, big, big]; rfl

/-- A design without STEPDOWN tags whose lines are those of two parts: the file of the design is the bytewise OR of the files of the parts (same part, date and
time). -/
theorem C109_or (env : Env) (load : LoadOrder) (hload : LoadOk load) (db : PartDatabase)
    (hd : DescDense db.tiles.part) (p : Xc7.Part) (hp : Part.fromPart db.tiles.part = .ok p)
    (hsmall : FitsPacket p) (seek : Bool) (ord ord' ord'' : HashOrder) (hord : Permutes ord) (hord' : Permutes ord') (hord'' : Permutes ord'')
    (inv inv' inv'' : Invocation) (hdate : ShortAscii inv.date) (htime : ShortAscii inv.time) (hdt' : inv'.date = inv.date) (htm' : inv'.time = inv.time)
    (hdt'' : inv''.date = inv.date) (htm'' : inv''.time = inv.time) (t t' whole : Bytes)
    (hl : ∀ line, IsLine whole line ↔ IsLine t line ∨ IsLine t' line) (hn : NoStepdown db.tiles t) (hn' : NoStepdown db.tiles t')
    (hstart : Starts env load inv db t) (hstart' : Starts env load inv' db t') (hstart'' : Starts env load inv'' db whole)
    (hasm : Assembles db.tiles t) (hasm' : Assembles db.tiles t')
    (hin : ∀ k, TouchesFrame db.tiles (Design db.tiles t) k → FrameOf p k) (hin' : ∀ k, TouchesFrame db.tiles (Design db.tiles t') k → FrameOf p k) :
    ∃ fuel0, ∀ fuel ≥ fuel0, ∃ o o' o'', main env load ord inv ⟨[], 0, seek, false⟩ fuel = some (.ok (0, o)) ∧
      main env load ord' inv' ⟨[], 0, seek, false⟩ fuel = some (.ok (0, o')) ∧
      main env load ord'' inv'' ⟨[], 0, seek, false⟩ fuel = some (.ok (0, o'')) ∧
      o.bytes.length = o'.bytes.length ∧ o''.bytes = List.zipWith (· ||| ·) o.bytes o'.bytes := by
  have hasm'' : Assembles db.tiles whole := (assembles_whole t t' whole hl hn hn').2 ⟨hasm, hasm'⟩
  obtain ⟨T, place, h1, h2, h3⟩ := C108_program env load hload db hd p hp hsmall inv.date inv.time hdate htime seek
  obtain ⟨f1, g⟩ := h3 ord inv t hord hstart rfl rfl hasm hin
  obtain ⟨f2, g'⟩ := h3 ord' inv' t' hord' hstart' hdt' htm' hasm' hin'
  obtain ⟨f3, g''⟩ := h3 ord'' inv'' whole hord'' hstart'' hdt'' htm'' hasm''
    (fun k hk => ((touches_part t t' whole hl hn hn' k).1 hk).elim (hin k) (hin' k))
  refine ⟨f1 + f2 + f3, fun fuel hf => ?_⟩
  obtain ⟨o, e1, e2, e3, e4⟩ := g fuel (by omega)
  obtain ⟨o', e1', e2', e3', e4'⟩ := g' fuel (by omega)
  obtain ⟨o'', e1'', e2'', e3'', e4''⟩ := g'' fuel (by omega)
  refine ⟨o, o', o'', e1, e1', e1'', e2.trans e2'.symm, List.ext_getElem? fun n => ?_⟩
  rw [List.getElem?_zipWith]
  by_cases hout : ∀ k, FrameOf p k → n < place k ∨ place k + 404 ≤ n
  · rw [e4 n hout, e4' n hout, e4'' n hout]
    cases T[n]? with
    | none => rfl
    | some x => simp
  · obtain ⟨k, hk⟩ := Classical.not_forall.1 hout
    obtain ⟨hk, hk'⟩ := Classical.not_imp.1 hk
    have hpos : n = place k + 4 * ((n - place k) / 4) + (n - place k) % 4 := by omega
    have hwl : (n - place k) / 4 < 101 := by omega
    generalize (n - place k) / 4 = w at hpos hwl
    have hj : (n - place k) % 4 < 4 := by omega
    generalize (n - place k) % 4 = j at hpos hj
    have hbit : ∀ i, i < 8 → ∃ x y z, o.bytes[n]? = some x ∧ o'.bytes[n]? = some y ∧ o''.bytes[n]? = some z ∧
        (z.toNat.testBit i = true ↔ (x.toNat.testBit i = true ∨ y.toNat.testBit i = true)) := by
      intro i hi
      have hb : 8 * (3 - j) + i < 32 := by omega
      have d1 : (8 * (3 - j) + i) / 8 = 3 - j := by omega
      have d2 : (8 * (3 - j) + i) % 8 = i := by omega
      have d3 : place k + 4 * w + (3 - (3 - j)) = n := by omega
      obtain ⟨x, x1, x2⟩ := e3 k w (8 * (3 - j) + i) hk hwl hb
      obtain ⟨y, y1, y2⟩ := e3' k w (8 * (3 - j) + i) hk hwl hb
      obtain ⟨z, z1, z2⟩ := e3'' k w (8 * (3 - j) + i) hk hwl hb
      rw [d1, d3] at x1 y1 z1
      rw [d2] at x2 y2 z2
      exact ⟨x, y, z, x1, y1, z1, by rw [x2, y2, z2]; exact wants_whole t t' whole hl hn hn' k w _⟩
    obtain ⟨x, y, z, hx, hy, hz, _⟩ := hbit 0 (by omega)
    rw [hx, hy, hz]
    congr 1
    refine byte_or x y z fun i hi => ?_
    obtain ⟨x', y', z', hx', hy', hz', h⟩ := hbit i hi
    rw [hx] at hx'
    rw [hy] at hy'
    rw [hz] at hz'
    cases hx'
    cases hy'
    cases hz'
    exact h

/-! ## C107 for the program -/

/-- The program on two databases that agree on what the design needs, for one part description, date and time: one run ends with status 0
exactly if the other does, and then prints the same. -/
theorem C107_program (env env' : Env) (load load' : LoadOrder) (hload : LoadOk load) (hload' : LoadOk load') (ord ord' : HashOrder)
    (hord : Permutes ord) (hord' : Permutes ord') (inv inv' : Invocation) (db db' : PartDatabase) (text : Bytes)
    (hstart : Starts env load inv db text) (hstart' : Starts env' load' inv' db' text) (hdate : inv'.date = inv.date) (htime : inv'.time = inv.time)
    (hpart : db'.tiles.part = db.tiles.part) (ha : Agree db.tiles db'.tiles text)
    (out o : OStream) (fuel : Nat) :
    main env load ord inv out fuel = some (.ok (0, o)) ↔ main env' load' ord' inv' out fuel = some (.ok (0, o)) := by
  obtain ⟨_, _, hinp, path, _, _, _, hparse⟩ := id hstart
  obtain ⟨_, _, hinp', path', _, _, _, hparse'⟩ := id hstart'
  obtain ⟨hok, hfresh⟩ := C45_loaded env load hload _ _ db hparse
  obtain ⟨hok', hfresh'⟩ := C45_loaded env' load' hload' _ _ db' hparse'
  have key : ∀ db1 text1 d1 (fr1 : Frames), Starts env load inv db1 text1 → assembleFrames ord text1 db1 [] = .ok (d1, fr1) →
      db1 = db ∧ text1 = text := by
    intro db1 text1 d1 fr1 h1 _
    exact starts_unique h1 hstart
  have key' : ∀ db1 text1 d1 (fr1 : Frames), Starts env' load' inv' db1 text1 → assembleFrames ord' text1 db1 [] = .ok (d1, fr1) →
      db1 = db' ∧ text1 = text := by
    intro db1 text1 d1 fr1 h1 _
    exact starts_unique h1 hstart'
  have hframes := C107_same_frames hok hok' ord ord' hord hord' text ha db db' hfresh hfresh'
  have hsucc := C107_succeeds hok hok' ord ord' hord hord' text ha db db' hfresh hfresh'
  have htl : ∀ d fr, assembleFrames ord text db [] = .ok (d, fr) → d.tiles = db.tiles := by
    intro d fr h
    obtain ⟨d2, fr2, h2, hr, _⟩ := assemble_ok hok ord hord text db hfresh (assemble_inv hok ord hord text db hfresh _ h)
    rw [h] at h2
    cases h2
    exact (reachable_cache hr).1
  have htl' : ∀ d fr, assembleFrames ord' text db' [] = .ok (d, fr) → d.tiles = db'.tiles := by
    intro d fr h
    obtain ⟨d2, fr2, h2, hr, _⟩ := assemble_ok hok' ord' hord' text db' hfresh' (assemble_inv hok' ord' hord' text db' hfresh' _ h)
    rw [h] at h2
    cases h2
    exact (reachable_cache hr).1
  constructor
  · intro h
    rcases C58_stages_partial env load ord inv out o fuel 0 h with ⟨h0, _⟩ | ⟨_, db1, text1, d1, fr1, s1, s2, s3⟩
    · cases h0
    · obtain ⟨rfl, rfl⟩ := key db1 text1 d1 fr1 s1 s2
      obtain ⟨⟨d', fr'⟩, h'⟩ := hsucc.1 ⟨_, s2⟩
      have := hframes d1 d' fr1 fr' s2 h'
      subst this
      refine C58_success env' load' ord' inv' out o fuel db' text1 hstart' d' fr' h' ?_
      rw [htl' d' fr' h', hpart, hdate, htime, ← htl d1 fr' s2]
      exact s3
  · intro h
    rcases C58_stages_partial env' load' ord' inv' out o fuel 0 h with ⟨h0, _⟩ | ⟨_, db1, text1, d1, fr1, s1, s2, s3⟩
    · cases h0
    · obtain ⟨rfl, rfl⟩ := key' db1 text1 d1 fr1 s1 s2
      obtain ⟨⟨d', fr'⟩, h'⟩ := hsucc.2 ⟨_, s2⟩
      have := hframes d' d1 fr' fr1 h' s2
      subst this
      refine C58_success env load ord inv out o fuel db text1 hstart d' fr1 h' ?_
      rw [htl d' fr1 h', ← hpart, ← hdate, ← htime, ← htl' d1 fr1 s2]
      exact s3

/-! ## Example

The small database with a second feature, `X.G`. -/

def pairEnv : Env :=
  { fileEnv with
    read := fun p => if p = [bytes!"d", bytes!"f", segbitsFile bytes!"x"] then some (bytes!"X.F 03_33\nX.G 05_01\n", none) else fileEnv.read p }

def pairTiles : Tiles :=
  { grid := [(bytes!"T", fileT)], bits := tilesDatabase pairEnv filePaths
    banks := Registry.create (fun l => l) smallDesc [], part := smallDesc }

theorem pair_database : parseDatabase pairEnv sameLoad [bytes!"d"] bytes!"p" = .ok ⟨pairTiles, []⟩ := by
  have h1 : parsePartInfo pairEnv [bytes!"d"] bytes!"p" = .ok ⟨bytes!"d", bytes!"f", bytes!"k", bytes!"1"⟩ := by decide +kernel
  have h2 : indexTileTypes pairEnv [bytes!"d"] = .ok filePaths := by decide +kernel
  have h3 : parseJsonFile pairEnv parseTileGrid ([bytes!"d"] ++ [bytes!"f", kTilegrid]) = .ok [(bytes!"T", fileT)] := file_grid
  have h4 : parseJsonFile pairEnv parsePart ([bytes!"d"] ++ [bytes!"p", kPartJson]) = .ok smallDesc := file_part
  have h5 : parseFile pairEnv parsePackagePins ([bytes!"d"] ++ [bytes!"p", kPackagePins]) = .ok [] := rfl
  unfold parseDatabase
  rw [h1, Outcome.bind_ok]
  dsimp only
  rw [h3, Outcome.bind_ok, h2, Outcome.bind_ok, h4, Outcome.bind_ok, h5, Outcome.bind_ok]
  rfl

theorem pair_starts (text : Bytes) : Starts pairEnv sameLoad { fileInv with stdin := text } ⟨pairTiles, []⟩ text :=
  ⟨by simp [fileInv], by simp [fileInv], Or.inr ⟨fun _ _ h => by simp [fileInv] at h, rfl⟩, bytes!"d", Or.inr ⟨rfl, rfl⟩, by decide,
    by decide, pair_database⟩

theorem pairTiles_ok : TilesOk pairTiles := (C45_loaded _ _ sameLoad_ok _ _ _ pair_database).1

theorem pair_words : ioWords (assembleFrames sameOrder bytes!"T.F\n" ⟨pairTiles, []⟩ []) =
      .ok ((List.range 36).map fun k => (k, if k = 3 then [(3, 2)] else [])) ∧
    ioWords (assembleFrames sameOrder bytes!"T.G\n" ⟨pairTiles, []⟩ []) =
      .ok ((List.range 36).map fun k => (k, if k = 5 then [(2, 2)] else [])) := by
  decide +kernel

theorem pair_inside (p : Xc7.Part) (hp : Part.fromPart smallDesc = .ok p) (text : Bytes) (r : PartDatabase × Frames)
    (h : assembleFrames sameOrder text ⟨pairTiles, []⟩ [] = .ok r) (hk : (r.2.map (·.1)) = List.range 36) :
    Assembles pairTiles text ∧ ∀ k, TouchesFrame pairTiles (Design pairTiles text) k → FrameOf p k := by
  refine ⟨(C50_succeeds pairTiles_ok sameOrder sameOrder_permutes _ _ Reachable.fresh).1 ⟨r, h⟩, ?_⟩
  have hframes := C50_frames pairTiles_ok sameOrder sameOrder_permutes _ _ Reachable.fresh r.1 r.2 h
  intro k ht
  obtain ⟨f, hf⟩ := (hframes.2.2 k).2 ht
  have hm : k ∈ r.2.map (·.1) := List.mem_map.2 ⟨_, hf, rfl⟩
  rw [hk, List.mem_range] at hm
  refine Or.inr ⟨by omega, ?_⟩
  have := file_valid k hm
  cases hp
  exact this

theorem pair_keys (text : Bytes) (h : (assembleFrames sameOrder text ⟨pairTiles, []⟩ [] >>= fun r => .ok (r.2.map (·.1))) = .ok (List.range 36)) :
    ∃ r, assembleFrames sameOrder text ⟨pairTiles, []⟩ [] = .ok r ∧ r.2.map (·.1) = List.range 36 := by
  obtain ⟨r, hr, he⟩ := Outcome.bind_eq_ok.1 h
  exact ⟨r, hr, Outcome.ok.inj he⟩

/-- The files of `T.F`, of `T.G` and of both. -/
example : ∃ fuel0, ∀ fuel ≥ fuel0, ∃ o o' o'',
    main pairEnv sameLoad sameOrder { fileInv with stdin := bytes!"T.F\n" } ⟨[], 0, true, false⟩ fuel = some (.ok (0, o)) ∧
    main pairEnv sameLoad sameOrder { fileInv with stdin := bytes!"T.G\n" } ⟨[], 0, true, false⟩ fuel = some (.ok (0, o')) ∧
    main pairEnv sameLoad sameOrder { fileInv with stdin := bytes!"T.F\n" ++ bytes!"T.G\n" } ⟨[], 0, true, false⟩ fuel = some (.ok (0, o'')) ∧
    o.bytes.length = o'.bytes.length ∧ o''.bytes = List.zipWith (· ||| ·) o.bytes o'.bytes := by
  obtain ⟨r, hr, hrk⟩ := pair_keys bytes!"T.F\n" (by decide +kernel)
  obtain ⟨r', hr', hrk'⟩ := pair_keys bytes!"T.G\n" (by decide +kernel)
  obtain ⟨a1, a2⟩ := pair_inside _ rfl bytes!"T.F\n" r hr hrk
  obtain ⟨b1, b2⟩ := pair_inside _ rfl bytes!"T.G\n" r' hr' hrk'
  exact C109_or pairEnv sameLoad sameLoad_ok ⟨pairTiles, []⟩ smallDesc_dense _ rfl smallDesc_packet true sameOrder sameOrder sameOrder
    sameOrder_permutes sameOrder_permutes sameOrder_permutes { fileInv with stdin := bytes!"T.F\n" } { fileInv with stdin := bytes!"T.G\n" }
    { fileInv with stdin := bytes!"T.F\n" ++ bytes!"T.G\n" } (by unfold ShortAscii; decide) (by unfold ShortAscii; decide) rfl rfl rfl rfl _ _ _
    (fun line => C106_lines bytes!"T.F\n" bytes!"T.G\n" line (Or.inr ⟨bytes!"T.F", rfl⟩))
    (noStepdown_of (by decide) _ rfl (by decide)) (noStepdown_of (by decide) _ rfl (by decide))
    (pair_starts _) (pair_starts _) (pair_starts _) a1 b1 a2 b2

/-- The database with `X.G` says the same about `T.F`: the hypotheses of `C107_program` hold, and the two runs print the same. -/
theorem pair_agrees : Agree fileTiles pairTiles bytes!"T.F\n" := by
  have hn : NoStepdown fileTiles bytes!"T.F\n" := noStepdown_of (by decide) _ rfl (by decide)
  refine ⟨fun _ _ => Iff.rfl, ?_, fun _ _ _ _ _ _ _ => rfl, fun _ _ _ => rfl, fun _ _ _ => rfl⟩
  rintro tile feature addr ⟨F, h1, h2⟩
  refine ⟨rfl, ?_⟩
  have hw : Written bytes!"T.F\n" F := by
    rcases (design_of_noStepdown hn F).1 h1 with ⟨t, p, s, h3, _⟩ | h
    · rw [← firstPin_iff] at h3
      have : firstPin fileTiles.grid = none := by decide
      rw [this] at h3
      cases h3
    · exact h
  obtain ⟨r, hr, hn⟩ : ∃ r, (getlines bytes!"T.F\n").mapM plainLine = .ok r ∧ ∀ G ∈ r.flatten, G.name = bytes!"T.F" ∧ G.start = 0 ∧ G.width = 1 :=
    ⟨_, rfl, by decide⟩
  obtain ⟨hF, hst, hwd⟩ := hn F (((parsed_inv bytes!"T.F\n" r hr).2 F).2 hw)
  obtain ⟨e, hd, i, hi, _, haddr⟩ := h2
  rw [hF] at e
  obtain ⟨ht, hf⟩ := cut_unique (c := 0x2e) (a := bytes!"T") (b := bytes!"F") e (by decide) hd
  subst ht hf
  have hi0 : i = 0 := by rw [hwd] at hi; omega
  rw [hi0, hst] at haddr
  have haddr : addr = 0 := haddr
  subst haddr
  have b1 : fileTiles.bits bytes!"X" = .ok (some ⟨[], [(.clbIoClk, [((bytes!"X.F", 0), [⟨3, 33, true⟩])])]⟩) := by decide +kernel
  have b2 : pairTiles.bits bytes!"X" = .ok (some ⟨[], [(.clbIoClk, [((bytes!"X.F", 0), [⟨3, 33, true⟩]), ((bytes!"X.G", 0), [⟨5, 1, true⟩])])]⟩) := by
    decide +kernel
  have hty : ∀ t ty f, fileTiles.grid.lookup bytes!"T" = some t → KnownAs t bytes!"F" ty f → t = fileT ∧ ty = bytes!"X" ∧ f = bytes!"F" := by
    intro t ty f g1 g2
    have : fileTiles.grid.lookup bytes!"T" = some fileT := rfl
    rw [this] at g1
    cases g1
    rcases g2 with ⟨_, h, h'⟩ | ⟨pre, bus, block, a, post, h1, h2, _⟩
    · exact ⟨rfl, h, h'⟩
    · have h3 : ∀ e ∈ fileT.bits, e.2.alias? = none := by decide
      have := h3 (bus, block) (by rw [h1]; simp)
      rw [h2] at this
      cases this
  have hnp : ∀ sb : SegBits, sb.pips = [] → ∀ tile ty f, ¬ IsPip sb tile ty f := by
    rintro ⟨_, _⟩ rfl tile ty f (⟨_, h⟩ | ⟨_, h⟩) <;> cases h
  intro bits
  constructor
  · rintro ⟨t, ty, f, sb, g1, g2, g3, g4⟩
    obtain ⟨rfl, rfl, rfl⟩ := hty t ty f g1 g2
    rw [b2] at g3
    cases g3
    rcases g4 with ⟨g4, _⟩ | ⟨_, _, g4⟩
    · exact absurd g4 (hnp _ rfl _ _ _)
    · exact ⟨fileT, _, _, _, g1, g2, b1, Or.inr ⟨hnp _ rfl _ _ _, by decide, g4⟩⟩
  · rintro ⟨t, ty, f, sb, g1, g2, g3, g4⟩
    obtain ⟨rfl, rfl, rfl⟩ := hty t ty f g1 g2
    rw [b1] at g3
    cases g3
    rcases g4 with ⟨g4, _⟩ | ⟨_, _, g4⟩
    · exact absurd g4 (hnp _ rfl _ _ _)
    · exact ⟨fileT, _, _, _, g1, g2, b2, Or.inr ⟨hnp _ rfl _ _ _, by decide, g4⟩⟩

example (out o : OStream) (fuel : Nat) : main fileEnv sameLoad sameOrder { fileInv with stdin := bytes!"T.F\n" } out fuel = some (.ok (0, o)) ↔
    main pairEnv sameLoad sameOrder { fileInv with stdin := bytes!"T.F\n" } out fuel = some (.ok (0, o)) :=
  C107_program fileEnv pairEnv sameLoad sameLoad sameLoad_ok sameLoad_ok sameOrder sameOrder sameOrder_permutes sameOrder_permutes _ _ _ _ _
    (file_starts_with _) (pair_starts _) rfl rfl rfl pair_agrees out o fuel

end Verif.Props
