import Verif.Props.C08_exact
import Verif.Proofs.LoadedPart
import Verif.Props.C72
import Verif.Proofs.Readback
/-! # C114: when the assembler never ends -/
namespace Verif.Props
open Verif.Db Verif.Asm Verif.Spec Verif.Xc7

/-- Encoding ends when completion of the frames does, and only then. -/
theorem encode_ends (d : Db.Part) (p : Xc7.Part) (hp : Xc7.Part.fromPart d = .ok p) (pn src date time : Bytes) (frames : Frames) (out : OStream)
    (h : ∃ fuel r, addMissingFrames p (zeroFrame frameWordsBase) fuel (convertFrames [] frames) = some r) :
    ∃ fuel0 o, ∀ fuel ≥ fuel0, encode d pn src date time frames out fuel = some (.ok o) := by
  obtain ⟨fuel1, m, hm⟩ := h
  have hmono : ∀ k, addMissingFrames p (zeroFrame frameWordsBase) (fuel1 + k) (convertFrames [] frames) = some m :=
    fun k => addMissingLoop_mono p _ _ _ _ _ hm k
  refine ⟨fuel1 + (syncHeader .xc7 ++ ((configurationPackage (type2Payload p m) p.idcode).flatMap fun p => p.header :: p.data)).length + 1,
    writeFile (createHeader pn src generatorName date time) (syncHeader .xc7 ++ (configurationPackage (type2Payload p m) p.idcode).flatMap fun p => p.header :: p.data) out, fun fuel hfuel => ?_⟩
  have hadd := hmono (fuel - fuel1)
  rw [show fuel1 + (fuel - fuel1) = fuel by omega] at hadd
  unfold encode
  rw [hp]
  dsimp only
  rw [hadd]
  dsimp only
  unfold writeBitstream
  rw [C10_writer_words .xc7 _ fuel (by omega)]
  rfl

theorem encode_hangs (d : Db.Part) (p : Xc7.Part) (hp : Xc7.Part.fromPart d = .ok p) (pn src date time : Bytes) (frames : Frames) (out : OStream)
    (fuel : Nat) (h : addMissingFrames p (zeroFrame frameWordsBase) fuel (convertFrames [] frames) = none) :
    encode d pn src date time frames out fuel = none := by
  unfold encode
  rw [hp]
  dsimp only
  rw [h]

/-- Every loaded part has unique bus names and 32-bit lengths. -/
theorem starts_wellFormed {env : Env} {load : LoadOrder} (hload : LoadOk load) {inv : Invocation} {db : PartDatabase} {text : Bytes}
    (h : Starts env load inv db text) : WellFormedDesc db.tiles.part := by
  obtain ⟨_, _, _, _, _, _, _, hparse⟩ := h
  exact partValid_wellFormed (loaded_part_valid hload hparse)

/-! ## The walk -/

/-- Completing the frames ends exactly if the walk does. -/
theorem missing_ends_iff {β : Type} (p : Xc7.Part) (zero : β) (data : BMap β) :
    (∃ fuel r, addMissingFrames p zero fuel data = some r) ↔ ∃ i, walkAt p 0#32 i = none := by
  unfold addMissingFrames
  constructor
  · rintro ⟨fuel, r, h⟩
    generalize (0#32 : FrameAddress) = a at h
    induction fuel generalizing a data with
    | zero => cases h
    | succ fuel ih =>
      rw [addMissingLoop] at h
      cases hn : p.next a with
      | none => exact ⟨1, walkAt_none p a hn 0⟩
      | some nx =>
        rw [hn] at h
        obtain ⟨i, hi⟩ := ih _ nx h
        exact ⟨i + 1, by rw [walkAt_succ p a nx hn]; exact hi⟩
  · rintro ⟨i, h⟩
    generalize (0#32 : FrameAddress) = a at h
    induction i generalizing a data with
    | zero => cases h
    | succ i ih =>
      cases hn : p.next a with
      | none => exact ⟨1, _, by rw [addMissingLoop]; rw [hn]⟩
      | some nx =>
        rw [walkAt_succ p a nx hn] at h
        obtain ⟨fuel, r, hr⟩ := ih (if (data.find a.toNat).isEmpty then data.emplace a.toNat zero else data) nx h
        exact ⟨fuel + 1, r, by rw [addMissingLoop]; rw [hn]; exact hr⟩

theorem pigeon : ∀ (N : Nat) (f : Nat → Nat), (∀ i ≤ N, f i < N) → ∃ i j, i < j ∧ j ≤ N ∧ f i = f j
  | 0, f, h => absurd (h 0 (Nat.le_refl _)) (Nat.not_lt_zero _)
  | N + 1, f, h => by
    by_cases hv : ∃ i, i ≤ N ∧ f i = f (N + 1)
    · obtain ⟨i, hi, e⟩ := hv
      exact ⟨i, N + 1, by omega, Nat.le_refl _, e⟩
    have hv : ∀ i, i ≤ N → f i ≠ f (N + 1) := fun i hi e => hv ⟨i, hi, e⟩
    obtain ⟨i, j, h1, h2, h3⟩ := pigeon N (fun i => if f i = N then f (N + 1) else f i) (by
      intro i hi
      have h1 := h i (by omega)
      have h2 := h (N + 1) (Nat.le_refl _)
      have h3 := hv i hi
      split <;> omega)
    refine ⟨i, j, h1, by omega, ?_⟩
    have hi := hv i (by omega)
    have hj := hv j h2
    split at h3 <;> split at h3 <;> omega

/-- The walk has no end exactly if it comes to some address a second time. -/
theorem C114_revisits (d : Db.Part) (p : Xc7.Part) (hp : Xc7.Part.fromPart d = .ok p) :
    WalkEndless d ↔ ∃ i j a, i < j ∧ walkAt p 0#32 i = some a ∧ walkAt p 0#32 j = some a := by
  constructor
  · intro h
    have hs : ∀ i, ∃ a, walkAt p 0#32 i = some a := fun i => Option.ne_none_iff_exists'.1 (h p hp i)
    obtain ⟨i, j, h1, _, h2⟩ := pigeon (2 ^ 32) (fun i => ((walkAt p 0#32 i).getD 0#32).toNat) (fun i _ => BitVec.isLt _)
    obtain ⟨a, ha⟩ := hs i
    obtain ⟨b, hb⟩ := hs j
    rw [ha, hb] at h2
    have : a = b := BitVec.eq_of_toNat_eq h2
    exact ⟨i, j, a, h1, ha, by rw [this]; exact hb⟩
  · rintro ⟨i, j, a, hij, hi, hj⟩ p' hp' n
    rw [hp] at hp'
    cases hp'
    -- from `i` on the walk has period `j - i`
    have hper : ∀ k, walkAt p 0#32 (i + k) = walkAt p 0#32 (j + k) := by
      intro k
      induction k with
      | zero => rw [Nat.add_zero, Nat.add_zero, hi, hj]
      | succ k ih => rw [← Nat.add_assoc, ← Nat.add_assoc, walkAt, walkAt, ih]
    have hall : ∀ n, walkAt p 0#32 n ≠ none := by
      intro n
      induction n using Nat.strongRecOn with
      | ind n ih =>
        by_cases hn : n ≤ j
        · intro h0
          have : ∀ k, walkAt p 0#32 (n + k) = none := by
            intro k
            induction k with
            | zero => exact h0
            | succ k ih => rw [← Nat.add_assoc, walkAt, ih]; rfl
          have := this (j - n)
          rw [show n + (j - n) = j by omega, hj] at this
          cases this
        · have := hper (n - j)
          rw [show j + (n - j) = n by omega] at this
          rw [← this]
          exact ih _ (by omega)
    exact hall n

/-- For a part of the documented shape it has no end exactly if the part is larger than a frame address can name. -/
theorem C114_endless (d : Db.Part) (hw : WellFormedDesc d) (hd : DocumentedShape d) : WalkEndless d ↔ TooLarge d := by
  obtain ⟨p, hp⟩ : ∃ p, Xc7.Part.fromPart d = .ok p := ⟨_, rfl⟩
  have hex := (missing_ends_iff p () []).symm.trans (C08_exact d hw hd.shape hd.frames p hp () [])
  constructor
  · intro h
    apply Classical.byContradiction
    intro hno
    obtain ⟨i, hi⟩ := hex.2 fun b r t c n hc => by
      apply Classical.byContradiction
      intro hb
      exact hno ⟨b, r, t, c, n, hc, by omega⟩
    exact h p hp i hi
  · rintro ⟨b, r, t, c, n, hc, hbig⟩ p' hp' i hi
    rw [hp] at hp'
    cases hp'
    have := hex.1 ⟨i, hi⟩ b r t c n hc
    omega

section
variable (env : Env) (load : LoadOrder) (hload : LoadOk load) (ord : HashOrder) (hord : Permutes ord) (inv : Invocation) (out : OStream)
  (db : PartDatabase) (text : Bytes) (h : Starts env load inv db text)
include hload hord h

/-- What `main` does once the input is read, for the three ways assembling can go. -/
theorem main_ways : (Assembles db.tiles text ∧ ∃ db' frames, assembleFrames ord text db [] = .ok (db', frames) ∧ db'.tiles = db.tiles) ∨
    (¬ Assembles db.tiles text ∧ ∃ r, ∀ fuel, main env load ord inv out fuel = some r) := by
  obtain ⟨hok, hr⟩ : TilesOk db.tiles ∧ Reachable db.tiles db := by
    obtain ⟨_, _, _, path, _, _, _, hparse⟩ := id h
    exact C45_loaded env load hload _ _ db hparse
  have hprog := fun fuel => C72_program env load ord inv out fuel db text h
  have hasm := C50_succeeds hok ord hord text db hr
  cases ha : assembleFrames ord text db [] with
  | ok r =>
    obtain ⟨db', frames⟩ := r
    refine Or.inl ⟨hasm.1 ⟨_, ha⟩, db', frames, rfl, ?_⟩
    obtain ⟨db'', frames', ha', hreach, _⟩ := assemble_ok hok ord hord text db hr (hasm.1 ⟨_, ha⟩)
    rw [ha] at ha'
    cases ha'
    exact (reachable_cache hreach).1
  | err =>
    refine Or.inr ⟨fun hc => ?_, _, fun fuel => (hprog fuel).1 ha⟩
    obtain ⟨r, hr⟩ := hasm.2 hc
    rw [ha] at hr; cases hr
  | abort =>
    refine Or.inr ⟨fun hc => ?_, _, fun fuel => (hprog fuel).2.1 ha⟩
    obtain ⟨r, hr⟩ := hasm.2 hc
    rw [ha] at hr; cases hr
  | ub =>
    refine Or.inr ⟨fun hc => ?_, _, fun fuel => (hprog fuel).2.2 ha⟩
    obtain ⟨r, hr⟩ := hasm.2 hc
    rw [ha] at hr; cases hr

/-- The assembler never ends exactly when the design assembles and the walk over the part has no end. -/
theorem C114_hangs_walk : (∀ fuel, main env load ord inv out fuel = none) ↔ Assembles db.tiles text ∧ WalkEndless db.tiles.part := by
  obtain ⟨p, hp⟩ : ∃ p, Xc7.Part.fromPart db.tiles.part = .ok p := ⟨_, rfl⟩
  rcases main_ways env load hload ord hord inv out db text h with ⟨hasm, db', frames, ha, ht⟩ | ⟨hno, r, hr⟩
  · have hex := missing_ends_iff p (zeroFrame frameWordsBase) (convertFrames [] frames)
    constructor
    · intro hall
      refine ⟨hasm, fun p' hp' i hi => ?_⟩
      rw [hp] at hp'
      cases hp'
      obtain ⟨fuel0, o, ho⟩ := encode_ends db.tiles.part p hp kFasm kSource inv.date inv.time frames out (hex.2 ⟨i, hi⟩)
      have := main_started env load ord inv out fuel0 db text h db' frames ha o (by rw [ht]; exact ho fuel0 (Nat.le_refl _))
      rw [hall] at this
      cases this
    · rintro ⟨_, hbig⟩ fuel
      have hnone : addMissingFrames p (zeroFrame frameWordsBase) fuel (convertFrames [] frames) = none := by
        cases hm : addMissingFrames p (zeroFrame frameWordsBase) fuel (convertFrames [] frames) with
        | none => rfl
        | some m =>
          obtain ⟨i, hi⟩ := hex.1 ⟨fuel, m, hm⟩
          exact absurd hi (hbig p hp i)
      have he := encode_hangs db.tiles.part p hp kFasm kSource inv.date inv.time frames out fuel hnone
      obtain ⟨h1, h2, h3, path, h4, h5, h6, h7⟩ := h
      have hm : main env load ord inv out fuel = mainLoaded ord inv db out fuel := by
        unfold main
        rw [if_neg (by omega), (C61_setting _ _ _).2 h4]
        dsimp only
        rw [if_neg (by simp [h5, h6]), if_neg h2, h7]
      rw [hm]
      unfold mainLoaded
      rw [(inputText_iff inv text).2 h3]
      dsimp only
      rw [ha]
      dsimp only
      rw [ht, he]
      rfl
  · constructor
    · intro hall
      have := hall 0
      rw [hr] at this
      cases this
    · rintro ⟨hasm, _⟩
      exact absurd hasm hno

/-- In every other case it ends: from some number of steps on the result is always the same. -/
theorem C114_ends_walk (hsmall : ¬ (Assembles db.tiles text ∧ WalkEndless db.tiles.part)) :
    ∃ fuel0 r, ∀ fuel ≥ fuel0, main env load ord inv out fuel = some r := by
  obtain ⟨p, hp⟩ : ∃ p, Xc7.Part.fromPart db.tiles.part = .ok p := ⟨_, rfl⟩
  rcases main_ways env load hload ord hord inv out db text h with ⟨hasm, db', frames, ha, ht⟩ | ⟨hno, r, hr⟩
  · have hex := missing_ends_iff p (zeroFrame frameWordsBase) (convertFrames [] frames)
    obtain ⟨fuel0, o, ho⟩ := encode_ends db.tiles.part p hp kFasm kSource inv.date inv.time frames out (hex.2 (by
      apply Classical.byContradiction
      intro hi
      refine hsmall ⟨hasm, fun p' hp' i h => hi ⟨i, ?_⟩⟩
      rw [hp] at hp'
      cases hp'
      exact h))
    exact ⟨fuel0, _, fun fuel hf => main_started env load ord inv out fuel db text h db' frames ha o (by rw [ht]; exact ho fuel hf)⟩
  · exact ⟨0, r, fun fuel _ => hr fuel⟩

/-- **C114.**  Started with a part of the documented shape, the assembler never ends exactly when the design assembles and
the part has a column outside what a frame address can name. -/
theorem C114_hangs (hd : DocumentedShape db.tiles.part) :
    (∀ fuel, main env load ord inv out fuel = none) ↔ Assembles db.tiles text ∧ TooLarge db.tiles.part := by
  rw [C114_hangs_walk env load hload ord hord inv out db text h, C114_endless _ (starts_wellFormed hload h) hd]

/-- In every other case it ends. -/
theorem C114_ends (hd : DocumentedShape db.tiles.part) (hsmall : ¬ (Assembles db.tiles text ∧ TooLarge db.tiles.part)) :
    ∃ fuel0 r, ∀ fuel ≥ fuel0, main env load ord inv out fuel = some r := by
  rw [← C114_endless _ (starts_wellFormed hload h) hd] at hsmall
  exact C114_ends_walk env load hload ord hord inv out db text h hsmall

end

/-! ## Example: the database of `file_example` with a part of `n` equal rows -/

theorem rowsDesc_valid (n : Nat) (hn : n ≤ 2 ^ 31) : PartValid (rowsDesc n) := by
  refine ⟨by simp [rowsDesc], ?_⟩
  rintro half (rfl | rfl)
  · exact ⟨by simp [rowsDesc], by intro row hr; cases hr⟩
  · refine ⟨by simpa [rowsDesc] using hn, fun row hr => ?_⟩
    rw [List.eq_of_mem_replicate hr]
    decide

theorem rowsDesc_documented (n : Nat) (hn : n ≤ 2 ^ 31) : DocumentedShape (rowsDesc n) := by
  obtain ⟨h1, h2⟩ := rowsDesc_shape n (by omega)
  refine ⟨h2, fun b row bus col m h => ?_⟩
  obtain ⟨_, _, _, _, h5⟩ := (rowsDesc_count ..).1 h
  omega

theorem rowsDesc_large (n : Nat) : TooLarge (rowsDesc n) ↔ 32 < n := by
  constructor
  · rintro ⟨b, row, bus, col, m, h, hb⟩
    obtain ⟨_, h2, _, h4, _⟩ := (rowsDesc_count ..).1 h
    omega
  · intro h
    exact ⟨false, 32, .clbIoClk, 0, 36, (rowsDesc_count ..).2 ⟨rfl, h, rfl, rfl, rfl⟩, Or.inl (by decide)⟩

/-- The directory of `file_example` with another `part.json`. -/
def descEnv (d : Db.Part) : Env :=
  { fileEnv with
    json := fun c => if c = bytes!"G" then some (gridObj [(bytes!"T", fileT)]) else if c = bytes!"P" then some (partObj d) else none }

def descTiles (d : Db.Part) : Tiles :=
  { grid := [(bytes!"T", fileT)], bits := tilesDatabase (descEnv d) filePaths
    banks := Registry.create (fun l => l) d [], part := d }

theorem desc_info (d : Db.Part) : parsePartInfo (descEnv d) [bytes!"d"] bytes!"p" = .ok ⟨bytes!"d", bytes!"f", bytes!"k", bytes!"1"⟩ := by
  have : parsePartInfo fileEnv [bytes!"d"] bytes!"p" = .ok ⟨bytes!"d", bytes!"f", bytes!"k", bytes!"1"⟩ := by decide +kernel
  exact this

theorem desc_index (d : Db.Part) : indexTileTypes (descEnv d) [bytes!"d"] = .ok filePaths := by
  have : indexTileTypes fileEnv [bytes!"d"] = .ok filePaths := by decide +kernel
  exact this

/-- Reading a JSON file. -/
theorem jsonFile_of {α : Type} {env : Env} {f : Json → Outcome α} {p : Path} {c : Bytes × Option UInt8} {j : Json} {a : α}
    (h1 : env.read p = some c) (h2 : env.json c.1 = some j) (h3 : f j = .ok a) : parseJsonFile env f p = .ok a := by
  unfold parseJsonFile
  simp only [h1, h2, h3]

theorem desc_grid (d : Db.Part) : parseJsonFile (descEnv d) parseTileGrid ([bytes!"d"] ++ [bytes!"f", kTilegrid]) = .ok [(bytes!"T", fileT)] := by
  have h1 : fileEnv.read ([bytes!"d"] ++ [bytes!"f", kTilegrid]) = some (bytes!"G", none) := by decide +kernel
  exact jsonFile_of (env := descEnv d) (c := (bytes!"G", none)) (j := gridObj [(bytes!"T", fileT)]) h1 rfl file_grid

theorem desc_part (d : Db.Part) (hd : PartValid d) : parseJsonFile (descEnv d) parsePart ([bytes!"d"] ++ [bytes!"p", kPartJson]) = .ok d := by
  have h1 : fileEnv.read ([bytes!"d"] ++ [bytes!"p", kPartJson]) = some (bytes!"P", none) := by decide +kernel
  exact jsonFile_of (env := descEnv d) (c := (bytes!"P", none)) (j := partObj d) h1 rfl (C41_round_trip d hd)

theorem desc_pins (d : Db.Part) : parseFile (descEnv d) parsePackagePins ([bytes!"d"] ++ [bytes!"p", kPackagePins]) = .ok [] := rfl

theorem desc_database (d : Db.Part) (hd : PartValid d) : parseDatabase (descEnv d) sameLoad [bytes!"d"] bytes!"p" = .ok ⟨descTiles d, []⟩ := by
  have h1 := desc_info d
  have h2 := desc_index d
  have h3 := desc_grid d
  have h4 := desc_part d hd
  have h5 := desc_pins d
  unfold parseDatabase
  rw [h1, Outcome.bind_ok]
  dsimp only
  rw [h3, Outcome.bind_ok, h2, Outcome.bind_ok, h4, Outcome.bind_ok, h5, Outcome.bind_ok]
  rfl

theorem desc_starts (d : Db.Part) (hd : PartValid d) : Starts (descEnv d) sameLoad fileInv ⟨descTiles d, []⟩ bytes!"T.F\n" :=
  ⟨by decide, by decide, Or.inr ⟨fun _ _ h => by simp [fileInv] at h, rfl⟩, bytes!"d", Or.inr ⟨rfl, rfl⟩, by decide, by
    show fileEnv.fileExists [bytes!"d"] = true
    decide, desc_database d hd⟩

theorem desc_assembles (d : Db.Part) (hd : PartValid d)
    (h : (assembleFrames sameOrder bytes!"T.F\n" ⟨descTiles d, []⟩ [] >>= fun r => .ok (r.2.map (·.1))) = .ok (List.range 36)) :
    Assembles (descTiles d) bytes!"T.F\n" := by
  obtain ⟨r, hr, _⟩ := Outcome.bind_eq_ok.1 h
  exact (C50_succeeds (C45_loaded _ _ sameLoad_ok _ _ _ (desc_database d hd)).1 sameOrder sameOrder_permutes _ _ Reachable.fresh).1 ⟨r, hr⟩

/-- With 33 rows in `part.json` the program never ends on the design `T.F`; with 32 it does. -/
example : (∀ out fuel, main (descEnv (rowsDesc 33)) sameLoad sameOrder fileInv out fuel = none) ∧
    ∀ out, ∃ fuel0 r, ∀ fuel ≥ fuel0, main (descEnv (rowsDesc 32)) sameLoad sameOrder fileInv out fuel = some r := by
  refine ⟨fun out => ?_, fun out => ?_⟩
  · exact (C114_hangs (descEnv (rowsDesc 33)) sameLoad sameLoad_ok sameOrder sameOrder_permutes fileInv out _ _ (desc_starts _ (rowsDesc_valid 33 (by decide)))
      (rowsDesc_documented 33 (by decide))).2 ⟨desc_assembles _ (rowsDesc_valid 33 (by decide)) (by decide +kernel), (rowsDesc_large 33).2 (by decide)⟩
  · refine C114_ends (descEnv (rowsDesc 32)) sameLoad sameLoad_ok sameOrder sameOrder_permutes fileInv out _ _ (desc_starts _ (rowsDesc_valid 32 (by decide)))
      (rowsDesc_documented 32 (by decide)) ?_
    rintro ⟨_, h⟩
    have := (rowsDesc_large 32).1 h
    omega

end Verif.Props
