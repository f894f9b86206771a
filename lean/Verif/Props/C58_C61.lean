import Verif.Props.C50_C57
import Verif.Props.C41_C42
import Verif.Props.C35_C40
import Verif.Proofs.Narrow
/-! # C58, C60, C61: the program -/
namespace Verif.Props
open Verif.Db Verif.Spec Verif.Text Verif.Asm Verif.Xc7

/-! ## C61 -/

/-- The option wins over the environment variable; without either there is no value. -/
theorem C61_setting (flag env : Option Bytes) (v : Bytes) : getOptFlagOrFromEnv flag env = .ok v ↔ Setting flag env v := by
  unfold getOptFlagOrFromEnv Setting
  cases flag <;> cases env <;> simp

theorem C61_missing : getOptFlagOrFromEnv none none = .err := rfl

/-- Without either the program ends with status 1 and prints nothing, whatever else it is given. -/
theorem C61_program (env : Env) (load : LoadOrder) (ord : HashOrder) (inv : Invocation) (out : OStream)
    (fuel : Nat) (h1 : inv.dbFlag = none) (h2 : inv.dbEnv = none) : main env load ord inv out fuel = some (.ok (1, out)) := by
  unfold main
  rw [h1, h2]
  split <;> rfl

/-- The environment variable does not matter when the option is given. -/
theorem C61_option_wins (env : Env) (load : LoadOrder) (ord : HashOrder) (inv : Invocation) (out : OStream)
    (fuel : Nat) (v : Bytes) (h : inv.dbFlag = some v) (e : Option Bytes) :
    main env load ord { inv with dbEnv := e } out fuel = main env load ord inv out fuel := by
  unfold main
  dsimp only
  rw [h]
  rfl

/-! ## C58 -/

theorem inputText_iff (inv : Invocation) (text : Bytes) : inputText inv = some text ↔ Input inv text := by
  unfold inputText Input
  split
  · rename_i p f h
    by_cases hf : f = bytes!"-"
    · rw [if_pos hf]
      simp only [h, List.cons.injEq, and_true, Option.some.injEq]
      constructor
      · rintro rfl
        exact Or.inr ⟨fun _ _ e => e.2 ▸ hf, rfl⟩
      · rintro (⟨p', f', ⟨_, rfl⟩, hne, _⟩ | ⟨_, rfl⟩)
        · exact absurd hf hne
        · rfl
    · rw [if_neg hf]
      simp only [h, List.cons.injEq, and_true]
      constructor
      · intro ho
        exact Or.inl ⟨p, f, ⟨rfl, rfl⟩, hf, ho⟩
      · rintro (⟨p', f', ⟨_, rfl⟩, _, ho⟩ | ⟨ha, _⟩)
        · exact ho
        · exact absurd (ha p f ⟨rfl, rfl⟩) hf
  · rename_i h
    simp only [Option.some.injEq]
    constructor
    · rintro rfl
      exact Or.inr ⟨fun p f e => absurd e (h p f), rfl⟩
    · rintro (⟨p', f', e, _⟩ | ⟨_, rfl⟩)
      · exact absurd e (h p' f')
      · rfl

/-- The program ends with status 0 or 1.  With status 1 nothing was printed.  With status 0 every stage
succeeded and what was printed is what encoding printed.
Missing: "was printed" — failures of standard output are not noticed (`C58_defect`). -/
theorem C58_stages_partial (env : Env) (load : LoadOrder) (ord : HashOrder) (inv : Invocation) (out o : OStream)
    (fuel n : Nat) (h : main env load ord inv out fuel = some (.ok (n, o))) :
    (n = 1 ∧ o = out) ∨
    (n = 0 ∧ ∃ db text db' frames, Starts env load inv db text ∧ assembleFrames ord text db [] = .ok (db', frames) ∧
      encode db'.tiles.part kFasm kSource inv.date inv.time frames out fuel = some (.ok o)) := by
  unfold main at h
  by_cases hargs : inv.args.length > 2
  · rw [if_pos hargs] at h; cases h; exact Or.inl ⟨rfl, rfl⟩
  rw [if_neg hargs] at h
  cases hset : getOptFlagOrFromEnv inv.dbFlag inv.dbEnv with
  | ok path =>
    rw [hset] at h
    dsimp only at h
    by_cases hpath : path = [] ∨ env.fileExists [path] = false
    · rw [if_pos hpath] at h; cases h; exact Or.inl ⟨rfl, rfl⟩
    rw [if_neg hpath] at h
    by_cases hpart : inv.part = []
    · rw [if_pos hpart] at h; cases h; exact Or.inl ⟨rfl, rfl⟩
    rw [if_neg hpart] at h
    cases hdb : parseDatabase env load [path] inv.part with
    | err => rw [hdb] at h; cases h; exact Or.inl ⟨rfl, rfl⟩
    | abort => rw [hdb] at h; cases h
    | ub => rw [hdb] at h; cases h
    | ok db =>
      rw [hdb] at h
      dsimp only at h
      unfold mainLoaded at h
      cases htext : inputText inv with
      | none => rw [htext] at h; cases h; exact Or.inl ⟨rfl, rfl⟩
      | some text =>
        rw [htext] at h
        dsimp only at h
        cases ha : assembleFrames ord text db [] with
        | err => rw [ha] at h; cases h; exact Or.inl ⟨rfl, rfl⟩
        | abort => rw [ha] at h; cases h
        | ub => rw [ha] at h; cases h
        | ok r =>
          rw [ha] at h
          dsimp only at h
          cases he : encode r.1.tiles.part kFasm kSource inv.date inv.time r.2 out fuel with
          | none => rw [he] at h; cases h
          | some x =>
            rw [he] at h
            cases x with
            | err => cases h; exact Or.inl ⟨rfl, rfl⟩
            | abort => cases h
            | ub => cases h
            | ok o' =>
              cases h
              rw [not_or] at hpath
              exact Or.inr ⟨rfl, db, text, r.1, r.2, ⟨by omega, hpart, (inputText_iff _ _).1 htext, path,
                (C61_setting _ _ _).1 hset, hpath.1, by simpa using hpath.2, hdb⟩, ha, he⟩
  | err => rw [hset] at h; cases h; exact Or.inl ⟨rfl, rfl⟩
  | abort => rw [hset] at h; cases h; exact Or.inl ⟨rfl, rfl⟩
  | ub => rw [hset] at h; cases h; exact Or.inl ⟨rfl, rfl⟩

/-- What `main` does once it has started. -/
theorem main_started (env : Env) (load : LoadOrder) (ord : HashOrder) (inv : Invocation) (out : OStream)
    (fuel : Nat) (db : PartDatabase) (text : Bytes) (h : Starts env load inv db text) (db' : PartDatabase) (frames : Frames)
    (ha : assembleFrames ord text db [] = .ok (db', frames)) (o : OStream)
    (he : encode db'.tiles.part kFasm kSource inv.date inv.time frames out fuel = some (.ok o)) :
    main env load ord inv out fuel = some (.ok (0, o)) := by
  obtain ⟨h1, h2, h3, path, h4, h5, h6, h7⟩ := h
  unfold main
  rw [if_neg (by omega), (C61_setting _ _ _).2 h4]
  dsimp only
  rw [if_neg (by rw [not_or]; exact ⟨h5, by rw [h6]; simp⟩), if_neg h2, h7]
  dsimp only
  unfold mainLoaded
  rw [(inputText_iff _ _).2 h3]
  dsimp only
  rw [ha]
  dsimp only
  rw [he]
  rfl

/-- Conversely, when every stage succeeds the program ends with status 0 and prints the encoding. -/
theorem C58_success (env : Env) (load : LoadOrder) (ord : HashOrder) (inv : Invocation) (out o : OStream)
    (fuel : Nat) (db : PartDatabase) (text : Bytes) (h : Starts env load inv db text) (db' : PartDatabase) (frames : Frames)
    (ha : assembleFrames ord text db [] = .ok (db', frames))
    (he : encode db'.tiles.part kFasm kSource inv.date inv.time frames out fuel = some (.ok o)) :
    main env load ord inv out fuel = some (.ok (0, o)) := main_started env load ord inv out fuel db text h db' frames ha o he

theorem writeFile_failed (hdr : Bytes) (words : List Word) (out : OStream) (hf : out.failed = true) :
    (writeFile hdr words out).bytes = out.bytes := by
  have h1 : ∀ s : Bytes, out.write s = out := by intro s; unfold OStream.write; rw [hf]; rfl
  have h2 : ∀ bs : Bytes, bs.foldl (fun o b => o.write [b]) out = out := by
    intro bs
    induction bs with
    | nil => rfl
    | cons b bs ih => rw [List.foldl_cons, h1]; exact ih
  have h3 : ∀ ws : List Word, ws.foldl (fun o w => (bytesOfWord w).foldl (fun o b => o.write [b]) o) out = out := by
    intro ws
    induction ws with
    | nil => rfl
    | cons w ws ih => rw [List.foldl_cons, h2]; exact ih
  have h4 : ∀ p, out.seekp p = out := by intro p; unfold OStream.seekp; rw [hf]; rfl
  unfold writeFile
  dsimp only
  rw [h1, h3, h4, h2]

theorem encode_any (d : Db.Part) (pn src date time : Bytes) (frames : Frames) (out o : OStream) (fuel : Nat)
    (h : encode d pn src date time frames out fuel = some (.ok o)) : ∃ hdr words, ∀ out' : OStream,
      encode d pn src date time frames out' fuel = some (.ok (writeFile hdr words out')) := by
  unfold encode at h ⊢
  cases hp : Part.fromPart d with
  | ok p =>
    rw [hp] at h
    dsimp only at h ⊢
    cases hm : addMissingFrames p (zeroFrame frameWordsBase) fuel (convertFrames [] frames) with
    | none => rw [hm] at h; cases h
    | some m =>
      rw [hm] at h
      dsimp only at h ⊢
      unfold writeBitstream at h ⊢
      cases hw : writerWords .xc7 (configurationPackage (type2Payload p m) p.idcode) fuel with
      | none => rw [hw] at h; cases h
      | some x =>
        rw [hw] at h
        cases x with
        | ok ws => exact ⟨_, ws, fun _ => rfl⟩
        | err => cases h
        | abort => cases h
        | ub => cases h
  | err => rw [hp] at h; cases h
  | abort => rw [hp] at h; cases h
  | ub => rw [hp] at h; cases h

/-- Negation of the rest of C58: whenever the program succeeds, it also ends with status 0 when standard output
has failed (a full disk, a closed pipe), though then it printed nothing. -/
theorem C58_defect (env : Env) (load : LoadOrder) (ord : HashOrder) (inv : Invocation) (out o : OStream)
    (fuel : Nat) (h : main env load ord inv out fuel = some (.ok (0, o))) (bad : OStream) (hbad : bad.failed = true) :
    ∃ o', main env load ord inv bad fuel = some (.ok (0, o')) ∧ o'.bytes = bad.bytes := by
  rcases C58_stages_partial env load ord inv out o fuel 0 h with ⟨h, _⟩ | ⟨_, db, text, db', frames, hs, ha, he⟩
  · cases h
  · obtain ⟨hdr, words, he'⟩ := encode_any _ _ _ _ _ _ _ _ _ he
    exact ⟨_, C58_success env load ord inv bad _ fuel db text hs db' frames ha (he' bad), writeFile_failed _ _ _ hbad⟩

/-! ## C60 -/

theorem reached_valid (p : Xc7.Part) (hp : Fits p) (a : FrameAddress) (h : Reached p a) :
    a.toNat < 2 ^ 26 ∧ (a = 0#32 ∨ p.isValid a = true) := by
  induction h with
  | start => exact ⟨by decide, Or.inl rfl⟩
  | step _ hn ih =>
    obtain ⟨h1, _, h3⟩ := C04_next_sound p hp _ _ ih.1 hn
    exact ⟨h3, Or.inr h1⟩

/-- The same for every part whose coordinates fit the address fields, with or without holes: the frames read back are those
the walk from address 0 reaches, and a design has to touch only such frames; the base addresses of the tile grid, 64-bit
numbers, count modulo 2^32. -/
theorem C60_gaps (env : Env) (load : LoadOrder) (hload : LoadOk load) (ord : HashOrder) (hord : Permutes ord) (inv : Invocation)
    (db : PartDatabase) (text : Bytes) (hstart : Starts env load inv db text)
    (hasm : Assembles db.tiles text)
    (hd : DescFits db.tiles.part) (p : Xc7.Part) (hp : Part.fromPart db.tiles.part = .ok p)
    (hsmall : FitsPacket p) (hdate : ShortAscii inv.date) (htime : ShortAscii inv.time)
    (hin : ∀ k, TouchesFrame db.tiles (Design db.tiles text) k → ∃ a, Reached p a ∧ a.toNat = k % 2 ^ 32)
    (seek : Bool) :
    ∃ fuel0, ∀ fuel ≥ fuel0, ∃ o c,
      main env load ord inv ⟨[], 0, seek, false⟩ fuel = some (.ok (0, o)) ∧
      decodeFile p o.bytes fuel = some (.ok (some c)) ∧ c.part = p ∧
      (∀ k, (∃ ws, c.frames.get? k = some ws) ↔ ∃ a, Reached p a ∧ a.toNat = k) ∧
      (∀ k ws, c.frames.get? k = some ws → ws.length = 101) ∧
      ∀ k w b, (∃ ws x, c.frames.get? k = some ws ∧ ws[w]? = some x ∧ x.getLsbD b = true) ↔
        ∃ tile call, Lists db.tiles (Design db.tiles text) tile call ∧ call.value = true ∧
          call.frame = k ∧ call.word = w ∧ call.index = b := by
  obtain ⟨_, _, _, path, _, _, _, hparse⟩ := id hstart
  obtain ⟨hok, hfresh⟩ := C45_loaded env load hload _ _ db hparse
  obtain ⟨db', frames0, ha, hreach, hs0, hbits0, hframes0⟩ := assemble_ok hok ord hord text db hfresh hasm
  obtain ⟨hs, hbits, hframes⟩ := narrow_design hs0 hbits0 hframes0
  have hnarrow := encode_narrow db.tiles.part kFasm kSource inv.date inv.time frames0
  generalize convertFrames [] frames0 = frames at hs hbits hframes hnarrow
  replace hin : ∀ k, FramePresent frames k → ∃ a, Reached p a ∧ a.toNat = k := by
    intro k hk
    obtain ⟨k0, h0, rfl⟩ := (hframes k).1 hk
    exact hin k0 h0
  obtain ⟨m, hsm, hget, fuel0, henc⟩ := C18_bitstream_round_trip db.tiles.part hd p hp hsmall kFasm kSource inv.date inv.time seek
    (by
      intro s hs
      simp only [List.mem_cons, List.not_mem_nil, or_false] at hs
      rcases hs with rfl | rfl | rfl | rfl
      · unfold ShortAscii; decide
      · unfold ShortAscii; decide
      · exact hdate
      · exact htime)
    frames hs (fun k f hkf => hin k ⟨f, hkf⟩)
  refine ⟨fuel0, fun fuel hf => ?_⟩
  obtain ⟨o, h1, h2⟩ := henc fuel hf
  refine ⟨o, _, main_started env load ord inv _ fuel db text hstart db' frames0 ha o
    (by rw [(reachable_cache hreach).1, hnarrow]; exact h1), h2, rfl, ?_, ?_, ?_⟩
  · intro k
    show (∃ ws, (sameFrames m).get? k = some ws) ↔ _
    rw [sameFrames_get]
    constructor
    · rintro ⟨ws, h⟩
      obtain ⟨f, hf, _⟩ := Option.map_eq_some_iff.1 h
      rcases (hget k f).1 hf with h | ⟨_, _, a, ha, rfl⟩
      · exact hin k ⟨f, BMap.mem_of_get? h⟩
      · exact ⟨a, ha, rfl⟩
    · intro hr
      cases hfr : frames.get? k with
      | none => exact ⟨_, by rw [(hget k _).2 (Or.inr ⟨hfr, rfl, hr⟩)]; rfl⟩
      | some f => exact ⟨_, by rw [(hget k _).2 (Or.inl hfr)]; rfl⟩
  · intro k ws h
    rw [show (⟨p, sameFrames m⟩ : Configuration).frames.get? k = (sameFrames m).get? k from rfl, sameFrames_get] at h
    obtain ⟨f, _, rfl⟩ := Option.map_eq_some_iff.1 h
    rw [Vector.length_toList]; rfl
  · intro k w b
    rw [← hbits, bitSet_iff hs]
    show (∃ ws x, (sameFrames m).get? k = some ws ∧ _) ↔ _
    rw [sameFrames_get]
    constructor
    · rintro ⟨ws, x, h, hx, hb⟩
      obtain ⟨f, hf, rfl⟩ := Option.map_eq_some_iff.1 h
      rw [Vector.getElem?_toList] at hx
      rcases (hget k f).1 hf with h | ⟨_, rfl, _⟩
      · exact ⟨f, x, h, hx, hb⟩
      · have hx0 : x = 0#32 := by
          unfold zeroFrame at hx
          rw [Vector.getElem?_replicate] at hx
          split at hx
          · exact (Option.some.inj hx).symm
          · cases hx
        rw [hx0] at hb
        simp at hb
    · rintro ⟨f, x, h, hx, hb⟩
      refine ⟨f.toList, x, ?_, ?_, hb⟩
      · rw [(hget k f).2 (Or.inl h)]; rfl
      · rw [Vector.getElem?_toList]; exact hx

/-- Without holes the walk reaches address 0 and every frame of the part. -/
theorem reached_iff {p : Xc7.Part} (hfits : Fits p) (hdense : Dense p) (k : Nat) :
    (∃ a, Reached p a ∧ a.toNat = k) ↔ k = 0 ∨ (k < 2 ^ 26 ∧ p.isValid (BitVec.ofNat 32 k) = true) := by
  have hof : ∀ k, k < 2 ^ 26 → (BitVec.ofNat 32 k).toNat = k := fun k hk => by
    rw [BitVec.toNat_ofNat]; exact Nat.mod_eq_of_lt (by omega)
  constructor
  · rintro ⟨a, ha, rfl⟩
    obtain ⟨h3, rfl | h4⟩ := reached_valid p hfits a ha
    · exact Or.inl rfl
    · refine Or.inr ⟨h3, ?_⟩
      rw [BitVec.ofNat_toNat, BitVec.setWidth_eq]; exact h4
  · rintro (rfl | ⟨h3, h4⟩)
    · exact ⟨_, Reached.start, rfl⟩
    · exact ⟨_, reached_of_valid p hfits hdense _ (by rw [hof k h3]; exact h3) h4, hof k h3⟩

/-- End to end: for a part without holes, a design that assembles and touches only frames of the part, the
program exits with status 0 and prints a bitstream — to a file or a pipe — that reads back as the part's frames
with exactly the bits of the design set. -/
theorem C60_end_to_end (env : Env) (load : LoadOrder) (hload : LoadOk load) (ord : HashOrder) (hord : Permutes ord) (inv : Invocation)
    (db : PartDatabase) (text : Bytes) (hstart : Starts env load inv db text)
    (hasm : Assembles db.tiles text)
    (hd : DescDense db.tiles.part) (p : Xc7.Part) (hp : Part.fromPart db.tiles.part = .ok p)
    (hsmall : FitsPacket p) (hdate : ShortAscii inv.date) (htime : ShortAscii inv.time)
    (hin : ∀ k, TouchesFrame db.tiles (Design db.tiles text) k → k < 2 ^ 26 ∧ p.isValid (BitVec.ofNat 32 k) = true)
    (seek : Bool) :
    ∃ fuel0, ∀ fuel ≥ fuel0, ∃ o c,
      main env load ord inv ⟨[], 0, seek, false⟩ fuel = some (.ok (0, o)) ∧
      decodeFile p o.bytes fuel = some (.ok (some c)) ∧ c.part = p ∧
      (∀ k, (∃ ws, c.frames.get? k = some ws) ↔ k = 0 ∨ (k < 2 ^ 26 ∧ p.isValid (BitVec.ofNat 32 k) = true)) ∧
      (∀ k ws, c.frames.get? k = some ws → ws.length = 101) ∧
      ∀ k w b, (∃ ws x, c.frames.get? k = some ws ∧ ws[w]? = some x ∧ x.getLsbD b = true) ↔
        ∃ tile call, Lists db.tiles (Design db.tiles text) tile call ∧ call.value = true ∧
          call.frame = k ∧ call.word = w ∧ call.index = b := by
  have hfits := fits_fromPart _ hd.fits p hp
  have hdense := dense_fromPart _ hd p hp
  obtain ⟨fuel0, h⟩ := C60_gaps env load hload ord hord inv db text hstart hasm hd.fits p hp hsmall hdate htime
    (fun k hk => by
      rw [Nat.mod_eq_of_lt (show k < 2 ^ 32 from Nat.lt_trans (hin k hk).1 (by decide))]
      exact (reached_iff hfits hdense k).2 (Or.inr (hin k hk))) seek
  refine ⟨fuel0, fun fuel hf => ?_⟩
  obtain ⟨o, c, h1, h2, h3, h4, h5, h6⟩ := h fuel hf
  exact ⟨o, c, h1, h2, h3, fun k => (h4 k).trans (reached_iff hfits hdense k), h5, h6⟩

/-! ## Example

A database directory `d` with part `p`, fabric `f`, the small device, a tile `T` of type `X` in its first column
and the feature `X.F`; the design `T.F` on standard input. -/

def fileT : Db.Tile :=
  { type := bytes!"X", x := 0, y := 0, clockRegion := none
    bits := [(.clbIoClk, { alias? := none, baseAddress := 0, frames := 36, offset := 2, words := 2 })]
    pinFunctions := [], sites := [], prohibitedSites := [] }

def fileEnv : Env :=
  { fileExists := fun p => p == [bytes!"d"] || p == [bytes!"d", bytes!"f", segbitsFile bytes!"x"]
    read := fun p =>
      if p = [bytes!"d", kMapping, kPartsYaml] then some
        (bytes!"p:\n device: d\n package: k\n speedgrade: '1'\n", none)
      else if p = [bytes!"d", kMapping, kDevicesYaml] then some
        (bytes!"\"d\":\n fabric: 'f'", none)
      else if p = [bytes!"d", bytes!"f", kTilegrid] then some (bytes!"G", none)
      else if p = [bytes!"d", bytes!"p", kPartJson] then some (bytes!"P", none)
      else if p = [bytes!"d", bytes!"p", kPackagePins] then some ([], none)
      -- X.F 03_33
      else if p = [bytes!"d", bytes!"f", segbitsFile bytes!"x"] then some
        (bytes!"X.F 03_33\n", none)
      else none
    listing := fun _ => some [([bytes!"d", bytes!"f", tileTypeFile bytes!"X"], true)]
    json := fun c => if c = bytes!"G" then some (gridObj [(bytes!"T", fileT)]) else if c = bytes!"P" then some (partObj smallDesc) else none
    junk := fun _ => 0 }

def fileInv : Invocation :=
  { args := [bytes!"a"], dbFlag := none, dbEnv := some bytes!"d", part := bytes!"p", openFile := fun _ => none
    stdin := bytes!"T.F\n", date := bytes!"20", time := bytes!"12" }

def filePaths : List (Bytes × DbPaths) := [(bytes!"X", ⟨some [bytes!"d", bytes!"f", segbitsFile bytes!"x"], none, none⟩)]

def fileTiles : Tiles :=
  { grid := [(bytes!"T", fileT)], bits := tilesDatabase fileEnv filePaths
    banks := Registry.create (fun l => l) smallDesc [], part := smallDesc }

theorem file_grid : parseTileGrid (gridObj [(bytes!"T", fileT)]) = .ok [(bytes!"T", fileT)] := by
  refine C42_round_trip _ ⟨by decide, ?_⟩
  intro e he
  rw [List.mem_singleton.1 he]
  refine ⟨by decide, by decide, ⟨by decide, ?_⟩, by decide, by decide, by decide⟩
  intro b hb
  simp only [fileT, List.mem_cons, List.not_mem_nil, or_false] at hb
  subst hb
  refine ⟨by decide, by decide, by decide, by decide, ?_⟩
  intro a ha; cases ha

theorem file_part : parsePart (partObj smallDesc) = .ok smallDesc := by
  refine C41_round_trip _ ⟨by decide, ?_⟩
  rintro half (rfl | rfl) <;> decide

def sameLoad : LoadOrder := ⟨fun l => l, fun g => g, fun p => p⟩

theorem sameLoad_ok : LoadOk sameLoad :=
  ⟨fun _ => List.Perm.refl _, fun g => reordered_refl tileReordered_refl g, partReordered_refl⟩

theorem file_database : parseDatabase fileEnv sameLoad [bytes!"d"] bytes!"p" = .ok ⟨fileTiles, []⟩ := by
  have h1 : parsePartInfo fileEnv [bytes!"d"] bytes!"p" = .ok ⟨bytes!"d", bytes!"f", bytes!"k", bytes!"1"⟩ := by decide +kernel
  have h2 : indexTileTypes fileEnv [bytes!"d"] = .ok filePaths := by decide +kernel
  have h3 : parseJsonFile fileEnv parseTileGrid ([bytes!"d"] ++ [bytes!"f", kTilegrid]) = .ok [(bytes!"T", fileT)] := file_grid
  have h4 : parseJsonFile fileEnv parsePart ([bytes!"d"] ++ [bytes!"p", kPartJson]) = .ok smallDesc := file_part
  have h5 : parseFile fileEnv parsePackagePins ([bytes!"d"] ++ [bytes!"p", kPackagePins]) = .ok [] := rfl
  unfold parseDatabase
  rw [h1, Outcome.bind_ok]
  dsimp only
  rw [h3, Outcome.bind_ok, h2, Outcome.bind_ok, h4, Outcome.bind_ok, h5, Outcome.bind_ok]
  rfl

theorem file_starts : Starts fileEnv sameLoad fileInv ⟨fileTiles, []⟩ bytes!"T.F\n" :=
  ⟨by decide, by decide, Or.inr ⟨fun _ _ h => by simp [fileInv] at h, rfl⟩, bytes!"d", Or.inr ⟨rfl, rfl⟩, by decide, by decide,
    file_database⟩

theorem fileTiles_ok : TilesOk fileTiles := (C45_loaded _ _ sameLoad_ok _ _ _ file_database).1

theorem fileTiles_aliases : AliasesOk fileTiles := by
  intro name t h
  have hm := mem_of_lookup h
  simp only [fileTiles, List.mem_cons, List.not_mem_nil, or_false, Prod.mk.injEq] at hm
  obtain ⟨_, rfl⟩ := hm
  intro e he e' he' a a' ha ha'
  simp only [fileT, List.mem_singleton] at he
  subst he
  cases ha

theorem fileTiles_pudc : PudcOk fileTiles.grid := by
  intro tile pin h
  rw [← firstPin_iff] at h
  have : firstPin fileTiles.grid = none := by decide
  rw [this] at h
  cases h

theorem file_frames : (assembleFrames sameOrder bytes!"T.F\n" ⟨fileTiles, []⟩ [] >>= fun r => .ok (r.2.map (·.1))) =
    .ok (List.range 36) := by decide +kernel

theorem file_valid : ∀ k, k < 36 → (Xc7.Part.mk smallDesc.idcode (regionFrom 0 [] smallDesc.topRows)
    (regionFrom 0 [] smallDesc.bottomRows)).isValid (BitVec.ofNat 32 k) = true := by decide +kernel

/-- All hypotheses of `C60_end_to_end` hold for the example. -/
theorem file_example : ∃ p, Part.fromPart smallDesc = .ok p ∧ ∃ fuel0, ∀ fuel ≥ fuel0, ∃ o c,
    main fileEnv sameLoad sameOrder fileInv ⟨[], 0, true, false⟩ fuel = some (.ok (0, o)) ∧
    decodeFile p o.bytes fuel = some (.ok (some c)) ∧
    ∀ k w b, (∃ ws x, c.frames.get? k = some ws ∧ ws[w]? = some x ∧ x.getLsbD b = true) ↔
      ∃ tile call, Lists fileTiles (Design fileTiles bytes!"T.F\n") tile call ∧ call.value = true ∧
        call.frame = k ∧ call.word = w ∧ call.index = b := by
  refine ⟨_, rfl, ?_⟩
  obtain ⟨keys, hk⟩ : ∃ l, l = assembleFrames sameOrder bytes!"T.F\n" ⟨fileTiles, []⟩ [] := ⟨_, rfl⟩
  have hfr := file_frames
  rw [← hk] at hfr
  obtain ⟨r, hr, he⟩ := Outcome.bind_eq_ok.1 hfr
  have he := Outcome.ok.inj he
  rw [hr] at hk
  have hasm : Assembles fileTiles bytes!"T.F\n" :=
    (C50_succeeds fileTiles_ok sameOrder sameOrder_permutes _ _ Reachable.fresh).1 ⟨r, hk.symm⟩
  have hframes := C50_frames fileTiles_ok sameOrder sameOrder_permutes _ _ Reachable.fresh
    r.1 r.2 hk.symm
  obtain ⟨fuel0, h⟩ := C60_end_to_end fileEnv sameLoad sameLoad_ok sameOrder sameOrder_permutes fileInv ⟨fileTiles, []⟩ _ file_starts
    hasm smallDesc_dense _ rfl smallDesc_packet (by unfold ShortAscii; decide) (by unfold ShortAscii; decide)
    (by
      intro k hk
      obtain ⟨f, hf⟩ := (hframes.2.2 k).2 hk
      have hmem : k ∈ r.2.map (·.1) := List.mem_map.2 ⟨_, hf, rfl⟩
      rw [he, List.mem_range] at hmem
      refine ⟨by omega, ?_⟩
      exact file_valid k hmem)
    true
  refine ⟨fuel0, fun fuel hf => ?_⟩
  obtain ⟨o, c, h1, h2, _, _, _, h3⟩ := h fuel hf
  exact ⟨o, c, h1, h2, h3⟩

/-- Status 1 and nothing printed: two arguments; no part; an unknown database path. -/
example : main fileEnv sameLoad sameOrder { fileInv with args := [bytes!"a", bytes!"b", bytes!"c"] } ⟨[], 0, true, false⟩ 5 =
    some (.ok (1, ⟨[], 0, true, false⟩)) := rfl
example : main fileEnv sameLoad sameOrder { fileInv with part := [] } ⟨[], 0, true, false⟩ 5 =
    some (.ok (1, ⟨[], 0, true, false⟩)) := rfl
example : main fileEnv sameLoad sameOrder { fileInv with dbFlag := some bytes!"e" } ⟨[], 0, true, false⟩ 5 =
    some (.ok (1, ⟨[], 0, true, false⟩)) := rfl

end Verif.Props
