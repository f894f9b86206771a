import Verif.Props.C109
import Verif.Props.Loaded
import Verif.Proofs.Narrow
/-! # C115: base addresses count modulo 2^32 -/
namespace Verif.Props
open Verif.Db Verif.Spec Verif.Text Verif.Asm Verif.Xc7

/-- Encoding sees the lower half of an address only; of several frames that share it, the one with the smallest address. -/
theorem C115_encode (d : Db.Part) (partName source date time : Bytes) (frames low : BMap (FrameWords 101)) (hs : frames.Sorted)
    (hl : low.Sorted) (hlow : ∀ j f, (j, f) ∈ low ↔
      ∃ k, (k, f) ∈ frames ∧ k % 2 ^ 32 = j ∧ ∀ k' f', (k', f') ∈ frames → k' % 2 ^ 32 = j → k ≤ k') (out : OStream) (fuel : Nat) :
    encode d partName source date time frames out fuel = encode d partName source date time low out fuel := by
  have hsn := narrow_sorted frames [] List.Pairwise.nil
  have e : convertFrames [] frames = low := by
    refine BMap.sorted_ext hsn hl fun j => ?_
    refine Option.ext fun f => ?_
    rw [narrow_get frames [] List.Pairwise.nil j, BMap.get?_nil, Option.none_or, Option.map_eq_some_iff]
    have h1 : low.get? j = some f ↔ (j, f) ∈ low := ⟨BMap.mem_of_get?, BMap.get?_of_mem hl⟩
    rw [h1, hlow]
    constructor
    · rintro ⟨x, hx, rfl⟩
      have hx1 := List.find?_some hx
      exact ⟨x.1, List.mem_of_find?_eq_some hx, eq_of_beq hx1, fun k' f' hk hj => find_first frames _ x hs hx (k', f') hk (beq_iff_eq.2 hj)⟩
    · rintro ⟨k, hk, hj, hmin⟩
      cases hfd : frames.find? fun x => x.1 % 2 ^ 32 == j with
      | none => exact absurd (beq_iff_eq.2 hj) (by simpa using List.find?_eq_none.1 hfd (k, f) hk)
      | some x =>
        refine ⟨x, rfl, ?_⟩
        have hx1 := List.find?_some hfd
        have hle := find_first frames _ x hs hfd (k, f) hk (beq_iff_eq.2 hj)
        have hge := hmin x.1 x.2 (List.mem_of_find?_eq_some hfd) (eq_of_beq hx1)
        have hxk : x.1 = k := Nat.le_antisymm hle hge
        have hin : (k, x.2) ∈ frames := by rw [← hxk]; exact List.mem_of_find?_eq_some hfd
        exact Option.some.inj ((BMap.get?_of_mem hs hin).symm.trans (BMap.get?_of_mem hs hk))
  have h := encode_narrow d partName source date time frames out fuel
  exact h.trans (congrArg (fun fr => encode d partName source date time fr out fuel) e)

/-- A frame of the higher address is lost: two frames 2^32 apart are not both written. -/
theorem C115_collision (d : Db.Part) (partName source date time : Bytes) (k : Nat) (f g : FrameWords 101) (hk : k < 2 ^ 32)
    (out : OStream) (fuel : Nat) :
    encode d partName source date time [(k, f), (k + 2 ^ 32, g)] out fuel = encode d partName source date time [(k, f)] out fuel := by
  refine C115_encode d partName source date time _ _ ?_ ?_ ?_ out fuel
  · refine List.pairwise_cons.2 ⟨?_, List.pairwise_cons.2 ⟨(fun _ h => by cases h), List.Pairwise.nil⟩⟩
    intro x hx
    rw [List.mem_singleton.1 hx]
    show k < k + 2 ^ 32
    omega
  · exact List.pairwise_cons.2 ⟨(fun _ h => by cases h), List.Pairwise.nil⟩
  · intro j f'
    have hm0 : (j, f') ∈ ([(k, f)] : BMap (FrameWords 101)) ↔ j = k ∧ f' = f := by
      show (j, f') ∈ ([(k, f)] : List (Nat × FrameWords 101)) ↔ _
      simp
    refine hm0.trans ?_
    have hm : ∀ k' f'', (k', f'') ∈ ([(k, f), (k + 2 ^ 32, g)] : List (Nat × FrameWords 101)) ↔ (k' = k ∧ f'' = f) ∨ (k' = k + 2 ^ 32 ∧ f'' = g) := by
      intro k' f''; simp
    have hm' : ∀ k' f'', (k', f'') ∈ ([(k, f), (k + 2 ^ 32, g)] : BMap (FrameWords 101)) ↔ (k' = k ∧ f'' = f) ∨ (k' = k + 2 ^ 32 ∧ f'' = g) := hm
    constructor
    · rintro ⟨rfl, rfl⟩
      refine ⟨j, (hm' _ _).2 (Or.inl ⟨rfl, rfl⟩), Nat.mod_eq_of_lt hk, ?_⟩
      intro k' f'' h _
      rcases (hm' _ _).1 h with ⟨rfl, _⟩ | ⟨rfl, _⟩ <;> omega
    · rintro ⟨k', h, hj, hmin⟩
      rcases (hm' _ _).1 h with ⟨rfl, rfl⟩ | ⟨rfl, rfl⟩
      · exact ⟨by omega, rfl⟩
      · have := hmin k f ((hm' _ _).2 (Or.inl ⟨rfl, rfl⟩)) (by omega)
        omega

/-! ## Databases -/

theorem lowBits_alias {l l' : List (ConfigBusType × BitsBlock)}
    (h : l'.map (fun e => (e.1, lowBlock e.2)) = l.map (fun e => (e.1, lowBlock e.2))) {P : Option BitsBlockAlias → Prop}
    (hp : ∀ e ∈ l, P e.2.alias?) : ∀ e ∈ l', P e.2.alias? := by
  intro e he
  have : (e.1, lowBlock e.2) ∈ l.map (fun e => (e.1, lowBlock e.2)) := by
    rw [← h]; exact List.mem_map.2 ⟨e, he, rfl⟩
  obtain ⟨x, hx, hxe⟩ := List.mem_map.1 this
  have h2 := congrArg (fun y : ConfigBusType × BitsBlock => y.2.alias?) hxe
  have h3 : x.2.alias? = e.2.alias? := h2
  rw [← h3]
  exact hp x hx

theorem knownAs_low {t t' : Db.Tile} (hty : t'.type = t.type)
    (h : t'.bits.map (fun e => (e.1, lowBlock e.2)) = t.bits.map (fun e => (e.1, lowBlock e.2))) {feature ty f : Bytes}
    (hk : KnownAs t feature ty f) : KnownAs t' feature ty f := by
  rcases hk with ⟨h1, h2, h3⟩ | ⟨pre, bus, block, a, post, h1, h2, h3, h4, h5⟩
  · exact Or.inl ⟨lowBits_alias h (P := fun x => x = none) h1, by rw [h2, hty], h3⟩
  · rw [h1, List.map_append, List.map_cons] at h
    obtain ⟨pre', rest, e1, _, e2⟩ := List.map_eq_append_iff.1 h
    obtain ⟨x, post', e3, e4, e5⟩ := List.map_eq_cons_iff.1 e2
    refine Or.inr ⟨pre', x.1, x.2, a, post', by rw [e1, e3], ?_, lowBits_alias e5 (P := fun x => x = none) h3, h4, h5⟩
    have h6 := congrArg (fun y : ConfigBusType × BitsBlock => y.2.alias?) e4
    have h7 : x.2.alias? = block.alias? := h6
    rw [h7, h2]

theorem tileBits_low (t : Db.Tile) (sb : SegBits) (key : TileFeature) :
    tileBits t sb key = tileBits { t with bits := t.bits.map fun e => (e.1, lowBlock e.2) } sb key := by
  unfold tileBits
  dsimp only
  rw [List.flatMap_map]
  refine congrArg (fun g => t.bits.flatMap g) (funext fun e => ?_)
  have h1 : ∀ s, bitFrame (lowBlock e.2) s = bitFrame e.2 s := fun s => Nat.mod_add_mod _ _ _
  have h2 : ∀ s, bitPos (lowBlock e.2) s = bitPos e.2 s := fun _ => rfl
  simp only [h1, h2]

theorem tileBits_rebased {t t' : Db.Tile} (h : t'.bits.map (fun e => (e.1, lowBlock e.2)) = t.bits.map (fun e => (e.1, lowBlock e.2)))
    (sb : SegBits) (key : TileFeature) : tileBits t' sb key = tileBits t sb key := by
  rw [tileBits_low t', tileBits_low t, h]
  rfl

theorem listed_rebased {t t' : Db.Tile} (h : t'.bits.map (fun e => (e.1, lowBlock e.2)) = t.bits.map (fun e => (e.1, lowBlock e.2)))
    {sb : SegBits} {key : TileFeature} (hl : ∃ e ∈ t.bits, (listed sb key e.1).isSome) : ∃ e ∈ t'.bits, (listed sb key e.1).isSome := by
  obtain ⟨e, he, hs⟩ := hl
  have : (e.1, lowBlock e.2) ∈ t'.bits.map (fun e => (e.1, lowBlock e.2)) := by
    rw [h]; exact List.mem_map.2 ⟨e, he, rfl⟩
  obtain ⟨x, hx, hxe⟩ := List.mem_map.1 this
  refine ⟨x, hx, ?_⟩
  have h2 : x.1 = e.1 := (Prod.mk.inj hxe).1
  rw [h2]; exact hs

theorem _root_.Verif.Spec.Rebased.symm {tiles tiles' : Tiles} (h : Rebased tiles tiles') : Rebased tiles' tiles :=
  ⟨fun name => (h.grid name).symm, fun tile pin => (h.pudc tile pin).symm, h.bits.symm, h.banks.symm, h.part.symm⟩

theorem rebased_tile {tiles tiles' : Tiles} (h : Rebased tiles tiles') {name : Bytes} {t : Db.Tile} (ht : tiles.grid.lookup name = some t) :
    ∃ t', tiles'.grid.lookup name = some t' ∧ t'.type = t.type ∧ t'.sites = t.sites ∧
      t'.bits.map (fun e => (e.1, lowBlock e.2)) = t.bits.map (fun e => (e.1, lowBlock e.2)) := by
  obtain ⟨t', h1, h2⟩ := map_some_transfer (h.grid name) ht
  exact ⟨t', h1, congrArg Prod.fst h2, congrArg (fun x => x.2.1) h2, congrArg (fun x => x.2.2) h2⟩

theorem featureBits_rebased {tiles tiles' : Tiles} (h : Rebased tiles tiles') {tile feature : Bytes} {addr : Nat} {bits : List BitCall}
    (hb : FeatureBits tiles tile feature addr bits) : FeatureBits tiles' tile feature addr bits := by
  obtain ⟨t, ty, f, sb, h1, h2, h3, h4⟩ := hb
  obtain ⟨t', e1, e2, _, e4⟩ := rebased_tile h h1
  refine ⟨t', ty, f, sb, e1, knownAs_low e2 e4 h2, by rw [h.bits]; exact h3, ?_⟩
  rcases h4 with h4 | ⟨h4, h5, h6⟩
  · exact Or.inl h4
  · exact Or.inr ⟨h4, listed_rebased e4 h5, by rw [tileBits_rebased e4, h6]⟩

theorem rebased_agree {tiles tiles' : Tiles} (h : Rebased tiles tiles') (text : Bytes) : AgreeBits tiles tiles' text := by
  refine ⟨h.pudc, fun tile feature addr _ bits => ⟨featureBits_rebased h.symm, featureBits_rebased h⟩,
    fun _ _ _ _ _ _ _ => by rw [h.banks], fun _ _ _ => by rw [h.banks], fun tile _ _ => ?_⟩
  have := congrArg (Option.map fun x : Bytes × _ × _ => x.2.1) (h.grid tile)
  simpa only [Option.map_map, Function.comp_def] using this

theorem touches_rebased {tiles tiles' : Tiles} (h : Rebased tiles tiles') (text : Bytes) (j : Nat)
    (hj : ∃ k, TouchesFrame tiles (Design tiles text) k ∧ k % 2 ^ 32 = j) :
    ∃ k, TouchesFrame tiles' (Design tiles' text) k ∧ k % 2 ^ 32 = j := by
  obtain ⟨k, ⟨tile, c, hc, hk⟩, hj⟩ := hj
  have hc' := (lists_agree (rebased_agree h text) tile c).2 hc
  rcases hk with hk | ⟨t, block, i, h1, h2, h3, rfl⟩
  · exact ⟨k, ⟨tile, c, hc', Or.inl hk⟩, hj⟩
  · obtain ⟨t', e1, _, _, e4⟩ := rebased_tile h h1
    have : (c.bus, lowBlock block) ∈ t'.bits.map (fun e => (e.1, lowBlock e.2)) := by
      rw [e4]; exact List.mem_map.2 ⟨_, h2, rfl⟩
    obtain ⟨x, hx, hxe⟩ := List.mem_map.1 this
    have hbus : x.1 = c.bus := congrArg Prod.fst hxe
    have hblk : lowBlock x.2 = lowBlock block := congrArg Prod.snd hxe
    have hfr : (lowBlock x.2).frames = (lowBlock block).frames := by rw [hblk]
    replace hfr : x.2.frames = block.frames := hfr
    have hba : (lowBlock x.2).baseAddress = (lowBlock block).baseAddress := by rw [hblk]
    replace hba : x.2.baseAddress % 2 ^ 32 = block.baseAddress % 2 ^ 32 := hba
    refine ⟨(x.2.baseAddress + i) % 2 ^ 64, ⟨tile, c, hc', Or.inr ⟨t', x.2, i, e1, by rw [← hbus]; exact hx, by rw [hfr]; exact h3, rfl⟩⟩, ?_⟩
    omega

/-- The narrowed frames are the same. -/
theorem frames_rebased {tiles tiles' : Tiles} (h : Rebased tiles tiles') (text : Bytes) (fr fr' : Frames)
    (hf : FramesOf tiles (Design tiles text) fr) (hf' : FramesOf tiles' (Design tiles' text) fr') :
    convertFrames [] fr = convertFrames [] fr' := by
  obtain ⟨s1, b1, p1⟩ := narrow_design hf.1 hf.2.1 hf.2.2
  obtain ⟨s2, b2, p2⟩ := narrow_design hf'.1 hf'.2.1 hf'.2.2
  refine BMap.sorted_ext s1 s2 fun k => ?_
  have e : FramePresent (convertFrames [] fr) k ↔ FramePresent (convertFrames [] fr') k := by
    rw [p1, p2]
    exact ⟨touches_rebased h text k, touches_rebased h.symm text k⟩
  have e2 : ∀ w b, BitSet (convertFrames [] fr) k w b ↔ BitSet (convertFrames [] fr') k w b := by
    intro w b
    rw [b1, b2]
    simp only [lists_agree (rebased_agree h text)]
  exact frame_ext s1 s2 k e e2

section Program
variable (env env' : Env) (load load' : LoadOrder) (hload : LoadOk load) (hload' : LoadOk load') (ord ord' : HashOrder)
  (hord : Permutes ord) (hord' : Permutes ord') (inv inv' : Invocation) (db db' : PartDatabase) (text : Bytes)
  (hstart : Starts env load inv db text) (hstart' : Starts env' load' inv' db' text) (hdate : inv'.date = inv.date) (htime : inv'.time = inv.time)
  (hr : Rebased db.tiles db'.tiles) (out o : OStream) (fuel : Nat)
include hload hload' hord hord' hstart hstart' hdate htime hr

theorem rebased_program (h : main env load ord inv out fuel = some (.ok (0, o))) : main env' load' ord' inv' out fuel = some (.ok (0, o)) := by
  obtain ⟨_, _, hinp, path, _, _, _, hparse⟩ := id hstart
  obtain ⟨_, _, hinp', path', _, _, _, hparse'⟩ := id hstart'
  obtain ⟨hok, hfresh⟩ := C45_loaded env load hload _ _ db hparse
  obtain ⟨hok', hfresh'⟩ := C45_loaded env' load' hload' _ _ db' hparse'
  rcases C58_stages_partial env load ord inv out o fuel 0 h with ⟨h0, _⟩ | ⟨_, db1, text1, d1, fr1, s1, s2, s3⟩
  · cases h0
  · obtain ⟨rfl, rfl⟩ := starts_unique s1 hstart
    have hasm := assemble_inv hok ord hord text1 db1 hfresh _ s2
    obtain ⟨d2, fr2, h2, hr2, _⟩ := assemble_ok hok ord hord text1 db1 hfresh hasm
    rw [s2] at h2
    cases h2
    have hasm' := (assembles_agree (rebased_agree hr text1)).2 hasm
    obtain ⟨d', fr', h', hr', hs', hb', hf'⟩ := assemble_ok hok' ord' hord' text1 db' hfresh' hasm'
    have e := frames_rebased hr text1 fr1 fr' (C50_frames hok ord hord text1 db1 hfresh _ _ s2)
      (C50_frames hok' ord' hord' text1 db' hfresh' _ _ h')
    refine C58_success env' load' ord' inv' out o fuel db' text1 hstart' d' fr' h' ?_
    rw [(reachable_cache hr').1, hr.part, hdate, htime, encode_narrow, ← e, ← encode_narrow, ← (reachable_cache hr2).1]
    exact s3

end Program

/-- Two databases whose base addresses agree modulo 2^32: a run with one ends with status 0 exactly if the run with the other does, and then
prints the same. -/
theorem C115_program (env env' : Env) (load load' : LoadOrder) (hload : LoadOk load) (hload' : LoadOk load') (ord ord' : HashOrder)
    (hord : Permutes ord) (hord' : Permutes ord') (inv inv' : Invocation) (db db' : PartDatabase) (text : Bytes)
    (hstart : Starts env load inv db text) (hstart' : Starts env' load' inv' db' text) (hdate : inv'.date = inv.date) (htime : inv'.time = inv.time)
    (hr : Rebased db.tiles db'.tiles) (out o : OStream) (fuel : Nat) :
    main env load ord inv out fuel = some (.ok (0, o)) ↔ main env' load' ord' inv' out fuel = some (.ok (0, o)) :=
  ⟨rebased_program env env' load load' hload hload' ord ord' hord hord' inv inv' db db' text hstart hstart' hdate htime hr out o fuel,
    rebased_program env' env load' load hload' hload ord' ord hord' hord inv' inv db' db text hstart' hstart hdate.symm htime.symm hr.symm out o fuel⟩

/-! ## Example: a base address of 2^32 -/

def highT : Db.Tile :=
  { fileT with bits := [(.clbIoClk, { alias? := none, baseAddress := 2 ^ 32, frames := 36, offset := 2, words := 2 })] }

def highEnv : Env :=
  { fileEnv with
    json := fun c => if c = bytes!"G" then some (gridObj [(bytes!"T", highT)]) else if c = bytes!"P" then some (partObj smallDesc) else none }

def highTiles : Tiles :=
  { grid := [(bytes!"T", highT)], bits := tilesDatabase highEnv filePaths
    banks := Registry.create (fun l => l) smallDesc [], part := smallDesc }

theorem high_grid : parseTileGrid (gridObj [(bytes!"T", highT)]) = .ok [(bytes!"T", highT)] := by
  refine C42_round_trip _ ⟨by decide, ?_⟩
  intro e he
  rw [List.mem_singleton.1 he]
  refine ⟨by decide, by decide, ⟨by decide, ?_⟩, by decide, by decide, by decide⟩
  intro b hb
  simp only [highT, List.mem_cons, List.not_mem_nil, or_false] at hb
  subst hb
  refine ⟨by decide, by decide, by decide, by decide, ?_⟩
  intro a ha; cases ha

theorem high_rebased : Rebased fileTiles highTiles := by
  refine ⟨fun name => ?_, fun tile pin => ?_, rfl, rfl, rfl⟩
  · by_cases hn : name = bytes!"T"
    · subst hn; rfl
    · have h1 : highTiles.grid.lookup name = none := by
        simp only [highTiles, List.lookup_cons, List.lookup_nil]
        rw [show (name == bytes!"T") = false from beq_eq_false_iff_ne.2 hn]
      have h2 : fileTiles.grid.lookup name = none := by
        simp only [fileTiles, List.lookup_cons, List.lookup_nil]
        rw [show (name == bytes!"T") = false from beq_eq_false_iff_ne.2 hn]
      rw [h1, h2]
  · rw [← firstPin_iff, ← firstPin_iff]
    have e1 : firstPin highTiles.grid = none := by decide
    have e2 : firstPin fileTiles.grid = none := by decide
    rw [e1, e2]

theorem high_database : parseDatabase highEnv sameLoad [bytes!"d"] bytes!"p" = .ok ⟨highTiles, []⟩ := by
  have h1 : parsePartInfo highEnv [bytes!"d"] bytes!"p" = .ok ⟨bytes!"d", bytes!"f", bytes!"k", bytes!"1"⟩ := by decide +kernel
  have h2 : indexTileTypes highEnv [bytes!"d"] = .ok filePaths := by decide +kernel
  have r1 : highEnv.read ([bytes!"d"] ++ [bytes!"f", kTilegrid]) = some (bytes!"G", none) := by decide +kernel
  have r2 : highEnv.read ([bytes!"d"] ++ [bytes!"p", kPartJson]) = some (bytes!"P", none) := by decide +kernel
  have h3 : parseJsonFile highEnv parseTileGrid ([bytes!"d"] ++ [bytes!"f", kTilegrid]) = .ok [(bytes!"T", highT)] :=
    jsonFile_of (c := (bytes!"G", none)) (j := gridObj [(bytes!"T", highT)]) r1 rfl high_grid
  have h4 : parseJsonFile highEnv parsePart ([bytes!"d"] ++ [bytes!"p", kPartJson]) = .ok smallDesc :=
    jsonFile_of (c := (bytes!"P", none)) (j := partObj smallDesc) r2 rfl file_part
  have h5 : parseFile highEnv parsePackagePins ([bytes!"d"] ++ [bytes!"p", kPackagePins]) = .ok [] := rfl
  unfold parseDatabase
  rw [h1, Outcome.bind_ok]
  dsimp only
  rw [h3, Outcome.bind_ok, h2, Outcome.bind_ok, h4, Outcome.bind_ok, h5, Outcome.bind_ok]
  rfl

theorem high_starts : Starts highEnv sameLoad fileInv ⟨highTiles, []⟩ bytes!"T.F\n" :=
  ⟨by simp [fileInv], by simp [fileInv], Or.inr ⟨fun _ _ h => by simp [fileInv] at h, rfl⟩, bytes!"d", Or.inr ⟨rfl, rfl⟩, by decide,
    by decide, high_database⟩

/-- The directory of `file_example` with 2^32 added to the base address: the same bitstream. -/
theorem C115_example (out o : OStream) (fuel : Nat) :
    main fileEnv sameLoad sameOrder fileInv out fuel = some (.ok (0, o)) ↔ main highEnv sameLoad sameOrder fileInv out fuel = some (.ok (0, o)) :=
  C115_program fileEnv highEnv sameLoad sameLoad sameLoad_ok sameLoad_ok sameOrder sameOrder sameOrder_permutes sameOrder_permutes fileInv fileInv
    ⟨fileTiles, []⟩ ⟨highTiles, []⟩ _ (file_starts_with _) high_starts rfl rfl high_rebased out o fuel

end Verif.Props
