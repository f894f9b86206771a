import Verif.Proofs.Stepdown
import Verif.Props.C18_C23
import Verif.Props.C24_C34
/-! # C50–C57, C59: the assembler -/
namespace Verif.Props
open Verif.Db Verif.Spec Verif.Text Verif.Asm Verif.Xc7

/-! ## Examples

Two IOB33 tiles and a clock tile in bank 14, and tile `T` of the small database. -/

/-- Segment bits of type `I`: `I.IOB_Y0.STEPDOWN`, `I.IOB_Y1.STEPDOWN`; of type `H`: `H.STEPDOWN`. -/
def ioSeg : SegBits :=
  { pips := []
    segmentBits := [(.clbIoClk,
      [((bytes!"I.IOB_Y0.STEPDOWN", 0), [⟨0, 0, true⟩]),
       ((bytes!"I.IOB_Y1.STEPDOWN", 0), [⟨1, 1, true⟩]),
       ((bytes!"H.STEPDOWN", 0), [⟨2, 2, true⟩])])] }

/-- A tile of type `ty` at frame `base`. -/
def ioTile (ty : Bytes) (base : Nat) (sites : List (Bytes × Bytes)) : Db.Tile :=
  { type := ty, x := 0, y := 0, clockRegion := none
    bits := [(.clbIoClk, { alias? := none, baseAddress := base, frames := 4, offset := 0, words := 2 })]
    pinFunctions := [], sites := sites, prohibitedSites := [] }

/-- `IOB33A`, `IOB33B` with pins `P0`, `P1`, and `HCLK_IOI3_C`. -/
def ioTiles : Tiles :=
  { grid :=
      [(bytes!"T", demoT),
       (bytes!"IOB33A", ioTile bytes!"I" 0x100 [(bytes!"P0", []), (bytes!"P1", [])]),
       (bytes!"IOB33B", ioTile bytes!"I" 0x200 [(bytes!"P0", []), (bytes!"P1", [])]),
       (bytes!"HCLK_IOI3_C", ioTile bytes!"H" 0x300 [])]
    bits := fun ty => .ok (if ty = bytes!"X" then some demoSeg else if ty = bytes!"I" ∨ ty = bytes!"H" then some ioSeg else none)
    banks := Registry.create (fun l => l) ⟨[], [], 0, [(14, bytes!"C")]⟩
      [⟨[], 14, [], bytes!"IOB33A", []⟩, ⟨[], 14, [], bytes!"IOB33B", []⟩]
    part := ⟨[], [], 0, []⟩ }

def sameOrder : HashOrder := ⟨fun _ _ l => l, fun _ l => l, fun l => l, fun _ l => l⟩

theorem sameOrder_permutes : Permutes sameOrder :=
  ⟨fun _ _ _ => List.Perm.refl _, fun _ _ => List.Perm.refl _, fun _ => List.Perm.refl _, fun _ _ => List.Perm.refl _⟩

theorem ioTiles_ok : TilesOk ioTiles := by
  intro name t h
  have hm := mem_of_lookup h
  simp only [ioTiles, List.mem_cons, List.not_mem_nil, or_false, Prod.mk.injEq] at hm
  rcases hm with ⟨_, rfl⟩ | ⟨_, rfl⟩ | ⟨_, rfl⟩ | ⟨_, rfl⟩ <;> decide

theorem ioTiles_aliases : AliasesOk ioTiles := by
  intro name t h
  have hm := mem_of_lookup h
  simp only [ioTiles, List.mem_cons, List.not_mem_nil, or_false, Prod.mk.injEq] at hm
  rcases hm with ⟨_, rfl⟩ | ⟨_, rfl⟩ | ⟨_, rfl⟩ | ⟨_, rfl⟩ <;>
    (intro e he e' he' a a' ha ha'
     simp only [demoT, ioTile, List.mem_singleton] at he
     subst he
     cases ha)

theorem ioTiles_pudc : PudcOk ioTiles.grid := by
  intro tile pin h
  rw [← firstPin_iff] at h
  have : firstPin ioTiles.grid = none := by decide
  rw [this] at h
  cases h

/-- `T.F` and `IOB33A.IOB_Y0.STEPDOWN`, one per line. -/
def ioText : Bytes :=
  bytes!"T.F\nIOB33A.IOB_Y0.STEPDOWN\n"

/-- Frames and set words of the example: `T.F`; the site used; the three other sites; the clock tile. -/
def ioWords (o : Outcome (PartDatabase × Frames)) : Outcome (List (Nat × List (Nat × Nat))) :=
  o >>= fun r => .ok ((r.2.filter fun e => decide (e.1 < 0x400000 ∨ e.1 = 0x400103)).map fun e =>
    (e.1, ((List.range 101).filterMap fun i => (e.2[i]?).bind fun (w : Word) => if w = 0 then none else some (i, w.toNat))))

example : ioWords (assembleFrames sameOrder ioText ⟨ioTiles, []⟩ []) =
    .ok [(0x100, [(0, 1)]), (0x101, [(0, 2)]), (0x102, []), (0x103, []), (0x200, [(0, 1)]), (0x201, [(0, 2)]),
      (0x202, []), (0x203, []), (0x300, []), (0x301, []), (0x302, [(0, 4)]), (0x303, []), (0x400103, [(3, 2)])] := by
  decide +kernel

/-! ## C50 -/

section Assemble
variable {tiles : Tiles} (hok : TilesOk tiles)
  (ord : HashOrder) (hord : Permutes ord) (text : Bytes) (db : PartDatabase) (hdb : Reachable tiles db)
include hok hord hdb

/-- A successful assembly gives the frames of the design: a bit is 1 exactly when the database lists it for a
statement of the text or one added for the PUDC_B pin or STEPDOWN. -/
theorem C50_frames (db' : PartDatabase) (fr : Frames) (h : assembleFrames ord text db [] = .ok (db', fr)) :
    FramesOf tiles (Design tiles text) fr := by
  have ha := assemble_inv hok ord hord text db hdb _ h
  obtain ⟨db2, fr2, h1, _, h2⟩ := assemble_ok hok ord hord text db hdb ha
  rw [h] at h1
  cases h1
  exact h2

/-- It succeeds exactly when every line parses, STEPDOWN banks are known and every statement is listed. -/
theorem C50_succeeds : (∃ r, assembleFrames ord text db [] = .ok r) ↔ Assembles tiles text := by
  constructor
  · rintro ⟨r, h⟩; exact assemble_inv hok ord hord text db hdb r h
  · intro h
    obtain ⟨db2, fr2, h1, _⟩ := assemble_ok hok ord hord text db hdb h
    exact ⟨_, h1⟩

/-- The same for a list of statements processed on top of existing frames. -/
theorem C50_features (Fs : List FasmFeature) (fr0 : Frames) (hs : fr0.Sorted) (db' : PartDatabase) (fr : Frames)
    (h : processFeatures ord Fs db fr0 = .ok (db', fr)) (k w b : Nat) :
    BitSet fr k w b ↔ BitSet fr0 k w b ∨
      ∃ tile c, Lists tiles (fun F => F ∈ Fs) tile c ∧ c.value = true ∧ c.frame = k ∧ c.word = w ∧ c.index = b := by
  have hF := process_inv hok ord hord Fs db hdb fr0 hs _ h
  obtain ⟨db2, fr2, h1, _, h2⟩ := process_ok hok ord hord Fs db hdb fr0 hs hF
  rw [h] at h1
  cases h1
  exact h2.bit k w b

end Assemble

/-- The hypotheses hold for the example, which assembles. -/
theorem io_assembles : Assembles ioTiles ioText :=
  (C50_succeeds ioTiles_ok sameOrder sameOrder_permutes ioText _ Reachable.fresh).1 ⟨_, rfl⟩

/-! ## C51 -/

/-- The frames of a design are unique. -/
theorem frame_ext {fr fr' : Frames} (hs : fr.Sorted) (hs' : fr'.Sorted) (k : Nat) (e : FramePresent fr k ↔ FramePresent fr' k)
    (he : ∀ w b, BitSet fr k w b ↔ BitSet fr' k w b) : fr.get? k = fr'.get? k := by
  rw [hasFrame_iff hs, hasFrame_iff hs'] at e
  cases h1 : fr.get? k with
  | none =>
    cases h2 : fr'.get? k with
    | none => rfl
    | some f' =>
      obtain ⟨f, hf⟩ := e.2 ⟨f', h2⟩
      rw [h1] at hf; cases hf
  | some f =>
    obtain ⟨f', h2⟩ := e.1 ⟨f, h1⟩
    rw [h2]
    congr 1
    refine Vector.ext fun w hw => ?_
    refine BitVec.eq_of_getLsbD_eq fun b _ => ?_
    have e2 := he w b
    rw [bitSet_iff hs, bitSet_iff hs'] at e2
    simp only [h1, h2, Option.some.injEq, exists_eq_left', exists_and_left, Vector.getElem?_eq_getElem hw] at e2
    cases h3 : f[w].getLsbD b <;> cases h4 : f'[w].getLsbD b <;> simp_all

theorem framesOf_unique {tiles : Tiles} {D : FasmFeature → Prop} {fr fr' : Frames} (h : FramesOf tiles D fr) (h' : FramesOf tiles D fr') :
    fr = fr' := by
  obtain ⟨hs, hb, hf⟩ := h
  obtain ⟨hs', hb', hf'⟩ := h'
  exact BMap.sorted_ext hs hs' fun k => frame_ext hs hs' k (by rw [hf, hf']) fun w b => by rw [hb, hb']

section Order
variable {tiles : Tiles} (hok : TilesOk tiles)
  (ord ord' : HashOrder) (hord : Permutes ord) (hord' : Permutes ord') (text text' : Bytes)
  (db db' : PartDatabase) (hdb : Reachable tiles db) (hdb' : Reachable tiles db')
include hok hord hord' hdb hdb'

/-- Texts with the same statements give the same frames, under any hash orders and query histories. -/
theorem C51_same_statements (hl : LinesOk text → LinesOk text') (hw : ∀ F, Written text F ↔ Written text' F)
    (d : PartDatabase) (fr : Frames) (h : assembleFrames ord text db [] = .ok (d, fr)) :
    ∃ d', assembleFrames ord' text' db' [] = .ok (d', fr) := by
  have ha := assemble_inv hok ord hord text db hdb _ h
  have hb : Basic tiles text = Basic tiles text' := by
    funext F
    unfold Basic
    rw [hw F]
  have hd : Design tiles text = Design tiles text' := by
    funext F
    unfold Design
    rw [hb]
  have ha' : Assembles tiles text' := by
    obtain ⟨h1, h2, h3⟩ := ha
    refine ⟨hl h1, by rw [← hb]; exact h2, by rw [← hd]; exact h3⟩
  obtain ⟨d', fr', h1, _, h2⟩ := assemble_ok hok ord' hord' text' db' hdb' ha'
  have h3 := C50_frames hok ord hord text db hdb d fr h
  rw [hd] at h3
  rw [framesOf_unique h3 h2]
  exact ⟨d', h1⟩

/-- Reordering and repeating lines changes nothing. -/
theorem C51_same_lines (hl : ∀ line, IsLine text line ↔ IsLine text' line)
    (d : PartDatabase) (fr : Frames) (h : assembleFrames ord text db [] = .ok (d, fr)) :
    ∃ d', assembleFrames ord' text' db' [] = .ok (d', fr) := by
  refine C51_same_statements hok ord ord' hord hord' text text' db db' hdb hdb' ?_ ?_ d fr h
  · intro h line hline; exact h line ((hl line).2 hline)
  · intro F
    unfold Written
    simp only [hl]

end Order

/-- The lines of a concatenation of lines. -/
theorem isLine_flatten (ls : List Bytes) (h : ∀ l ∈ ls, ∃ body, l = body ++ [0x0a] ∧ 0x0a ∉ body) (line : Bytes) :
    IsLine ls.flatten line ↔ line ∈ ls := by
  rw [← mem_getlines]
  have : getlines ls.flatten = ls := by
    induction ls with
    | nil => rfl
    | cons l ls ih =>
      obtain ⟨body, rfl, hb⟩ := h l (by simp)
      rw [List.flatten_cons, List.append_assoc, List.singleton_append, getlines_cut _ _ hb,
        ih fun l hl => h l (List.mem_cons_of_mem _ hl)]
  rw [this]

/-- For any two lists with the same newline-terminated lines. -/
theorem C51_permuted_lines {tiles : Tiles} (hok : TilesOk tiles)
    (ord ord' : HashOrder) (hord : Permutes ord) (hord' : Permutes ord') (ls ls' : List Bytes)
    (hl : ∀ l ∈ ls, ∃ body, l = body ++ [0x0a] ∧ 0x0a ∉ body) (hsame : ∀ l, l ∈ ls ↔ l ∈ ls')
    (db db' : PartDatabase) (hdb : Reachable tiles db) (hdb' : Reachable tiles db') (d : PartDatabase) (fr : Frames)
    (h : assembleFrames ord ls.flatten db [] = .ok (d, fr)) : ∃ d', assembleFrames ord' ls'.flatten db' [] = .ok (d', fr) := by
  refine C51_same_lines hok ord ord' hord hord' _ _ db db' hdb hdb' ?_ d fr h
  intro line
  rw [isLine_flatten ls hl, isLine_flatten ls' (fun l h => hl l ((hsame l).2 h)), hsame]

example : ∃ d fr d', assembleFrames sameOrder ioText ⟨ioTiles, []⟩ [] = .ok (d, fr) ∧
    assembleFrames sameOrder (ioText.drop 4 ++ (ioText ++ ioText.take 4)) ⟨ioTiles, []⟩ [] = .ok (d', fr) := by
  obtain ⟨⟨d, fr⟩, h0⟩ := (C50_succeeds ioTiles_ok sameOrder sameOrder_permutes ioText _ Reachable.fresh).2
    io_assembles
  obtain ⟨d', h⟩ := C51_permuted_lines ioTiles_ok sameOrder sameOrder sameOrder_permutes sameOrder_permutes
    [ioText.take 4, ioText.drop 4] [ioText.drop 4, ioText.take 4, ioText.drop 4, ioText.take 4]
    (by
      intro l hl
      simp only [List.mem_cons, List.not_mem_nil, or_false] at hl
      rcases hl with rfl | rfl
      · exact ⟨bytes!"T.F", rfl, by decide⟩
      · exact ⟨(ioText.drop 4).dropLast, rfl, by decide⟩)
    (by
      intro l
      simp only [List.mem_cons, List.not_mem_nil, or_false]
      constructor
      · rintro (h | h)
        · exact Or.inr (Or.inl h)
        · exact Or.inl h
      · rintro (h | h | h | h)
        · exact Or.inr h
        · exact Or.inl h
        · exact Or.inr h
        · exact Or.inl h) ⟨ioTiles, []⟩ ⟨ioTiles, []⟩ Reachable.fresh Reachable.fresh d fr h0
  exact ⟨d, fr, d', h0, h⟩

/-! ## C52 -/

section Blocks
variable {tiles : Tiles} (hok : TilesOk tiles)
  (ord : HashOrder) (hord : Permutes ord) (text : Bytes) (db : PartDatabase) (hdb : Reachable tiles db)
include hok hord hdb

/-- When a statement of the design has a listed bit (set or negated) in a block of a tile, all frames of that
block are in the result. -/
theorem C52_block_frames (d : PartDatabase) (fr : Frames) (h : assembleFrames ord text db [] = .ok (d, fr))
    (tile : Bytes) (c : BitCall) (hc : Lists tiles (Design tiles text) tile c) (t : Db.Tile) (ht : tiles.grid.lookup tile = some t)
    (block : BitsBlock) (hb : (c.bus, block) ∈ t.bits) (hwrap : block.baseAddress + block.frames ≤ 2 ^ 64) (i : Nat)
    (hi : i < block.frames) : FramePresent fr (block.baseAddress + i) := by
  obtain ⟨_, _, hf⟩ := C50_frames hok ord hord text db hdb d fr h
  refine (hf _).2 ⟨tile, c, hc, Or.inr ⟨t, block, i, ht, hb, hi, ?_⟩⟩
  rw [Nat.mod_eq_of_lt (by omega)]

/-- Every frame of the result is the frame of a listed bit or of its block. -/
theorem C52_no_other_frames (d : PartDatabase) (fr : Frames) (h : assembleFrames ord text db [] = .ok (d, fr)) (k : Nat)
    (hk : FramePresent fr k) : ∃ tile c, Lists tiles (Design tiles text) tile c ∧ (c.frame = k ∨
      ∃ t block i, tiles.grid.lookup tile = some t ∧ (c.bus, block) ∈ t.bits ∧ i < block.frames ∧
        k = (block.baseAddress + i) % 2 ^ 64) :=
  ((C50_frames hok ord hord text db hdb d fr h).2.2 k).1 hk

/-! ## C53 -/

/-- A statement asking for a bit the database does not list, anywhere in the design, makes assembly fail.
Missing: a statement whose value is 0 asks for nothing and is accepted whatever it names (`C53_defect`). -/
theorem C53_unknown_partial (F : FasmFeature) (hF : Design tiles text F) (tile feature : Bytes) (addr : Nat)
    (hasks : Asks F tile feature addr) (hno : ∀ bits, ¬ FeatureBits tiles tile feature addr bits) (r : PartDatabase × Frames) :
    assembleFrames ord text db [] ≠ .ok r := by
  intro h
  obtain ⟨_, _, h3, _⟩ := (C50_succeeds hok ord hord text db hdb).1 ⟨r, h⟩
  obtain ⟨bits, hb, _⟩ := (h3 F hF).2.2 tile feature addr hasks
  exact hno bits hb

/-- Nor does a name without a dot. -/
theorem C53_no_dot (F : FasmFeature) (hF : Design tiles text F) (hd : 0x2e ∉ F.name) (r : PartDatabase × Frames) :
    assembleFrames ord text db [] ≠ .ok r := by
  intro h
  obtain ⟨_, _, h3, _⟩ := (C50_succeeds hok ord hord text db hdb).1 ⟨r, h⟩
  exact hd (h3 F hF).2.1

end Blocks

/-- `T.F` of the example is listed; `T.H` is not. -/
example : ∃ F, Design ioTiles ioText F ∧ Asks F bytes!"T" bytes!"F" 0 := by
  refine ⟨⟨1, bytes!"T.F", 0, 1, 1⟩, Or.inl (Or.inr ⟨bytes!"T.F\n", _, 1, ?_, rfl, by decide, rfl⟩), rfl, by decide, 0, by decide, by decide, by decide⟩
  exact ⟨[], ioText.drop 4, rfl, Or.inl rfl, Or.inl ⟨bytes!"T.F", rfl, by decide⟩⟩
example : assembleFrames sameOrder bytes!"T.H\n" ⟨ioTiles, []⟩ [] = .abort := rfl

/-- Defect: `Z.Z=0` — an unknown tile — assembles to nothing. -/
theorem C53_defect : assembleFrames sameOrder bytes!"Z.Z=0\n" ⟨ioTiles, []⟩ [] = .ok (⟨ioTiles, []⟩, []) ∧
    ioTiles.grid.lookup bytes!"Z" = none := ⟨rfl, rfl⟩

/-! ## C54 -/

/-- What the added STEPDOWN statements are, for the banks of a part: for every bank where a non-zero statement
`tile.site.tag` of a tile whose first bank it is has a tag that mentions `STEPDOWN`, the unused sites of the IOB33
tiles of the bank get every such tag, and its HCLK_IOI3 tiles get `STEPDOWN`. -/
theorem C54_added (ord : HashOrder) (hord : Permutes ord) (setOrder : List Bytes → List Bytes) (hset : ∀ l, (setOrder l).Perm l)
    (part : Db.Part) (pins : PackagePins) (grid : TileGrid) (Fs fs : List FasmFeature)
    (h : stepdownFeatures ord (Registry.create setOrder part pins) grid Fs = .ok fs) (F : FasmFeature) :
    F ∈ fs ↔ Made F ∧
      ((∃ bank tag tile t pin site, StepTag (Registry.create setOrder part pins) (fun G => G ∈ Fs) bank tag ∧
          InBank part pins bank tile ∧ Occurs bytes!"IOB33" tile ∧ grid.lookup tile = some t ∧
          pin ∈ t.sites.map (·.1) ∧ IobName pin site ∧ ¬ UsedSite (fun G => G ∈ Fs) tile site ∧
          F.name = tile ++ 0x2e :: site ++ 0x2e :: tag) ∨
       (∃ bank tag tile, StepTag (Registry.create setOrder part pins) (fun G => G ∈ Fs) bank tag ∧
          InBank part pins bank tile ∧ Occurs bytes!"HCLK_IOI3" tile ∧
          F.name = tile ++ 0x2e :: bytes!"STEPDOWN")) := by
  have hinv := (stepdown_inv ord hord ⟨grid, fun _ => .err, Registry.create setOrder part pins, part⟩ Fs fs h).2 F
  rw [hinv]
  unfold StepdownFeature
  dsimp only
  have hbank : ∀ bank tile, (∃ ts, (Registry.create setOrder part pins).tiles bank = some ts ∧ tile ∈ ts) ↔ InBank part pins bank tile := by
    intro bank tile
    rw [← C43_two_way setOrder part pins hset, C43_tile_banks]
  refine and_congr Iff.rfl (or_congr ?_ ?_)
  · constructor
    · rintro ⟨bank, tag, ts, tile, t, pin, site, h1, h2, h3, h4⟩
      exact ⟨bank, tag, tile, t, pin, site, h1, (hbank _ _).1 ⟨ts, h2, h3⟩, h4⟩
    · rintro ⟨bank, tag, tile, t, pin, site, h1, h2, h4⟩
      obtain ⟨ts, h2, h3⟩ := (hbank _ _).2 h2
      exact ⟨bank, tag, ts, tile, t, pin, site, h1, h2, h3, h4⟩
  · constructor
    · rintro ⟨bank, tag, ts, tile, h1, h2, h3, h4⟩
      exact ⟨bank, tag, tile, h1, (hbank _ _).1 ⟨ts, h2, h3⟩, h4⟩
    · rintro ⟨bank, tag, tile, h1, h2, h4⟩
      obtain ⟨ts, h2, h3⟩ := (hbank _ _).2 h2
      exact ⟨bank, tag, ts, tile, h1, h2, h3, h4⟩

/-- Without a STEPDOWN tag nothing is added. -/
theorem C54_nothing (ord : HashOrder) (hord : Permutes ord) (banks : Registry) (grid : TileGrid) (Fs : List FasmFeature)
    (hno : ∀ F ∈ Fs, ∀ tile site tag, HasTag F tile site tag → ¬ Occurs bytes!"STEPDOWN" tag) :
    stepdownFeatures ord banks grid Fs = .ok [] := by
  have hst : ∀ bank tag, ¬ StepTag banks (fun G => G ∈ Fs) bank tag := by
    rintro bank tag ⟨F, tile, site, hF, h1, h2, _⟩
    exact hno F hF tile site tag h1 h2
  obtain ⟨fs, h⟩ := stepdown_ok ord hord ⟨grid, fun _ => .err, banks, ⟨[], [], 0, []⟩⟩ Fs
    ⟨fun F tile site tag hF h1 h2 => absurd h2 (hno F hF tile site tag h1), fun bank tag h => absurd h (hst bank tag)⟩
  have h' := (stepdown_inv ord hord ⟨grid, fun _ => .err, banks, ⟨[], [], 0, []⟩⟩ Fs fs h).2
  dsimp only at h
  rw [h]
  cases fs with
  | nil => rfl
  | cons F fs =>
    obtain ⟨_, ⟨bank, tag, _, _, _, _, _, hs, _⟩ | ⟨bank, tag, _, _, hs, _⟩⟩ := (h' F).1 (by simp)
    · exact absurd hs (hst bank tag)
    · exact absurd hs (hst bank tag)

/-- Finding: a STEPDOWN statement for a tile outside every bank terminates the program. -/
theorem C54_unknown_bank (ord : HashOrder) (banks : Registry) (grid : TileGrid) (Fs : List FasmFeature)
    (F : FasmFeature) (hF : F ∈ Fs) (tile site tag : Bytes) (ht : HasTag F tile site tag)
    (hs : Occurs bytes!"STEPDOWN" tag) (hb : banks.tileBanks tile = []) :
    stepdownFeatures ord banks grid Fs = .abort := by
  unfold stepdownFeatures
  rw [scan_abort banks Fs _ F hF tile site tag ht hs hb]; rfl

/-- The example: the used site gets nothing, the three others and the clock tile do. -/
example : (stepdownFeatures sameOrder ioTiles.banks ioTiles.grid [⟨1, ioText.drop 4 |>.dropLast, 0, 1, 1⟩] >>= fun l => .ok (l.map (·.name))) =
    .ok [bytes!"HCLK_IOI3_C" ++ 0x2e :: kStepdown,
      bytes!"IOB33A" ++ 0x2e :: kIobY ++ 0x31 :: 0x2e :: kStepdown,
      bytes!"IOB33B" ++ 0x2e :: kIobY ++ 0x30 :: 0x2e :: kStepdown,
      bytes!"IOB33B" ++ 0x2e :: kIobY ++ 0x31 :: 0x2e :: kStepdown] := by decide +kernel

/-! ## C55 -/

/-- The grid has a PUDC_B pin: exactly the three statements for its site. -/
theorem C55_three (grid : TileGrid) (tile pin site : Bytes) (hp : FirstPudcB grid tile pin) (hs : PudcSite pin site) :
    ∃ fs, pudcbFeatures grid = .ok fs ∧ (∀ F ∈ fs, Made F) ∧ fs.map (·.name) = pudcNames tile site := by
  unfold pudcbFeatures
  rw [findPUDCB_eq, (firstPin_iff _ _ _).2 hp]
  obtain ⟨y, hy, hye⟩ := Outcome.bind_eq_ok.1 ((pudcSite_iff pin site).2 hs)
  dsimp only
  rw [hy, Outcome.bind_ok, Outcome.bind_ok]
  dsimp only
  rw [Outcome.ok.inj hye]
  refine ⟨_, rfl, ?_, rfl⟩
  intro F hF
  obtain ⟨t, _, rfl⟩ := List.mem_map.1 hF
  exact ⟨rfl, rfl, rfl, rfl⟩

/-- A pin name that ends in a byte of 128 or more: site `IOB_Y0` or `IOB_Y-1`. -/
theorem C55_high_pin (grid : TileGrid) (tile pre : Bytes) (c : UInt8) (hp : FirstPudcB grid tile (pre ++ [c])) (hc : 128 ≤ c.toNat) :
    ∃ fs, pudcbFeatures grid = .ok fs ∧ (∀ F ∈ fs, Made F) ∧ fs.map (·.name) = pudcNames tile
      (if c.toNat % 2 = 0 then bytes!"IOB_Y0" else bytes!"IOB_Y-1") := by
  refine C55_three grid tile _ _ hp ⟨pre, c, rfl, ?_⟩
  rw [if_neg (c := c.toNat < 128) (by omega)]
  split <;> rfl

/-- A pin name that ends in an ASCII character: the site is named like every other. -/
theorem C55_low_pin (grid : TileGrid) (tile pin site : Bytes) (hp : FirstPudcB grid tile pin) (hs : IobName pin site) :
    ∃ fs, pudcbFeatures grid = .ok fs ∧ (∀ F ∈ fs, Made F) ∧ fs.map (·.name) = pudcNames tile site := by
  obtain ⟨pre, c, rfl, hc, rfl⟩ := hs
  exact C55_three grid tile _ _ hp ⟨pre, c, rfl, by rw [if_pos (c := c.toNat < 128) hc]⟩

/-- A pin without name: undefined behaviour. -/
theorem C55_unnamed_pin (grid : TileGrid) (tile : Bytes) (hp : FirstPudcB grid tile []) : pudcbFeatures grid = .ub := by
  unfold pudcbFeatures
  rw [findPUDCB_eq, (firstPin_iff _ _ _).2 hp]
  rfl

example : (pudcbFeatures [(bytes!"T", demoT), (bytes!"A", { demoT with pinFunctions := [([0x50, 0xe1], bytes!"X_" ++ kPudcB)] })] >>= fun l =>
    .ok (l.map (·.name))) = .ok (pudcNames bytes!"A" bytes!"IOB_Y-1") := by decide +kernel

/-- Otherwise nothing. -/
theorem C55_none (grid : TileGrid) (h : ∀ e ∈ grid, ∀ p ∈ e.2.pinFunctions, ¬ Occurs bytes!"PUDC_B" p.2) :
    pudcbFeatures grid = .ok [] := by
  unfold pudcbFeatures
  rw [findPUDCB_eq]
  cases hf : firstPin grid with
  | none => rfl
  | some p =>
    obtain ⟨tile, pin⟩ := p
    obtain ⟨g1, info, g2, p1, fn, p2, h1, h2, h3, _⟩ := (firstPin_iff _ _ _).1 hf
    exact absurd h3 (h (tile, info) (by rw [h1]; simp) (pin, fn) (by rw [h2]; simp))

/-- In the assembled frames the three statements count, also when the design configures the site itself. -/
theorem C55_in_design (tiles : Tiles) (text : Bytes) (F : FasmFeature) (h : PudcFeature tiles.grid F) : Design tiles text F :=
  Or.inl (Or.inl h)

/-- A pin `P3` with function `X_PUDC_B`. -/
example : (pudcbFeatures [(bytes!"T", demoT), (bytes!"A", { demoT with pinFunctions := [(bytes!"P3", bytes!"X_" ++ kPudcB)] })] >>= fun l =>
    .ok (l.map (·.name))) = .ok (pudcNames bytes!"A" bytes!"IOB_Y1") := by decide +kernel

/-! ## C56 -/

/-- A line the parser rejects: no frames, wherever it is. -/
theorem C56_bad_line (ord : HashOrder) (text : Bytes) (db : PartDatabase) (frames : Frames) (line : Bytes) (hl : IsLine text line)
    (hbad : ∀ st, Fasm.parse true (fun _ => true) line = .ok st → st.result = .error) (r : PartDatabase × Frames) :
    assembleFrames ord text db frames ≠ .ok r := by
  intro h
  unfold assembleFrames at h
  obtain ⟨pudcb, _, h⟩ := Outcome.bind_eq_ok.1 h
  obtain ⟨parsed, h1, _⟩ := Outcome.bind_eq_ok.1 h
  have h1 := (lines_plain text parsed).1 h1
  obtain ⟨st, h2, _, h3⟩ := (parsed_inv text parsed h1).1 line hl
  exact h3 (hbad st h2)

/-- The outcome is an error, not a crash, if the parser returns on every line. -/
theorem C56_error (ord : HashOrder) (text : Bytes) (db : PartDatabase) (frames : Frames) (hp : PudcOk db.tiles.grid)
    (hparse : ∀ line, IsLine text line → ∃ st, Fasm.parse true (fun _ => true) line = .ok st)
    (line : Bytes) (hl : IsLine text line) (st : Fasm.St) (hst : Fasm.parse true (fun _ => true) line = .ok st)
    (hbad : st.result = .error) : assembleFrames ord text db frames = .err := by
  obtain ⟨pudcb, h1, _⟩ := pudcb_ok db.tiles.grid hp
  unfold assembleFrames
  rw [h1, Outcome.bind_ok]
  have : (getlines text).mapM plainLine = .err := by
    rcases mapM_cases plainLine (getlines text) (by
      intro l hl
      obtain ⟨st, h⟩ := hparse l ((mem_getlines _ _).1 hl)
      unfold plainLine
      rw [h]
      dsimp only
      by_cases hr : st.result = .userAbort ∨ st.result = .error
      · rw [if_pos hr]; exact Or.inr rfl
      · rw [if_neg hr]; exact Or.inl ⟨_, rfl⟩) with ⟨r, hr⟩ | h
    · obtain ⟨st', h2, _, h3⟩ := (parsed_inv text r hr).1 line hl
      rw [hst] at h2
      cases h2
      exact absurd hbad h3
    · exact h
  rw [lines_err text this]
  rfl

/-- In particular when the text does not end in a newline. -/
theorem C56_no_newline (ord : HashOrder) (text : Bytes) (c : UInt8) (hc : c ≠ 0x0a) (db : PartDatabase) (frames : Frames)
    (r : PartDatabase × Frames) : assembleFrames ord (text ++ [c]) db frames ≠ .ok r := by
  have key : ∀ t : Bytes, ∃ pre last, t = pre ++ last ∧ (pre = [] ∨ ∃ p, pre = p ++ [0x0a]) ∧ 0x0a ∉ last := by
    intro t
    induction t with
    | nil => exact ⟨[], [], rfl, Or.inl rfl, by simp⟩
    | cons x t ih =>
      obtain ⟨pre, last, h1, h2, h3⟩ := ih
      by_cases hx : x = 0x0a
      · subst hx
        refine ⟨0x0a :: pre, last, by rw [h1]; rfl, Or.inr ?_, h3⟩
        rcases h2 with rfl | ⟨p, rfl⟩
        · exact ⟨[], rfl⟩
        · exact ⟨0x0a :: p, rfl⟩
      · rcases h2 with rfl | ⟨p, rfl⟩
        · refine ⟨[], x :: last, by rw [h1]; rfl, Or.inl rfl, ?_⟩
          simp only [List.mem_cons, not_or]
          exact ⟨fun e => hx e.symm, h3⟩
        · exact ⟨x :: (p ++ [0x0a]), last, by rw [h1]; rfl, Or.inr ⟨x :: p, rfl⟩, h3⟩
  obtain ⟨pre, last, h1, h2, h3⟩ := key text
  refine C56_bad_line ord _ db frames (last ++ [c]) ⟨pre, [], by rw [h1]; simp, h2, Or.inr ⟨rfl, by simp, ?_⟩⟩ ?_ r
  · simp only [List.mem_append, List.mem_singleton, not_or]
    exact ⟨h3, fun e => hc e.symm⟩
  · intro st hst
    rw [C24_no_newline true _ last c hc] at hst
    cases hst
    rfl

/-- `T.F`, then `=`, then `T.F`. -/
example : assembleFrames sameOrder bytes!"T.F\n=\nT.F\n" ⟨ioTiles, []⟩ [] = .err := rfl

/-! ## C57 -/

/-- A statement whose value is 0 sets nothing, leaves the database alone and cannot fail. -/
theorem C57_zero_feature (ord : HashOrder) (db : PartDatabase) (fr : Frames) (F : FasmFeature) (i : Nat) (h0 : F.bits = 0)
    (hw : F.width ≤ 64) (hs : F.width + F.start ≤ 2 ^ 31) (hd : 0x2e ∈ F.name) :
    processFeature ord (db, fr) (F, i) = .ok (db, fr) := by
  rcases splitMax_one 0x2e F.name with ⟨tile, feature, _, _, hsp⟩ | ⟨hn, _⟩
  · have hloop : ∀ as : List Nat, (∀ a ∈ as, (a : Int) < F.width) →
        as.foldlM (bitStep (ord.bits i) F tile feature) (db, (([], fr) : Asm.St)) = .ok (db, ([], fr)) := by
      intro as
      induction as with
      | nil => intro _; rfl
      | cons a as ih =>
        intro h
        have ha := h a (by simp)
        rw [List.foldlM_cons]
        have hstep : bitStep (ord.bits i) F tile feature (db, (([], fr) : Asm.St)) a = .ok (db, ([], fr)) := by
          rw [bitStep, if_neg (by omega), if_neg (by omega), h0]
          simp
        rw [hstep]
        exact ih fun a ha => h a (List.mem_cons_of_mem _ ha)
    unfold processFeature
    dsimp only
    rw [hsp]
    dsimp only
    rw [hloop _ (by intro a ha; rw [List.mem_range] at ha; omega)]
    rfl
  · exact absurd hd hn

/-- A bit written as 0 is not asked for, so it contributes no bit and no frame; the design may as well lack it. -/
theorem C57_zero_statement (tiles : Tiles) (D : FasmFeature → Prop) (fr : Frames) (h : FramesOf tiles D fr) :
    FramesOf tiles (fun F => D F ∧ F.bits ≠ 0) fr := by
  have hl : ∀ tile c, Lists tiles (fun F => D F ∧ F.bits ≠ 0) tile c ↔ Lists tiles D tile c := by
    intro tile c
    constructor
    · rintro ⟨F, feature, addr, bits, h1, h2⟩
      exact ⟨F, feature, addr, bits, h1.1, h2⟩
    · rintro ⟨F, feature, addr, bits, h1, h2, h3⟩
      refine ⟨F, feature, addr, bits, ⟨h1, ?_⟩, h2, h3⟩
      intro h0
      obtain ⟨_, _, i, _, ht, _⟩ := h2
      rw [h0] at ht
      simp at ht
  unfold FramesOf at h ⊢
  simp only [hl]
  exact h

/-- A statement of any width sets the bits the database lists for its bits that are 1, and no others: a bit of the statement that is 0 sets nothing. -/
theorem C57_bits {tiles : Tiles} (hok : TilesOk tiles) (ord : HashOrder) (hord : Permutes ord) (db : PartDatabase) (hdb : Reachable tiles db)
    (F : FasmFeature) (fr0 : Frames) (hs : fr0.Sorted) (db' : PartDatabase) (fr : Frames) (h : processFeatures ord [F] db fr0 = .ok (db', fr)) (k w b : Nat) :
    BitSet fr k w b ↔ BitSet fr0 k w b ∨
      ∃ (i : Nat) (tile feature : Bytes) (bits : List BitCall) (c : BitCall), (i : Int) < F.width ∧ F.bits.testBit i = true ∧ F.name = tile ++ 0x2e :: feature ∧ 0x2e ∉ tile ∧
        FeatureBits tiles tile feature (((i : Int) + F.start) % 2 ^ 32).toNat bits ∧ c ∈ bits ∧ c.value = true ∧ c.frame = k ∧ c.word = w ∧ c.index = b := by
  rw [C50_features hok ord hord db hdb [F] fr0 hs db' fr h k w b]
  refine or_congr Iff.rfl ⟨?_, ?_⟩
  · rintro ⟨tile, c, ⟨G, feature, addr, bits, hG, ⟨h1, h2, i, h3, h4, h5⟩, h6, h7⟩, h8⟩
    rw [List.mem_singleton.1 hG] at h1 h3 h4 h5
    exact ⟨i, tile, feature, bits, c, h3, h4, h1, h2, h5 ▸ h6, h7, h8⟩
  · rintro ⟨i, tile, feature, bits, c, h3, h4, h1, h2, h6, h7, h8⟩
    exact ⟨tile, c, ⟨F, feature, _, bits, List.mem_singleton.2 rfl, ⟨h1, h2, i, h3, h4, rfl⟩, h6, h7⟩, h8⟩

/-- `T.F[1:0]=1` sets what `T.F` sets; bit 1, which is 0, is not even looked up. -/
example : (processFeatures sameOrder [⟨1, bytes!"T.F", 0, 2, 1⟩] ⟨ioTiles, []⟩ [] >>= fun r => .ok (ioWords (.ok r))) =
    (processFeatures sameOrder [⟨1, bytes!"T.F", 0, 1, 1⟩] ⟨ioTiles, []⟩ [] >>= fun r => .ok (ioWords (.ok r))) := by decide +kernel

/-- `T.F=0`: nothing. -/
example : assembleFrames sameOrder bytes!"T.F=0\n" ⟨ioTiles, []⟩ [] = .ok (⟨ioTiles, []⟩, []) := rfl

/-! ## C59 -/

/-- Each site of a tile, in order, becomes `IOB_Y0` or `IOB_Y1` by the parity of the code of its last character. -/
theorem C59_sites (grid : TileGrid) (tile : Bytes) (sites : List Bytes) :
    getIOBSites grid tile = .ok sites ↔ ∃ t, grid.lookup tile = some t ∧ ∃ ps : List ((Bytes × Bytes) × Bytes),
      t.sites = ps.map (·.1) ∧ sites = ps.map (·.2) ∧ ∀ p ∈ ps, IobName p.1.1 p.2 := by
  unfold getIOBSites
  cases ht : grid.lookup tile with
  | none => simp
  | some t =>
    dsimp only
    rw [mapM_ok_iff]
    simp only [Option.some.injEq, exists_eq_left', iobSite_iff]

/-- For a name ending in a digit it is the parity of the digit. -/
theorem C59_digit (pre : Bytes) (n : Nat) (hn : n ≤ 9) (name : Bytes) : IobName (pre ++ [UInt8.ofNat (0x30 + n)]) name ↔
    name = bytes!"IOB_Y" ++ [UInt8.ofNat (0x30 + n % 2)] := by
  have hc : (UInt8.ofNat (0x30 + n)).toNat = 0x30 + n := by
    rw [UInt8.toNat_ofNat']
    omega
  have key : ∀ nm : Bytes, nm = bytes!"IOB_Y" ++ (if (UInt8.ofNat (0x30 + n)).toNat % 2 = 0 then bytes!"0" else bytes!"1") ↔
      nm = bytes!"IOB_Y" ++ [UInt8.ofNat (0x30 + n % 2)] := by
    intro nm
    rw [hc]
    rcases Nat.mod_two_eq_zero_or_one n with h | h
    · rw [if_pos (by omega), h]; rfl
    · rw [if_neg (by omega), h]; rfl
  constructor
  · rintro ⟨p, c, e, hc', rfl⟩
    obtain ⟨_, e⟩ := List.append_inj' e rfl
    cases e
    exact (key _).1 rfl
  · intro h
    exact ⟨pre, _, rfl, by rw [hc]; omega, (key name).2 h⟩

/-- Unknown tiles terminate the program. -/
theorem C59_unknown_tile (grid : TileGrid) (tile : Bytes) (h : grid.lookup tile = none) : getIOBSites grid tile = .abort := by
  unfold getIOBSites; rw [h]

example : getIOBSites ioTiles.grid bytes!"IOB33A" =
    .ok [bytes!"IOB_Y0", bytes!"IOB_Y1"] := by decide +kernel

end Verif.Props
