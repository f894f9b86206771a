import Verif.Spec.Compose
import Verif.Props.C50_C57
/-! # C106: designs made of parts -/
namespace Verif.Props
open Verif.Db Verif.Spec Verif.Text Verif.Asm Verif.Xc7

/-! ## Lines -/

/-- The lines of two texts one after the other. -/
theorem C106_lines (t t' line : Bytes) (h : WholeLines t) : IsLine (t ++ t') line ↔ IsLine t line ∨ IsLine t' line := by
  rw [← mem_getlines, ← mem_getlines, ← mem_getlines]
  rcases h with rfl | ⟨p, rfl⟩
  · simp [getlines]
  · have key : getlines (p ++ [0x0a]) ≠ [] ∧ getlines (p ++ [0x0a] ++ t') = getlines (p ++ [0x0a]) ++ getlines t' := by
      induction p with
      | nil => simp [getlines]
      | cons c p ih =>
        obtain ⟨h1, h2⟩ := ih
        simp only [List.cons_append]
        rw [getlines, getlines, h2]
        split
        · simp
        · obtain ⟨x, xs, e⟩ := List.exists_cons_of_ne_nil h1
          rw [e]; simp
    rw [key.2, List.mem_append]

/-- A statement of one of the parts is one of the whole. -/
theorem written_mono {t t' : Bytes} (h : LinesWithin t t') {F : FasmFeature} (hF : Written t F) : Written t' F := by
  obtain ⟨line, st, n, h1, h2⟩ := hF
  exact ⟨line, st, n, h line h1, h2⟩

theorem basic_mono {tiles : Tiles} {t t' : Bytes} (h : LinesWithin t t') {F : FasmFeature} (hF : Basic tiles t F) : Basic tiles t' F :=
  hF.imp id (written_mono h)

theorem lists_mono {tiles : Tiles} {D D' : FasmFeature → Prop} (h : ∀ F, D F → D' F) {tile : Bytes} {c : BitCall} (hl : Lists tiles D tile c) :
    Lists tiles D' tile c := by
  obtain ⟨F, f, a, bs, h1, h2⟩ := hl
  exact ⟨F, f, a, bs, h F h1, h2⟩

theorem stepTag_mono {banks : Registry} {D D' : FasmFeature → Prop} (h : ∀ F, D F → D' F) {bank : Nat} {tag : Bytes}
    (hl : StepTag banks D bank tag) : StepTag banks D' bank tag := by
  obtain ⟨F, t, s, h1, h2⟩ := hl
  exact ⟨F, t, s, h F h1, h2⟩

/-- Without STEPDOWN nothing is added. -/
theorem design_of_noStepdown {tiles : Tiles} {t : Bytes} (h : NoStepdown tiles t) (F : FasmFeature) : Design tiles t F ↔ Basic tiles t F := by
  refine ⟨fun hd => hd.elim id ?_, Or.inl⟩
  rintro ⟨_, ⟨bank, tag, _, _, _, _, _, ⟨G, tile, site, h1, h2, h3, _⟩, _⟩ | ⟨bank, tag, _, _, ⟨G, tile, site, h1, h2, h3, _⟩, _⟩⟩
  · exact absurd h3 (h G tile site tag h1 h2)
  · exact absurd h3 (h G tile site tag h1 h2)

theorem stepdownOk_of_noStepdown {tiles : Tiles} {t : Bytes} (h : NoStepdown tiles t) : StepdownOk tiles (Basic tiles t) := by
  refine ⟨fun F tile site tag h1 h2 h3 => absurd h3 (h F tile site tag h1 h2), ?_⟩
  rintro bank tag ⟨F, tile, site, h1, h2, h3, _⟩
  exact absurd h3 (h F tile site tag h1 h2)

/-! ## Without STEPDOWN -/

section Union
variable {tiles : Tiles} (hok : TilesOk tiles)
  (ord ord' ord'' : HashOrder) (hord : Permutes ord) (hord' : Permutes ord') (hord'' : Permutes ord'')
  (t t' whole : Bytes) (hl : ∀ line, IsLine whole line ↔ IsLine t line ∨ IsLine t' line)
  (hn : NoStepdown tiles t) (hn' : NoStepdown tiles t')
  (db db' db'' : PartDatabase) (hdb : Reachable tiles db) (hdb' : Reachable tiles db') (hdb'' : Reachable tiles db'')

include hl in
theorem written_whole (F : FasmFeature) : Written whole F ↔ Written t F ∨ Written t' F := by
  unfold Written
  simp only [hl]
  constructor
  · rintro ⟨line, st, n, h | h, h2⟩
    · exact Or.inl ⟨line, st, n, h, h2⟩
    · exact Or.inr ⟨line, st, n, h, h2⟩
  · rintro (⟨line, st, n, h, h2⟩ | ⟨line, st, n, h, h2⟩)
    · exact ⟨line, st, n, Or.inl h, h2⟩
    · exact ⟨line, st, n, Or.inr h, h2⟩

include hl in
theorem basic_whole (F : FasmFeature) : Basic tiles whole F ↔ Basic tiles t F ∨ Basic tiles t' F := by
  unfold Basic
  rw [written_whole t t' whole hl F]
  constructor
  · rintro (h | h | h)
    · exact Or.inl (Or.inl h)
    · exact Or.inl (Or.inr h)
    · exact Or.inr (Or.inr h)
  · rintro ((h | h) | h | h)
    · exact Or.inl h
    · exact Or.inr (Or.inl h)
    · exact Or.inl h
    · exact Or.inr (Or.inr h)

include hl hn hn' in
/-- Two parts without STEPDOWN make a whole without. -/
theorem C106_no_stepdown : NoStepdown tiles whole := by
  intro F tile site tag h1 h2
  rcases (basic_whole t t' whole hl F).1 h1 with h1 | h1
  · exact hn F tile site tag h1 h2
  · exact hn' F tile site tag h1 h2

include hl hn hn' in
theorem assembles_whole : Assembles tiles whole ↔ Assembles tiles t ∧ Assembles tiles t' := by
  have hw := C106_no_stepdown t t' whole hl hn hn'
  unfold Assembles LinesOk
  simp only [design_of_noStepdown hw, design_of_noStepdown hn, design_of_noStepdown hn', stepdownOk_of_noStepdown hw,
    stepdownOk_of_noStepdown hn, stepdownOk_of_noStepdown hn', true_and, basic_whole t t' whole hl, hl]
  constructor
  · rintro ⟨h1, h2, h5⟩
    exact ⟨⟨fun line h => h1 line (Or.inl h), fun F h => h2 F (Or.inl h), h5⟩, fun line h => h1 line (Or.inr h), fun F h => h2 F (Or.inr h), h5⟩
  · rintro ⟨⟨h1, h2, h5⟩, h3, h4, _⟩
    exact ⟨fun line h => h.elim (h1 line) (h3 line), fun F h => h.elim (h2 F) (h4 F), h5⟩

include hok hord hord' hord'' hl hn hn' hdb hdb' hdb''

/-- A design without STEPDOWN tags can be assembled exactly when each of its parts can. -/
theorem C106_both : (∃ r, assembleFrames ord'' whole db'' [] = .ok r) ↔
    (∃ r, assembleFrames ord t db [] = .ok r) ∧ ∃ r, assembleFrames ord' t' db' [] = .ok r := by
  rw [C50_succeeds hok ord hord t db hdb, C50_succeeds hok ord' hord' t' db' hdb',
    C50_succeeds hok ord'' hord'' whole db'' hdb'', assembles_whole t t' whole hl hn hn']

/-- Its frames are the frames of its parts, its bits the bits of its parts. -/
theorem C106_union (d d' d'' : PartDatabase) (fr fr' fr'' : Frames) (h : assembleFrames ord t db [] = .ok (d, fr))
    (h' : assembleFrames ord' t' db' [] = .ok (d', fr')) (h'' : assembleFrames ord'' whole db'' [] = .ok (d'', fr'')) :
    (∀ k w b, BitSet fr'' k w b ↔ BitSet fr k w b ∨ BitSet fr' k w b) ∧
    ∀ k, FramePresent fr'' k ↔ FramePresent fr k ∨ FramePresent fr' k := by
  have hw := C106_no_stepdown t t' whole hl hn hn'
  have e := C50_frames hok ord hord t db hdb d fr h
  have e' := C50_frames hok ord' hord' t' db' hdb' d' fr' h'
  have e'' := C50_frames hok ord'' hord'' whole db'' hdb'' d'' fr'' h''
  have hl' : ∀ tile c, Lists tiles (Design tiles whole) tile c ↔ Lists tiles (Design tiles t) tile c ∨ Lists tiles (Design tiles t') tile c := by
    intro tile c
    unfold Lists
    simp only [design_of_noStepdown hw, design_of_noStepdown hn, design_of_noStepdown hn', basic_whole t t' whole hl]
    constructor
    · rintro ⟨F, f, a, bs, h | h, h2⟩
      · exact Or.inl ⟨F, f, a, bs, h, h2⟩
      · exact Or.inr ⟨F, f, a, bs, h, h2⟩
    · rintro (⟨F, f, a, bs, h, h2⟩ | ⟨F, f, a, bs, h, h2⟩)
      · exact ⟨F, f, a, bs, Or.inl h, h2⟩
      · exact ⟨F, f, a, bs, Or.inr h, h2⟩
  constructor
  · intro k w b
    rw [e.2.1, e'.2.1, e''.2.1]
    constructor
    · rintro ⟨tile, c, h, h2⟩
      rcases (hl' tile c).1 h with h | h
      · exact Or.inl ⟨tile, c, h, h2⟩
      · exact Or.inr ⟨tile, c, h, h2⟩
    · rintro (⟨tile, c, h, h2⟩ | ⟨tile, c, h, h2⟩)
      · exact ⟨tile, c, (hl' tile c).2 (Or.inl h), h2⟩
      · exact ⟨tile, c, (hl' tile c).2 (Or.inr h), h2⟩
  · intro k
    rw [e.2.2, e'.2.2, e''.2.2]
    constructor
    · rintro ⟨tile, c, h, h2⟩
      rcases (hl' tile c).1 h with h | h
      · exact Or.inl ⟨tile, c, h, h2⟩
      · exact Or.inr ⟨tile, c, h, h2⟩
    · rintro (⟨tile, c, h, h2⟩ | ⟨tile, c, h, h2⟩)
      · exact ⟨tile, c, (hl' tile c).2 (Or.inl h), h2⟩
      · exact ⟨tile, c, (hl' tile c).2 (Or.inr h), h2⟩

end Union

/-! ## With STEPDOWN -/

section Adding
variable {tiles : Tiles} (hok : TilesOk tiles)
  (ord ord' : HashOrder) (hord : Permutes ord) (hord' : Permutes ord')
  (text text' : Bytes) (hl : LinesWithin text text')
  (db db' : PartDatabase) (hdb : Reachable tiles db) (hdb' : Reachable tiles db')

include hl in
/-- A statement of a design is one of a longer design, unless it is a STEPDOWN tag at a site the new lines configure. -/
theorem design_kept (F : FasmFeature) (h : Design tiles text F) : Design tiles text' F ∨
    (StepdownFeature tiles (Basic tiles text) F ∧
      ∃ tile site tag, F.name = tile ++ 0x2e :: site ++ 0x2e :: tag ∧ Occurs bytes!"STEPDOWN" tag ∧ NewlyUsed tiles text text' tile site) := by
  rcases h with h | h
  · exact Or.inl (Or.inl (basic_mono hl h))
  · by_cases hd : Design tiles text' F
    · exact Or.inl hd
    refine Or.inr ⟨h, ?_⟩
    obtain ⟨hm, ⟨bank, tag, ts, tile, t, pin, site, h1, h2, h3, h4, h5, h6, h7, h8, h9⟩ | ⟨bank, tag, ts, tile, h1, h2, h3, h4, h5⟩⟩ := h
    · refine ⟨tile, site, tag, h9, ?_, ?_⟩
      · obtain ⟨_, _, _, _, _, h, _⟩ := h1
        exact h
      · refine ⟨?_, h8⟩
        have hu : UsedSite (Basic tiles text') tile site := by
          refine Classical.byContradiction fun hu => hd (Or.inr ⟨hm, Or.inl ⟨bank, tag, ts, tile, t, pin, site, ?_, h2, h3, h4, h5, h6, h7, hu, h9⟩⟩)
          exact stepTag_mono (fun F => basic_mono hl) h1
        obtain ⟨G, t2, s2, tag2, g1, g2⟩ := hu
        have hnot : ¬ Basic tiles text G := fun hb => h8 ⟨G, t2, s2, tag2, hb, g2⟩
        rcases g1 with g1 | g1
        · exact absurd (Or.inl g1) hnot
        · exact ⟨G, t2, s2, tag2, ⟨g1, fun hw => hnot (Or.inr hw)⟩, g2⟩
    · exact absurd (Or.inr ⟨hm, Or.inr ⟨bank, tag, ts, tile, stepTag_mono (fun F => basic_mono hl) h1, h2, h3, h4, h5⟩⟩) hd

include hok hord hord' hl hdb hdb'

/-- Adding lines anywhere keeps every bit, except those that stand for a STEPDOWN tag the program had added at a site that the new lines configure. -/
theorem C106_kept (d d' : PartDatabase) (fr fr' : Frames) (h : assembleFrames ord text db [] = .ok (d, fr))
    (h' : assembleFrames ord' text' db' [] = .ok (d', fr')) (k w b : Nat) (hb : BitSet fr k w b) :
    BitSet fr' k w b ∨ ∃ F tile site tag c, StepdownFeature tiles (Basic tiles text) F ∧ F.name = tile ++ 0x2e :: site ++ 0x2e :: tag ∧
      Occurs bytes!"STEPDOWN" tag ∧ NewlyUsed tiles text text' tile site ∧ (∃ tl, Lists tiles (fun G => G = F) tl c) ∧
      c.value = true ∧ c.frame = k ∧ c.word = w ∧ c.index = b := by
  have e := C50_frames hok ord hord text db hdb d fr h
  have e' := C50_frames hok ord' hord' text' db' hdb' d' fr' h'
  rw [e.2.1] at hb
  rw [e'.2.1]
  obtain ⟨tl, c, ⟨F, f, a, bs, h1, h2⟩, hc⟩ := hb
  rcases design_kept text text' hl F h1 with h3 | ⟨h3, tile, site, tag, h4, h5, h6⟩
  · exact Or.inl ⟨tl, c, ⟨F, f, a, bs, h3, h2⟩, hc⟩
  · exact Or.inr ⟨F, tile, site, tag, c, h3, h4, h5, h6, ⟨tl, F, f, a, bs, rfl, h2⟩, hc⟩

/-- The same for whole frames. -/
theorem C106_frames_kept (d d' : PartDatabase) (fr fr' : Frames) (h : assembleFrames ord text db [] = .ok (d, fr))
    (h' : assembleFrames ord' text' db' [] = .ok (d', fr')) (k : Nat) (hb : FramePresent fr k) :
    FramePresent fr' k ∨ ∃ F tile site tag, StepdownFeature tiles (Basic tiles text) F ∧ F.name = tile ++ 0x2e :: site ++ 0x2e :: tag ∧
      Occurs bytes!"STEPDOWN" tag ∧ NewlyUsed tiles text text' tile site ∧ TouchesFrame tiles (fun G => G = F) k := by
  have e := C50_frames hok ord hord text db hdb d fr h
  have e' := C50_frames hok ord' hord' text' db' hdb' d' fr' h'
  rw [e.2.2] at hb
  rw [e'.2.2]
  obtain ⟨tl, c, ⟨F, f, a, bs, h1, h2⟩, hc⟩ := hb
  rcases design_kept text text' hl F h1 with h3 | ⟨h3, tile, site, tag, h4, h5, h6⟩
  · exact Or.inl ⟨tl, c, ⟨F, f, a, bs, h3, h2⟩, hc⟩
  · exact Or.inr ⟨F, tile, site, tag, h3, h4, h5, h6, tl, c, ⟨F, f, a, bs, rfl, h2⟩, hc⟩

/-- When a design that does not assemble does so after lines are added, a STEPDOWN tag the program added at a site the new lines configure was at fault. -/
theorem C106_repaired (hf : ∀ r, assembleFrames ord text db [] ≠ .ok r) (r : PartDatabase × Frames) (h' : assembleFrames ord' text' db' [] = .ok r) :
    ∃ F tile site tag, StepdownFeature tiles (Basic tiles text) F ∧ F.name = tile ++ 0x2e :: site ++ 0x2e :: tag ∧
      Occurs bytes!"STEPDOWN" tag ∧ NewlyUsed tiles text text' tile site ∧ ¬ FeatureOk tiles F := by
  have ha' := (C50_succeeds hok ord' hord' text' db' hdb').1 ⟨r, h'⟩
  have ha : ¬ Assembles tiles text := fun ha => by
    obtain ⟨r, h⟩ := (C50_succeeds hok ord hord text db hdb).2 ha
    exact hf r h
  refine Classical.byContradiction fun hno => ha ⟨fun line h => ha'.1 line (hl line h), ⟨?_, ?_⟩, ?_, ha'.2.2.2⟩
  · exact fun F tile site tag hF => ha'.2.1.1 F tile site tag (basic_mono hl hF)
  · exact fun bank tag ht => ha'.2.1.2 bank tag (stepTag_mono (fun F => basic_mono hl) ht)
  · intro F hF
    rcases design_kept text text' hl F hF with h | ⟨h3, tile, site, tag, h4, h5, h6⟩
    · exact ha'.2.2.1 F h
    · exact Classical.byContradiction fun hn => hno ⟨F, tile, site, tag, h3, h4, h5, h6, hn⟩

/-- So when the added lines configure no IOB33 site, nothing is lost and no failure is mended. -/
theorem C106_monotone (hu : ∀ tile site, ¬ UsedSite (fun F => Written text' F ∧ ¬ Written text F) tile site) :
    (∀ r', assembleFrames ord' text' db' [] = .ok r' → ∃ r, assembleFrames ord text db [] = .ok r ∧
      (∀ k w b, BitSet r.2 k w b → BitSet r'.2 k w b) ∧ ∀ k, FramePresent r.2 k → FramePresent r'.2 k) := by
  intro r' h'
  have : ∃ r, assembleFrames ord text db [] = .ok r := by
    refine Classical.byContradiction fun hn => ?_
    obtain ⟨_, tile, site, _, _, _, _, h, _⟩ := C106_repaired hok ord ord' hord hord' text text' hl db db' hdb hdb'
      (fun r h => hn ⟨r, h⟩) r' h'
    exact hu tile site h.1
  obtain ⟨r, h⟩ := this
  refine ⟨r, h, ?_, ?_⟩
  · intro k w b hb
    rcases C106_kept hok ord ord' hord hord' text text' hl db db' hdb hdb' r.1 r'.1 r.2 r'.2 h h' k w b hb with h1 | ⟨_, tile, site, _, _, _, _, _, h1, _⟩
    · exact h1
    · exact absurd h1.1 (hu tile site)
  · intro k hb
    rcases C106_frames_kept hok ord ord' hord hord' text text' hl db db' hdb hdb' r.1 r'.1 r.2 r'.2 h h' k hb with h1 | ⟨_, tile, site, _, _, _, _, h1, _⟩
    · exact h1
    · exact absurd h1.1 (hu tile site)

end Adding

/-! ## Examples -/

/-- The tiles of the example, with one more feature: `I.IOB_Y0.DRIVE`. -/
def driveTiles : Tiles :=
  { ioTiles with
    bits := fun ty => .ok (if ty = bytes!"X" then some demoSeg else if ty = bytes!"I" ∨ ty = bytes!"H" then
      some ⟨[], [(.clbIoClk, ((bytes!"I.IOB_Y0.DRIVE", 0), [⟨3, 3, true⟩]) :: ioSeg.segmentBits.flatMap (·.2))]⟩ else none) }

/-- `IOB33B.IOB_Y0.DRIVE`, which configures a site of bank 14. -/
def driveText : Bytes := bytes!"IOB33B.IOB_Y0.DRIVE\n"

theorem driveTiles_ok : TilesOk driveTiles := ioTiles_ok
/-- Adding a line can clear a bit: `IOB33B.IOB_Y0` gets the STEPDOWN tag of its bank as long as it is not configured (bit 0 of frame 0x200), and loses it
when it is. -/
theorem C106_cleared :
    ioWords (assembleFrames sameOrder ioText ⟨driveTiles, []⟩ []) =
      .ok [(0x100, [(0, 1)]), (0x101, [(0, 2)]), (0x102, []), (0x103, []), (0x200, [(0, 1)]), (0x201, [(0, 2)]),
        (0x202, []), (0x203, []), (0x300, []), (0x301, []), (0x302, [(0, 4)]), (0x303, []), (0x400103, [(3, 2)])] ∧
    ioWords (assembleFrames sameOrder (ioText ++ driveText) ⟨driveTiles, []⟩ []) =
      .ok [(0x100, [(0, 1)]), (0x101, [(0, 2)]), (0x102, []), (0x103, []), (0x200, []), (0x201, [(0, 2)]),
        (0x202, []), (0x203, [(0, 8)]), (0x300, []), (0x301, []), (0x302, [(0, 4)]), (0x303, []), (0x400103, [(3, 2)])] := by
  decide +kernel

theorem noStepdown_of {tiles : Tiles} {text : Bytes} (hp : firstPin tiles.grid = none) (r : List (List FasmFeature))
    (h : (getlines text).mapM plainLine = .ok r) (hn : ∀ F ∈ r.flatten, contains bytes!"STEPDOWN" F.name = false) : NoStepdown tiles text := by
  intro F tile site tag hF ht ho
  have hw : Written text F := by
    rcases hF with ⟨t, p, s, h1, _⟩ | h
    · rw [← firstPin_iff, hp] at h1
      cases h1
    · exact h
  have h1 := hn F (((parsed_inv text r h).2 F).2 hw)
  have h2 : Occurs bytes!"STEPDOWN" F.name := by
    obtain ⟨x, y, rfl⟩ := ho
    obtain ⟨_, _, _, _, e | ⟨rest, e⟩⟩ := ht
    · exact ⟨tile ++ 0x2e :: (site ++ 0x2e :: x), y, by rw [e]; simp⟩
    · exact ⟨tile ++ 0x2e :: (site ++ 0x2e :: x), y ++ 0x2e :: rest, by rw [e]; simp⟩
  rw [← contains_iff, h1] at h2
  cases h2

/-- Two parts without STEPDOWN. -/
theorem C106_parts_example : WholeLines bytes!"T.F\n" ∧ NoStepdown driveTiles bytes!"T.F\n" ∧ NoStepdown driveTiles driveText := by
  refine ⟨Or.inr ⟨bytes!"T.F", rfl⟩, noStepdown_of (by decide) _ rfl (by decide), noStepdown_of (by decide) _ rfl (by decide)⟩

/-- The parts and the whole: the bits of `T.F` and those of `IOB33B.IOB_Y0.DRIVE`. -/
example : ioWords (assembleFrames sameOrder bytes!"T.F\n" ⟨driveTiles, []⟩ []) = .ok [(0x400103, [(3, 2)])] ∧
    ioWords (assembleFrames sameOrder driveText ⟨driveTiles, []⟩ []) = .ok [(0x200, []), (0x201, []), (0x202, []), (0x203, [(0, 8)])] ∧
    ioWords (assembleFrames sameOrder (bytes!"T.F\n" ++ driveText) ⟨driveTiles, []⟩ []) =
      .ok [(0x200, []), (0x201, []), (0x202, []), (0x203, [(0, 8)]), (0x400103, [(3, 2)])] :=
  ⟨by decide +kernel, by decide +kernel, by decide +kernel⟩

/-- The theorems apply to them. -/
example : ∃ r r' r'', assembleFrames sameOrder bytes!"T.F\n" ⟨driveTiles, []⟩ [] = .ok r ∧
    assembleFrames sameOrder driveText ⟨driveTiles, []⟩ [] = .ok r' ∧
    assembleFrames sameOrder (bytes!"T.F\n" ++ driveText) ⟨driveTiles, []⟩ [] = .ok r'' ∧
    ∀ k w b, BitSet r''.2 k w b ↔ BitSet r.2 k w b ∨ BitSet r'.2 k w b := by
  obtain ⟨h1, h2, h3⟩ := C106_parts_example
  have hl := fun line => C106_lines bytes!"T.F\n" driveText line h1
  obtain ⟨r'', h''⟩ := (C106_both driveTiles_ok sameOrder sameOrder sameOrder sameOrder_permutes sameOrder_permutes sameOrder_permutes
    bytes!"T.F\n" driveText _ hl h2 h3 ⟨driveTiles, []⟩ ⟨driveTiles, []⟩ ⟨driveTiles, []⟩ .fresh .fresh .fresh).2 ⟨⟨_, rfl⟩, ⟨_, rfl⟩⟩
  refine ⟨_, _, r'', rfl, rfl, h'', ?_⟩
  exact (C106_union driveTiles_ok sameOrder sameOrder sameOrder sameOrder_permutes sameOrder_permutes sameOrder_permutes
    bytes!"T.F\n" driveText _ hl h2 h3 ⟨driveTiles, []⟩ ⟨driveTiles, []⟩ ⟨driveTiles, []⟩ .fresh .fresh .fresh _ _ _ _ _ _ rfl rfl h'').1

/-- The lines of the example with STEPDOWN are among those of the longer text. -/
example : LinesWithin ioText (ioText ++ driveText) := by
  intro line h
  exact (C106_lines ioText driveText line (Or.inr ⟨ioText.dropLast, rfl⟩)).2 (Or.inl h)

end Verif.Props
