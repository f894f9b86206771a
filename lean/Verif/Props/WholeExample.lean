import Verif.Props.C130
/-! # An example for C130

An `IOB33` tile that is an alias of type `X`, a second tile with the PUDC_B pin, and a design with one line, `IOB33.IOB_Y0.STEPDOWN`: the assembler
adds `STEPDOWN` for the other site of the tile and three features for the pin. -/
namespace Verif.Props
open Verif.Db Verif.Asm Verif.Spec Verif.Text Verif.Xc7

theorem first_dot : ∀ {a a' r r' : Bytes}, 0x2e ∉ a → 0x2e ∉ a' → a ++ 0x2e :: r = a' ++ 0x2e :: r' → a = a' ∧ r = r' := by
  intro a
  induction a with
  | nil =>
    intro a' r r' _ h' h
    cases a' with
    | nil => exact ⟨rfl, (List.cons.inj h).2⟩
    | cons c a' => exact absurd (by rw [← (List.cons.inj h).1]; simp) h'
  | cons c a ih =>
    intro a' r r' h0 h' h
    cases a' with
    | nil => exact absurd (by rw [(List.cons.inj h).1]; simp) h0
    | cons c' a' =>
      obtain ⟨e1, e2⟩ := List.cons.inj h
      obtain ⟨h1, h2⟩ := ih (fun m => h0 (List.mem_cons_of_mem _ m)) (fun m => h' (List.mem_cons_of_mem _ m)) e2
      exact ⟨by rw [e1, h1], h2⟩

/-- A name with two dots has one tag. -/
theorem tag_short {T S G tile site tag : Bytes} (h1 : 0x2e ∉ T) (h2 : 0x2e ∉ S) (h3 : 0x2e ∉ G) (h : TagOf (T ++ 0x2e :: (S ++ 0x2e :: G)) tile site tag) :
    tile = T ∧ site = S ∧ tag = G := by
  obtain ⟨a1, a2, a3, h | ⟨rest, h⟩⟩ := h
  · obtain ⟨e1, h⟩ := first_dot h1 a1 h
    obtain ⟨e2, h⟩ := first_dot h2 a2 h
    exact ⟨e1.symm, e2.symm, h.symm⟩
  · obtain ⟨e1, h⟩ := first_dot h1 a1 h
    obtain ⟨e2, h⟩ := first_dot h2 a2 h
    exact absurd (by rw [h]; simp) h3

/-- A name with more dots has one tag. -/
theorem tag_long {T S G R tile site tag : Bytes} (h1 : 0x2e ∉ T) (h2 : 0x2e ∉ S) (h3 : 0x2e ∉ G)
    (h : TagOf (T ++ 0x2e :: (S ++ 0x2e :: (G ++ 0x2e :: R))) tile site tag) : tile = T ∧ site = S ∧ tag = G := by
  obtain ⟨a1, a2, a3, h | ⟨rest, h⟩⟩ := h
  · obtain ⟨e1, h⟩ := first_dot h1 a1 h
    obtain ⟨e2, h⟩ := first_dot h2 a2 h
    exact absurd (by rw [← h]; simp) a3
  · obtain ⟨e1, h⟩ := first_dot h1 a1 h
    obtain ⟨e2, h⟩ := first_dot h2 a2 h
    obtain ⟨e3, h⟩ := first_dot h3 a3 h
    exact ⟨e1.symm, e2.symm, e3.symm⟩

/-! ## The directory -/

def yardAlias : BitsBlockAlias := ⟨[(bytes!"STEPDOWN", bytes!"SD")], 1, bytes!"X"⟩
def yardBlock : BitsBlock := { alias? := some yardAlias, baseAddress := 0, frames := 36, offset := 3, words := 2 }
def yardPinBlock : BitsBlock := { alias? := none, baseAddress := 0, frames := 36, offset := 4, words := 2 }

def yardTile : Db.Tile :=
  { type := bytes!"Y", x := 0, y := 0, clockRegion := none, bits := [(.clbIoClk, yardBlock)], pinFunctions := []
    sites := [(bytes!"IOB_X0Y0", bytes!"IOB33S"), (bytes!"IOB_X0Y1", bytes!"IOB33M")], prohibitedSites := [] }

def yardPinTile : Db.Tile :=
  { type := bytes!"X", x := 1, y := 0, clockRegion := none, bits := [(.clbIoClk, yardPinBlock)]
    pinFunctions := [(bytes!"IOB_X1Y1", bytes!"IO_L3P_PUDC_B_15")], sites := [], prohibitedSites := [] }

def yardGrid : TileGrid := [(bytes!"IOB33", yardTile), (bytes!"P", yardPinTile)]

def yardPins : PackagePins := [⟨bytes!"A2", 216, bytes!"S", bytes!"IOB33", bytes!"F"⟩]

def yardOnly : Bytes := bytes!"IOB_Y1.LVCMOS12_LVCMOS15_LVCMOS18_LVCMOS25_LVCMOS33_LVDS_25_LVTTL_SSTL135_SSTL15_TMDS_33.IN_ONLY"
def yardIn : Bytes := bytes!"IOB_Y1.LVCMOS25_LVCMOS33_LVTTL.IN"
def yardPull : Bytes := bytes!"IOB_Y1.PULLTYPE.PULLUP"

/-- The features of type `X`: name, column, bit. -/
def yardSegs : List (Bytes × UInt8 × UInt8) :=
  [(bytes!"X.IOB_Y0.SD", 0x31, 0x32), (bytes!"X.IOB_Y1.SD", 0x33, 0x39), (bytes!"X." ++ yardOnly, 0x30, 0x31), (bytes!"X." ++ yardIn, 0x30, 0x32),
   (bytes!"X." ++ yardPull, 0x35, 0x30)]

def yardLine (e : Bytes × UInt8 × UInt8) : Bytes := e.1 ++ bytes!" " ++ [e.2.1, 0x5f, e.2.2]
def yardEntry (e : Bytes × UInt8 × UInt8) : TileFeature × List SegmentBit := ((e.1, 0), [⟨e.2.1.toNat - 0x30, e.2.2.toNat - 0x30, true⟩])
def yardBits : List (TileFeature × List SegmentBit) := yardSegs.map yardEntry
def yardContents : TypeContents := ⟨some yardBits, none, [(bytes!"A.B", .hint)]⟩

def yardRow : Bytes := bytes!"A2, 216 ,S,IOB33,F"
def yardPinPath : Path := [bytes!"d", bytes!"p", kPackagePins]

def yardEnv : Env :=
  { dirEnv with
    read := fun p => if p = plantPath then some (unlines (yardSegs.map yardLine), none) else if p = yardPinPath then some (unlines [dirHeader, yardRow], none) else dirEnv.read p
    json := fun c => if c = bytes!"G" then some (gridObj yardGrid) else if c = bytes!"P" then some (partObj smallDesc) else none }

def yardStep : SourceLine := .statement (fun _ => []) ⟨bytes!"IOB33.IOB_Y0.STEPDOWN", .absent, .absent⟩ [] []
def yardInv : Invocation := { fileInv with stdin := sourceText [yardStep] }

theorem yard_read (p : Path) (h : p ≠ plantPath) (h' : p ≠ yardPinPath) : yardEnv.read p = dirEnv.read p := (if_neg h).trans (if_neg h')

theorem yard_lines {p : Path} {ls : List Bytes} (h : p ≠ plantPath) (h' : p ≠ yardPinPath) (hl : HasLines dirEnv p ls) : HasLines yardEnv p ls := by
  obtain ⟨c, b, h1, h2⟩ := hl
  exact ⟨c, b, (yard_read p h h').trans h1, h2⟩

theorem yard_pin_row : PinRow yardRow (some ⟨bytes!"A2", 216, bytes!"S", bytes!"IOB33", bytes!"F"⟩) := by
  refine PinRow.row _ _ bytes!"216" ?_ ?_
  · have h := cells_spec yardRow
    have e : segs yardRow = [bytes!"A2", bytes!"216", bytes!"S", bytes!"IOB33", bytes!"F"] := by decide +kernel
    rw [e] at h; exact h
  · exact ⟨[], [], bytes!"216", [], rfl, white_nil, white_nil, Or.inl rfl, ⟨by simp, by decide, rfl⟩, by decide⟩

theorem yard_valid : GridValid yardGrid := by
  refine ⟨by decide, ?_⟩
  intro e he
  rcases List.mem_cons.1 he with rfl | he
  · refine ⟨by decide, by decide, ⟨by decide, ?_⟩, by decide, by decide, by decide⟩
    intro b hb
    rw [show b = _ from List.mem_singleton.1 hb]
    refine ⟨by decide, by decide, by decide, by decide, ?_⟩
    intro a ha
    cases ha
    exact ⟨by decide, by decide⟩
  · rw [List.mem_singleton.1 he]
    refine ⟨by decide, by decide, ⟨by decide, ?_⟩, by decide, by decide, by decide⟩
    intro b hb
    rw [show b = _ from List.mem_singleton.1 hb]
    refine ⟨by decide, by decide, by decide, by decide, ?_⟩
    intro a ha; cases ha

theorem yard_dir : PartDir yardEnv [bytes!"d"] bytes!"p" yardGrid smallDesc yardPins where
  grid := by
    obtain ⟨ps, ds, h1, h2, h3⟩ := dir_table bytes!"p" (some ⟨bytes!"d", bytes!"f", bytes!"k", bytes!"1"⟩) (by decide)
    exact ⟨⟨bytes!"d", bytes!"f", bytes!"k", bytes!"1"⟩, ⟨ps, ds, yard_lines (by decide) (by decide) h1, yard_lines (by decide) (by decide) h2, h3⟩,
      (bytes!"G", none), _, rfl, rfl, grid_render _ yard_valid⟩
  part := by
    refine ⟨(bytes!"P", none), _, rfl, rfl, part_render _ ⟨by decide, ?_⟩⟩
    rintro half (rfl | rfl) <;> decide
  pins := by
    refine ⟨dirHeader, [(yardRow, some ⟨bytes!"A2", 216, bytes!"S", bytes!"IOB33", bytes!"F"⟩)],
      ⟨_, none, by decide +kernel, ⟨by decide, Or.inl rfl⟩, fun _ => rfl⟩, ?_, ?_, by decide, rfl⟩
    · have h := cells_spec dirHeader
      have e : segs dirHeader = headerCells := by decide +kernel
      rw [e] at h; exact h
    · intro r hr
      rw [List.mem_singleton.1 hr]
      exact yard_pin_row

theorem yard_seg : ∀ e ∈ yardSegs, SegLine (yardLine e) (some (yardEntry e)) := by
  have hf : ∀ e ∈ yardSegs, fields (yardLine e) = [e.1, [e.2.1, 0x5f, e.2.2]] := by decide +kernel
  have hu : ∀ e ∈ yardSegs, 0x5b ∉ e.1 := by decide +kernel
  have hd : ∀ e ∈ yardSegs, (0x30 ≤ e.2.1 ∧ e.2.1 ≤ 0x39) ∧ 0x30 ≤ e.2.2 ∧ e.2.2 ≤ 0x39 := by decide +kernel
  intro e he
  refine SegLine.entry _ e.1 _ [([e.2.1, 0x5f, e.2.2], ⟨e.2.1.toNat - 0x30, e.2.2.toNat - 0x30, true⟩)] ?_ (by simp) (Or.inr ⟨Or.inr (hu e he), rfl⟩) ?_
  · have h := fields_spec (yardLine e)
    rw [hf e he] at h; exact h
  · intro b hb
    rw [List.mem_singleton.1 hb]
    exact ⟨[e.2.1], [e.2.2], rfl, uint_single _ (hd e he).1, uint_single _ (hd e he).2⟩

theorem yard_type : TypeFiles yardEnv [bytes!"d"] bytes!"X" (some yardBits) none [(bytes!"A.B", .hint)] := by
  refine ⟨_, [bytes!"d", bytes!"f"], rfl, ⟨[], [], rfl, by simp⟩, ?_, ?_, ?_⟩
  · refine Or.inr ⟨by decide +kernel, yardSegs.map fun e => (yardLine e, some (yardEntry e)),
      ⟨unlines (yardSegs.map yardLine), none, by decide +kernel, ⟨by decide +kernel, Or.inl (by decide +kernel)⟩, fun _ => by decide +kernel⟩, ?_, by decide +kernel⟩
    intro l hl
    obtain ⟨e, he, rfl⟩ := List.mem_map.1 hl
    exact yard_seg e he
  · exact Or.inl ⟨by decide +kernel, rfl⟩
  · refine Or.inr ⟨by decide +kernel, [(dirPip, some (bytes!"A.B", .hint))],
      ⟨dirPip, some 0, by decide +kernel, ⟨by decide, Or.inr ⟨[], dirPip, rfl, by decide, rfl⟩⟩, fun h => by cases h⟩, ?_, rfl⟩
    intro l hl
    rw [List.mem_singleton.1 hl]
    exact examplePipLine

/-! ## What is asked for -/

theorem yard_tile {tile : Bytes} {t : Db.Tile} (h : yardGrid.lookup tile = some t) : (tile = bytes!"IOB33" ∧ t = yardTile) ∨ (tile = bytes!"P" ∧ t = yardPinTile) := by
  have hm := mem_of_lookup h
  rcases List.mem_cons.1 hm with e | hm
  · exact Or.inl ⟨(Prod.mk.inj e).1, (Prod.mk.inj e).2⟩
  · have e := List.mem_singleton.1 hm
    exact Or.inr ⟨(Prod.mk.inj e).1, (Prod.mk.inj e).2⟩

theorem yard_pudc_pin (tile pin : Bytes) : PudcPin yardGrid tile pin ↔ tile = bytes!"P" ∧ pin = bytes!"IOB_X1Y1" := by
  constructor
  · rintro ⟨info, fn, h1, h2, _⟩
    rcases List.mem_cons.1 h1 with e | h1
    · rw [(Prod.mk.inj e).2] at h2; cases h2
    · have e := List.mem_singleton.1 h1
      rw [(Prod.mk.inj e).2] at h2
      exact ⟨(Prod.mk.inj e).1, (Prod.mk.inj (List.mem_singleton.1 h2)).1⟩
  · rintro ⟨rfl, rfl⟩
    exact ⟨yardPinTile, _, by simp [yardGrid], List.mem_singleton.2 rfl, bytes!"IO_L3P_", bytes!"_15", rfl⟩

theorem yard_site (site : Bytes) : PudcSite bytes!"IOB_X1Y1" site ↔ site = bytes!"IOB_Y1" := by
  constructor
  · rintro ⟨pre, c, h, rfl⟩
    have := List.append_inj' (show bytes!"IOB_X1Y" ++ [0x31] = pre ++ [c] from h) rfl
    rw [← (List.cons.inj this.2).1]
    rfl
  · rintro rfl
    exact ⟨bytes!"IOB_X1Y", 0x31, rfl, rfl⟩

theorem yard_pudc (name : Bytes) : PudcName yardGrid name ↔ name = bytes!"P." ++ yardOnly ∨ name = bytes!"P." ++ yardIn ∨ name = bytes!"P." ++ yardPull := by
  have e : pudcNames bytes!"P" bytes!"IOB_Y1" = [bytes!"P." ++ yardOnly, bytes!"P." ++ yardIn, bytes!"P." ++ yardPull] := by decide +kernel
  constructor
  · rintro ⟨tile, pin, site, h1, h2, h3⟩
    obtain ⟨rfl, rfl⟩ := (yard_pudc_pin _ _).1 h1
    rw [(yard_site _).1 h2, e] at h3
    simpa using h3
  · intro h
    refine ⟨_, _, _, (yard_pudc_pin _ _).2 ⟨rfl, rfl⟩, (yard_site _).2 rfl, ?_⟩
    rw [e]
    simpa using h

theorem yard_sets (name : Bytes) (n : Nat) : yardStep.Sets name n ↔ name = bytes!"IOB33.IOB_Y0.STEPDOWN" ∧ n = 0 := by
  constructor
  · rintro ⟨h1, _, h2, _⟩
    exact ⟨h1.symm, Nat.le_zero.1 h2⟩
  · rintro ⟨rfl, rfl⟩
    exact ⟨rfl, by decide, by decide, by decide⟩

theorem yard_use (name : Bytes) : InUse yardGrid [yardStep] name ↔
    name = bytes!"IOB33.IOB_Y0.STEPDOWN" ∨ name = bytes!"P." ++ yardOnly ∨ name = bytes!"P." ++ yardIn ∨ name = bytes!"P." ++ yardPull := by
  unfold InUse
  rw [yard_pudc]
  constructor
  · rintro (⟨l, hl, n, h⟩ | h)
    · rw [List.mem_singleton.1 hl] at h
      exact Or.inl ((yard_sets _ _).1 h).1
    · exact Or.inr h
  · rintro (rfl | h)
    · exact Or.inl ⟨_, List.mem_singleton.2 rfl, 0, (yard_sets _ _).2 ⟨rfl, rfl⟩⟩
    · exact Or.inr h

theorem yard_tags (name tile site tag : Bytes) (h : InUse yardGrid [yardStep] name) (ht : TagOf name tile site tag) :
    (tile = bytes!"IOB33" ∧ site = bytes!"IOB_Y0" ∧ tag = bytes!"STEPDOWN") ∨ (tile = bytes!"P" ∧ site = bytes!"IOB_Y1" ∧
      (tag = bytes!"LVCMOS12_LVCMOS15_LVCMOS18_LVCMOS25_LVCMOS33_LVDS_25_LVTTL_SSTL135_SSTL15_TMDS_33" ∨ tag = bytes!"LVCMOS25_LVCMOS33_LVTTL" ∨ tag = bytes!"PULLTYPE")) := by
  rcases (yard_use name).1 h with rfl | rfl | rfl | rfl
  · exact Or.inl (tag_short (T := bytes!"IOB33") (S := bytes!"IOB_Y0") (G := bytes!"STEPDOWN") (by decide) (by decide) (by decide) ht)
  · have e : bytes!"P." ++ yardOnly = bytes!"P" ++ 0x2e :: (bytes!"IOB_Y1" ++ 0x2e ::
        (bytes!"LVCMOS12_LVCMOS15_LVCMOS18_LVCMOS25_LVCMOS33_LVDS_25_LVTTL_SSTL135_SSTL15_TMDS_33" ++ 0x2e :: bytes!"IN_ONLY")) := by decide +kernel
    rw [e] at ht
    obtain ⟨h1, h2, h3⟩ := tag_long (by decide) (by decide) (by decide) ht
    exact Or.inr ⟨h1, h2, Or.inl h3⟩
  · have e : bytes!"P." ++ yardIn = bytes!"P" ++ 0x2e :: (bytes!"IOB_Y1" ++ 0x2e :: (bytes!"LVCMOS25_LVCMOS33_LVTTL" ++ 0x2e :: bytes!"IN")) := by decide +kernel
    rw [e] at ht
    obtain ⟨h1, h2, h3⟩ := tag_long (by decide) (by decide) (by decide) ht
    exact Or.inr ⟨h1, h2, Or.inr (Or.inl h3)⟩
  · have e : bytes!"P." ++ yardPull = bytes!"P" ++ 0x2e :: (bytes!"IOB_Y1" ++ 0x2e :: (bytes!"PULLTYPE" ++ 0x2e :: bytes!"PULLUP")) := by decide +kernel
    rw [e] at ht
    obtain ⟨h1, h2, h3⟩ := tag_long (by decide) (by decide) (by decide) ht
    exact Or.inr ⟨h1, h2, Or.inr (Or.inr h3)⟩

theorem occurs_iff (sub s : Bytes) : Occurs sub s ↔ ∃ n ∈ List.range (s.length + 1), (s.drop n).take sub.length = sub := by
  constructor
  · rintro ⟨a, b, rfl⟩
    refine ⟨a.length, List.mem_range.2 (by simp only [List.length_append]; omega), ?_⟩
    rw [List.append_assoc, List.drop_left, List.take_left]
  · rintro ⟨n, _, h⟩
    refine ⟨s.take n, (s.drop n).drop sub.length, ?_⟩
    rw [List.append_assoc, show sub ++ (s.drop n).drop sub.length = s.drop n from by
      conv => lhs; lhs; rw [← h]
      exact List.take_append_drop _ _, List.take_append_drop]

theorem yard_step (name tile site tag : Bytes) (h : InUse yardGrid [yardStep] name) (ht : TagOf name tile site tag) (ho : Occurs bytes!"STEPDOWN" tag) :
    tile = bytes!"IOB33" ∧ site = bytes!"IOB_Y0" ∧ tag = bytes!"STEPDOWN" := by
  rcases yard_tags _ _ _ _ h ht with h | ⟨_, _, rfl | rfl | rfl⟩
  · exact h
  all_goals exact absurd ((occurs_iff _ _).1 ho) (by decide +kernel)

theorem yard_head (bank : Nat) : HeadBank smallDesc yardPins bytes!"IOB33" bank ↔ bank = 216 := by
  constructor
  · rintro (⟨loc, h, _⟩ | ⟨_, before, p, behind, h1, _, h3, _⟩)
    · cases h
    · cases before with
      | nil => rw [← h3, ← (List.cons.inj h1).1]
      | cons q before => exact absurd (List.cons.inj h1).2 (by simp)
  · rintro rfl
    exact Or.inr ⟨(fun e he => by cases he), [], _, [], rfl, rfl, rfl, (fun q hq => by cases hq)⟩

theorem yard_tag : TagOf bytes!"IOB33.IOB_Y0.STEPDOWN" bytes!"IOB33" bytes!"IOB_Y0" bytes!"STEPDOWN" := ⟨by decide, by decide, by decide, Or.inl (by decide)⟩

theorem yard_used (bank : Nat) (tag : Bytes) : StepUsed yardGrid smallDesc yardPins [yardStep] bank tag ↔ bank = 216 ∧ tag = bytes!"STEPDOWN" := by
  constructor
  · rintro ⟨name, tile, site, h1, h2, h3, h4⟩
    obtain ⟨rfl, rfl, rfl⟩ := yard_step _ _ _ _ h1 h2 h3
    exact ⟨(yard_head _).1 h4, rfl⟩
  · rintro ⟨rfl, rfl⟩
    exact ⟨_, _, _, (yard_use _).2 (Or.inl rfl), yard_tag, ⟨[], [], rfl⟩, (yard_head _).2 rfl⟩

theorem yard_bank (bank : Nat) (tile : Bytes) : InBank smallDesc yardPins bank tile ↔ bank = 216 ∧ tile = bytes!"IOB33" := by
  constructor
  · rintro (⟨p, h1, h2, h3⟩ | ⟨loc, h, _⟩)
    · rw [List.mem_singleton.1 h1] at h2 h3
      exact ⟨h2.symm, h3.symm⟩
    · cases h
  · rintro ⟨rfl, rfl⟩
    exact Or.inl ⟨_, List.mem_singleton.2 rfl, rfl, rfl⟩

theorem yard_iob (pin site : Bytes) (h : pin ∈ yardTile.sites.map (·.1)) : IobName pin site ↔
    (pin = bytes!"IOB_X0Y0" ∧ site = bytes!"IOB_Y0") ∨ (pin = bytes!"IOB_X0Y1" ∧ site = bytes!"IOB_Y1") := by
  have hp : pin = bytes!"IOB_X0Y0" ∨ pin = bytes!"IOB_X0Y1" := by simpa [yardTile] using h
  constructor
  · rintro ⟨pre, c, h1, h2, rfl⟩
    rcases hp with rfl | rfl
    · have := List.append_inj' (show bytes!"IOB_X0Y" ++ [0x30] = pre ++ [c] from h1) rfl
      rw [← (List.cons.inj this.2).1]
      exact Or.inl ⟨rfl, rfl⟩
    · have := List.append_inj' (show bytes!"IOB_X0Y" ++ [0x31] = pre ++ [c] from h1) rfl
      rw [← (List.cons.inj this.2).1]
      exact Or.inr ⟨rfl, rfl⟩
  · rintro (⟨rfl, rfl⟩ | ⟨rfl, rfl⟩)
    · exact ⟨bytes!"IOB_X0Y", 0x30, rfl, by decide, rfl⟩
    · exact ⟨bytes!"IOB_X0Y", 0x31, rfl, by decide, rfl⟩

theorem yard_site_used (tile site : Bytes) (h1 : 0x2e ∉ tile) : SiteUsed yardGrid [yardStep] tile site ↔ tile = bytes!"IOB33" ∧ site = bytes!"IOB_Y0" := by
  constructor
  · rintro ⟨name, t, s, tag, h2, h3, h4, h5⟩
    obtain ⟨rfl, rfl⟩ := first_dot h3.1 h1 h5
    rcases yard_tags _ _ _ _ h2 h3 with ⟨rfl, rfl, _⟩ | ⟨rfl, _⟩
    · exact ⟨rfl, rfl⟩
    · exact absurd ((occurs_iff _ _).1 h4) (by decide +kernel)
  · rintro ⟨rfl, rfl⟩
    exact ⟨_, _, _, _, (yard_use _).2 (Or.inl rfl), yard_tag, ⟨[], [], rfl⟩, rfl⟩

theorem yard_added (name : Bytes) : Added yardGrid smallDesc yardPins [yardStep] name ↔
    name = bytes!"IOB33.IOB_Y1.STEPDOWN" ∨ name = bytes!"P." ++ yardOnly ∨ name = bytes!"P." ++ yardIn ∨ name = bytes!"P." ++ yardPull := by
  constructor
  · intro h
    cases h with
    | pudc h => exact Or.inr ((yard_pudc _).1 h)
    | site h1 h2 h3 h4 h5 h6 h7 =>
      obtain ⟨rfl, rfl⟩ := (yard_used _ _).1 h1
      obtain ⟨_, rfl⟩ := (yard_bank _ _).1 h2
      rcases yard_tile h4 with ⟨_, rfl⟩ | ⟨h, _⟩
      · rcases (yard_iob _ _ h5).1 h6 with ⟨_, rfl⟩ | ⟨_, rfl⟩
        · exact absurd ((yard_site_used _ _ (by decide)).2 ⟨rfl, rfl⟩) h7
        · exact Or.inl (by decide)
      · exact absurd h (by decide)
    | bank h1 h2 h3 =>
      obtain ⟨_, rfl⟩ := (yard_bank _ _).1 h2
      exact absurd ((occurs_iff _ _).1 h3) (by decide +kernel)
  · rintro (rfl | h)
    · have := Added.site (grid := yardGrid) (part := smallDesc) (pins := yardPins) (ls := [yardStep]) (bank := 216) (tag := bytes!"STEPDOWN") (tile := bytes!"IOB33")
        (t := yardTile) (pin := bytes!"IOB_X0Y1") (site := bytes!"IOB_Y1") ((yard_used _ _).2 ⟨rfl, rfl⟩) ((yard_bank _ _).2 ⟨rfl, rfl⟩) ⟨[], [], rfl⟩ rfl
        (by simp [yardTile]) ((yard_iob _ _ (by simp [yardTile])).2 (Or.inr ⟨rfl, rfl⟩))
        (fun h => absurd ((yard_site_used _ _ (by decide)).1 h).2 (by decide))
      exact this
    · exact .pudc ((yard_pudc _).2 h)

/-- What the design asks for: tile, feature, and the name under which the type has it. -/
def yardAsked : List (Bytes × Bytes × Bytes) :=
  [(bytes!"IOB33", bytes!"IOB_Y0.STEPDOWN", bytes!"IOB_Y0.SD"), (bytes!"IOB33", bytes!"IOB_Y1.STEPDOWN", bytes!"IOB_Y1.SD"), (bytes!"P", yardOnly, yardOnly),
   (bytes!"P", yardIn, yardIn), (bytes!"P", yardPull, yardPull)]

theorem yard_wants (tile feature : Bytes) (addr : Nat) :
    WantsBit yardGrid smallDesc yardPins [yardStep] tile feature addr ↔ addr = 0 ∧ ∃ e ∈ yardAsked, tile = e.1 ∧ feature = e.2.1 := by
  have names : ∀ e ∈ yardAsked, 0x2e ∉ e.1 ∧ (e.1 ++ 0x2e :: e.2.1 = bytes!"IOB33.IOB_Y0.STEPDOWN" ∨ e.1 ++ 0x2e :: e.2.1 = bytes!"IOB33.IOB_Y1.STEPDOWN" ∨
      e.1 ++ 0x2e :: e.2.1 = bytes!"P." ++ yardOnly ∨ e.1 ++ 0x2e :: e.2.1 = bytes!"P." ++ yardIn ∨ e.1 ++ 0x2e :: e.2.1 = bytes!"P." ++ yardPull) := by decide +kernel
  have cut : 0x2e ∉ tile → (tile ++ 0x2e :: feature = bytes!"IOB33.IOB_Y0.STEPDOWN" ∨ tile ++ 0x2e :: feature = bytes!"IOB33.IOB_Y1.STEPDOWN" ∨
      tile ++ 0x2e :: feature = bytes!"P." ++ yardOnly ∨ tile ++ 0x2e :: feature = bytes!"P." ++ yardIn ∨ tile ++ 0x2e :: feature = bytes!"P." ++ yardPull) →
      ∃ e ∈ yardAsked, tile = e.1 ∧ feature = e.2.1 := by
    intro h0 h
    rcases h with h | h | h | h | h
    · exact ⟨_, List.mem_cons_self, first_dot h0 (by decide) (h.trans (show bytes!"IOB33.IOB_Y0.STEPDOWN" = bytes!"IOB33" ++ 0x2e :: bytes!"IOB_Y0.STEPDOWN" by decide))⟩
    · exact ⟨_, List.mem_cons_of_mem _ List.mem_cons_self,
        first_dot h0 (by decide) (h.trans (show bytes!"IOB33.IOB_Y1.STEPDOWN" = bytes!"IOB33" ++ 0x2e :: bytes!"IOB_Y1.STEPDOWN" by decide))⟩
    · exact ⟨(bytes!"P", yardOnly, yardOnly), by decide +kernel, first_dot h0 (by decide) (h.trans (show bytes!"P." ++ yardOnly = bytes!"P" ++ 0x2e :: yardOnly by decide +kernel))⟩
    · exact ⟨(bytes!"P", yardIn, yardIn), by decide +kernel, first_dot h0 (by decide) (h.trans (show bytes!"P." ++ yardIn = bytes!"P" ++ 0x2e :: yardIn by decide +kernel))⟩
    · exact ⟨(bytes!"P", yardPull, yardPull), by decide +kernel, first_dot h0 (by decide) (h.trans (show bytes!"P." ++ yardPull = bytes!"P" ++ 0x2e :: yardPull by decide +kernel))⟩
  constructor
  · rintro ⟨h0, ⟨l, hl, hs⟩ | ⟨rfl, h⟩⟩
    · rw [List.mem_singleton.1 hl] at hs
      obtain ⟨h1, rfl⟩ := (yard_sets _ _).1 hs
      exact ⟨rfl, cut h0 (Or.inl h1)⟩
    · exact ⟨rfl, cut h0 (Or.inr ((yard_added _).1 h))⟩
  · rintro ⟨rfl, e, he, rfl, rfl⟩
    obtain ⟨h1, h2 | h2⟩ := names e he
    · exact ⟨h1, Or.inl ⟨_, List.mem_singleton.2 rfl, (yard_sets _ _).2 ⟨h2, rfl⟩⟩⟩
    · exact ⟨h1, Or.inr ⟨rfl, (yard_added _).2 h2⟩⟩

/-! ## What the files have for it -/

def yardBlockOf (tile : Bytes) : BitsBlock := if tile = bytes!"IOB33" then yardBlock else yardPinBlock

/-- The bits of the type. -/
def yardHas : List (Bytes × SegmentBit) :=
  [(bytes!"IOB_Y0.SD", ⟨1, 2, true⟩), (bytes!"IOB_Y1.SD", ⟨3, 9, true⟩), (yardOnly, ⟨0, 1, true⟩), (yardIn, ⟨0, 2, true⟩), (yardPull, ⟨5, 0, true⟩)]

theorem yard_known (tile feature f : Bytes) (t : Db.Tile) (ty g : Bytes) (h : (tile, feature, f) ∈ yardAsked) (ht : yardGrid.lookup tile = some t) :
    KnownAs t feature ty g ↔ ty = bytes!"X" ∧ g = f := by
  simp only [yardAsked, List.mem_cons, Prod.mk.injEq, List.not_mem_nil, or_false] at h
  have stepped : ∀ head : Bytes, 0x2e ∉ head → ∀ g, Renamed yardAlias.sites (head ++ 0x2e :: bytes!"STEPDOWN") g ↔ g = head ++ 0x2e :: bytes!"SD" := by
    intro head h0 g
    constructor
    · rintro (⟨head', site, to, h1, h2, h3, rfl⟩ | ⟨h1, _⟩)
      · obtain ⟨rfl, rfl⟩ := first_dot h0 h2 h1
        rw [show to = bytes!"SD" from (Option.some.inj h3).symm]
      · exact absurd rfl (h1 head bytes!"STEPDOWN" bytes!"SD" rfl h0)
    · rintro rfl
      exact Or.inl ⟨head, _, _, rfl, h0, rfl, rfl⟩
  have aliased : ∀ head : Bytes, 0x2e ∉ head → (KnownAs yardTile (head ++ 0x2e :: bytes!"STEPDOWN") ty g ↔ ty = bytes!"X" ∧ g = head ++ 0x2e :: bytes!"SD") := by
    intro head h0
    constructor
    · rintro (⟨h1, _⟩ | ⟨pre, bus, block, a, post, h1, h2, _, h3, h4⟩)
      · exact absurd (h1 _ (List.mem_singleton.2 rfl)) (by simp [yardBlock])
      · have hb : (bus, block) ∈ yardTile.bits := by rw [h1]; simp
        have e := List.mem_singleton.1 hb
        rw [(Prod.mk.inj e).2] at h2
        cases h2
        exact ⟨h3, (stepped head h0 g).1 h4⟩
    · rintro ⟨rfl, rfl⟩
      exact Or.inr ⟨[], .clbIoClk, yardBlock, yardAlias, [], rfl, rfl, (fun e he => by cases he), rfl, (stepped head h0 _).2 rfl⟩
  have plain : KnownAs yardPinTile feature ty g ↔ ty = bytes!"X" ∧ g = feature := by
    constructor
    · rintro (⟨_, h1, h2⟩ | ⟨pre, bus, block, a, post, h1, h2, _⟩)
      · exact ⟨h1, h2⟩
      · have hb : (bus, block) ∈ yardPinTile.bits := by rw [h1]; simp
        rw [(Prod.mk.inj (List.mem_singleton.1 hb)).2] at h2
        cases h2
    · rintro ⟨rfl, rfl⟩
      exact Or.inl ⟨(fun e he => by rw [List.mem_singleton.1 he]; rfl), rfl, rfl⟩
  rcases h with ⟨rfl, rfl, rfl⟩ | ⟨rfl, rfl, rfl⟩ | ⟨rfl, rfl, rfl⟩ | ⟨rfl, rfl, rfl⟩ | ⟨rfl, rfl, rfl⟩
  · rw [show t = yardTile from (Option.some.inj ht).symm]
    exact aliased bytes!"IOB_Y0" (by decide)
  · rw [show t = yardTile from (Option.some.inj ht).symm]
    exact aliased bytes!"IOB_Y1" (by decide)
  all_goals
    rw [show t = yardPinTile from (Option.some.inj ht).symm]
    exact plain

theorem yard_pip (tile feature f : Bytes) (h : (tile, feature, f) ∈ yardAsked) : ¬ yardContents.Pip tile bytes!"X" f := by
  have hn : ∀ e ∈ yardAsked, yardContents.pips.lookup (e.1 ++ 0x2e :: e.2.2) = none ∧ yardContents.pips.lookup (bytes!"X" ++ 0x2e :: e.2.2) = none := by decide +kernel
  obtain ⟨h1, h2⟩ := hn _ h
  rintro ⟨v, h | h⟩
  · cases h1.symm.trans h
  · cases h2.symm.trans h

/-- What is asked for, the block it is in and its bit. -/
def yardAll : List (Bytes × Bytes × Bytes × BitsBlock × SegmentBit) :=
  [(bytes!"IOB33", bytes!"IOB_Y0.STEPDOWN", bytes!"IOB_Y0.SD", yardBlock, ⟨1, 2, true⟩), (bytes!"IOB33", bytes!"IOB_Y1.STEPDOWN", bytes!"IOB_Y1.SD", yardBlock, ⟨3, 9, true⟩),
   (bytes!"P", yardOnly, yardOnly, yardPinBlock, ⟨0, 1, true⟩), (bytes!"P", yardIn, yardIn, yardPinBlock, ⟨0, 2, true⟩), (bytes!"P", yardPull, yardPull, yardPinBlock, ⟨5, 0, true⟩)]

theorem yard_lists (tile feature f : Bytes) (block : BitsBlock) (s : SegmentBit) (h : (tile, feature, f, block, s) ∈ yardAll) (block' : BitsBlock) (s' : SegmentBit) :
    FileBits yardGrid (fun _ => yardContents) tile feature 0 block' s' ↔ block' = block ∧ s' = s := by
  have ha : ∀ e ∈ yardAll, (e.1, e.2.1, e.2.2.1) ∈ yardAsked ∧ (yardGrid.lookup e.1).map (·.bits) = some [(.clbIoClk, e.2.2.2.1)] ∧
      yardBits.lookup (bytes!"X" ++ 0x2e :: e.2.2.1, 0) = some [e.2.2.2.2] := by decide +kernel
  obtain ⟨h1, h2, h3⟩ := ha _ h
  obtain ⟨t, h4, h5⟩ := Option.map_eq_some_iff.1 h2
  dsimp only at h1 h3 h4 h5
  constructor
  · rintro ⟨t', ty, g, bus, bits, g1, g2, g3, g4, g5, g6⟩
    obtain rfl := Option.some.inj (h4.symm.trans g1)
    obtain ⟨rfl, rfl⟩ := (yard_known _ _ _ _ _ _ h1 h4).1 g2
    rw [h5] at g4
    obtain ⟨rfl, rfl⟩ := Prod.mk.inj (List.mem_singleton.1 g4)
    rcases g5 with ⟨_, es, he, hb⟩ | ⟨hb, _⟩
    · cases he
      rw [← Option.some.inj (h3.symm.trans hb)] at g6
      exact ⟨rfl, List.mem_singleton.1 g6⟩
    · cases hb
  · rintro ⟨rfl, rfl⟩
    exact ⟨t, bytes!"X", f, .clbIoClk, _, h4, (yard_known _ _ _ _ _ _ h1 h4).2 ⟨rfl, rfl⟩, yard_pip _ _ _ h1, by rw [h5]; simp,
      Or.inl ⟨rfl, yardBits, rfl, h3⟩, List.mem_singleton.2 rfl⟩

theorem yard_all {tile feature : Bytes} {addr : Nat} (h : WantsBit yardGrid smallDesc yardPins [yardStep] tile feature addr) :
    addr = 0 ∧ ∃ f block s, (tile, feature, f, block, s) ∈ yardAll := by
  have ha : ∀ e ∈ yardAsked, ∃ x ∈ yardAll, (x.1, x.2.1) = (e.1, e.2.1) := by decide +kernel
  obtain ⟨h0, e, he, rfl, rfl⟩ := (yard_wants _ _ _).1 h
  obtain ⟨⟨a, b, c, d, s⟩, hx, h1⟩ := ha e he
  obtain ⟨rfl, rfl⟩ := Prod.mk.inj h1
  exact ⟨h0, c, d, s, hx⟩

theorem yard_asks {tile feature f : Bytes} {block : BitsBlock} {s : SegmentBit} (h : (tile, feature, f, block, s) ∈ yardAll) :
    WantsBit yardGrid smallDesc yardPins [yardStep] tile feature 0 := by
  have ha : ∀ e ∈ yardAll, (e.1, e.2.1, e.2.2.1) ∈ yardAsked := by decide +kernel
  exact (yard_wants _ _ _).2 ⟨rfl, _, ha _ h, rfl, rfl⟩

/-- Where the five bits are. -/
theorem yard_lies (tile feature f : Bytes) (block : BitsBlock) (s : SegmentBit) (h : (tile, feature, f, block, s) ∈ yardAll) (k w b : Nat) :
    Lies block s k w b ↔ k = (block.baseAddress + s.wordColumn) % 2 ^ 32 ∧ w = bitPos block s / 32 ∧ b = bitPos block s % 32 := by
  rw [lies_iff]
  constructor
  · rintro ⟨rfl, rfl, rfl⟩; exact ⟨rfl, rfl, rfl⟩
  · rintro ⟨rfl, rfl, rfl⟩; exact ⟨rfl, rfl, rfl⟩

theorem yard_settled : SettledFiles yardGrid smallDesc where
  aliases := by
    intro tile t ht e he e' he' a a' h1 h2
    have single : ∀ (t : Db.Tile) (x : ConfigBusType × BitsBlock), t.bits = [x] → e ∈ t.bits → e' ∈ t.bits → e = x ∧ e' = x := by
      intro t x hx h h'
      rw [hx] at h h'
      exact ⟨List.mem_singleton.1 h, List.mem_singleton.1 h'⟩
    rcases yard_tile ht with ⟨_, rfl⟩ | ⟨_, rfl⟩
    · obtain ⟨rfl, rfl⟩ := single yardTile (.clbIoClk, yardBlock) rfl he he'
      cases h1; cases h2
      exact ⟨rfl, fun _ => rfl⟩
    · obtain ⟨rfl, rfl⟩ := single yardPinTile (.clbIoClk, yardPinBlock) rfl he he'
      cases h1
  onePudc := by
    intro t p t' p' h h'
    obtain ⟨rfl, rfl⟩ := (yard_pudc_pin _ _).1 h
    obtain ⟨rfl, rfl⟩ := (yard_pudc_pin _ _).1 h'
    exact ⟨rfl, rfl⟩
  banks := by decide
  buses := plant_buses

theorem yard_files : WholeFiles yardEnv bytes!"d" bytes!"p" yardGrid smallDesc yardPins (fun _ => yardContents) [yardStep] where
  dir := yard_dir
  listed := ⟨_, rfl⟩
  types := by
    intro tile feature addr t ty f hw ht hk
    obtain ⟨_, g, block, s, hm⟩ := yard_all hw
    have ha : ∀ e ∈ yardAll, (e.1, e.2.1, e.2.2.1) ∈ yardAsked := by decide +kernel
    obtain ⟨rfl, _⟩ := (yard_known _ _ _ _ _ _ (ha _ hm) ht).1 hk
    exact yard_type
  settled := yard_settled

theorem yard_suffice : FilesSuffice yardGrid smallDesc yardPins (fun _ => yardContents) [yardStep] where
  banks := by
    intro name tile site tag h1 h2 h3
    obtain ⟨rfl, _⟩ := yard_step _ _ _ _ h1 h2 h3
    exact ⟨216, (yard_head _).2 rfl⟩
  sites := by
    intro bank tag tile _ h2 _
    obtain ⟨_, rfl⟩ := (yard_bank _ _).1 h2
    refine ⟨yardTile, rfl, fun pin hp => ?_⟩
    have : pin = bytes!"IOB_X0Y0" ∨ pin = bytes!"IOB_X0Y1" := by simpa [yardTile] using hp
    rcases this with rfl | rfl
    · exact ⟨_, (yard_iob _ _ hp).2 (Or.inl ⟨rfl, rfl⟩)⟩
    · exact ⟨_, (yard_iob _ _ hp).2 (Or.inr ⟨rfl, rfl⟩)⟩
  bits := by
    intro tile feature addr h
    obtain ⟨rfl, f, block, s, hm⟩ := yard_all h
    obtain ⟨t, ty, g, bus, bits, g1, g2, g3, g4, g5, _⟩ := (yard_lists _ _ _ _ _ hm block s).2 ⟨rfl, rfl⟩
    refine ⟨⟨t, ty, g, g1, g2, Or.inr ⟨bus, block, bits, g4, g5⟩⟩, fun block' s' k w b hl hi _ => ?_⟩
    obtain ⟨rfl, rfl⟩ := (yard_lists _ _ _ _ _ hm _ _).1 hl
    have small : ∀ e ∈ yardAll, bitPos e.2.2.2.1 e.2.2.2.2 / 32 < 101 := by decide +kernel
    rw [((yard_lies _ _ _ _ _ hm _ _ _).1 hi).2.1]
    exact small _ hm
  pudc := by
    intro tile pin h
    obtain ⟨_, rfl⟩ := (yard_pudc_pin _ _).1 h
    decide

/-- The five bits: frame, word, bit. -/
def yardPlaces : List (Nat × Nat × Nat) := [(1, 2, 2), (3, 2, 9), (0, 4, 1), (0, 4, 2), (5, 4, 0)]

/-- The bits the files list for the design, as places in the memory of the device. -/
theorem yard_bits (k w b : Nat) : (∃ tile feature addr block s, WantsBit yardGrid smallDesc yardPins [yardStep] tile feature addr ∧
    FileBits yardGrid (fun _ => yardContents) tile feature addr block s ∧ s.isSet = true ∧ Lies block s k w b) ↔ (k, w, b) ∈ yardPlaces := by
  have places : ∀ e ∈ yardAll, e.2.2.2.2.isSet = true ∧
      ((e.2.2.2.1.baseAddress + e.2.2.2.2.wordColumn) % 2 ^ 32, bitPos e.2.2.2.1 e.2.2.2.2 / 32, bitPos e.2.2.2.1 e.2.2.2.2 % 32) ∈ yardPlaces := by decide +kernel
  have back : ∀ x ∈ yardPlaces, ∃ e ∈ yardAll,
      x = ((e.2.2.2.1.baseAddress + e.2.2.2.2.wordColumn) % 2 ^ 32, bitPos e.2.2.2.1 e.2.2.2.2 / 32, bitPos e.2.2.2.1 e.2.2.2.2 % 32) := by decide +kernel
  constructor
  · rintro ⟨tile, feature, addr, block, s, hw, hl, _, hi⟩
    obtain ⟨rfl, f, block', s', hm⟩ := yard_all hw
    obtain ⟨rfl, rfl⟩ := (yard_lists _ _ _ _ _ hm _ _).1 hl
    obtain ⟨rfl, rfl, rfl⟩ := (yard_lies _ _ _ _ _ hm _ _ _).1 hi
    exact (places _ hm).2
  · intro h
    obtain ⟨⟨tile, feature, f, block, s⟩, hm, h⟩ := back _ h
    have e1 := (Prod.mk.inj h).1
    have e2 := Prod.mk.inj (Prod.mk.inj h).2
    exact ⟨tile, feature, 0, block, s, yard_asks hm, (yard_lists _ _ _ _ _ hm _ _).2 ⟨rfl, rfl⟩, (places _ hm).1, (yard_lies _ _ _ _ _ hm _ _ _).2 ⟨e1, e2.1, e2.2⟩⟩

theorem yard_ok : ∀ l ∈ [yardStep], l.Ok ∧ l.Dotted := by
  intro l hl
  rw [List.mem_singleton.1 hl]
  exact ⟨⟨fun _ c hc => (by cases hc), ⟨by decide, (by unfold NameChar; decide), trivial, trivial⟩, Or.inl (by decide), ⟨by simp, Or.inl rfl⟩, by simp⟩,
    (show (0x2e : UInt8) ∈ bytes!"IOB33.IOB_Y0.STEPDOWN" by decide)⟩

/-- All frames the files name are among the first 36. -/
theorem yard_inside {tile feature : Bytes} {addr : Nat} {block : BitsBlock} {s : SegmentBit} {k : Nat}
    (hw : WantsBit yardGrid smallDesc yardPins [yardStep] tile feature addr) (hl : FileBits yardGrid (fun _ => yardContents) tile feature addr block s)
    (hf : Fills block s k) : k < 36 := by
  obtain ⟨rfl, f, block', s', hm⟩ := yard_all hw
  obtain ⟨rfl, rfl⟩ := (yard_lists _ _ _ _ _ hm _ _).1 hl
  have hb : ∀ e ∈ yardAll, e.2.2.2.1.baseAddress = 0 ∧ e.2.2.2.1.frames = 36 ∧ e.2.2.2.2.wordColumn < 36 := by decide +kernel
  obtain ⟨b1, b2, b3⟩ := hb _ hm
  dsimp only at b1 b2 b3
  rcases hf with rfl | ⟨i, hi, rfl⟩ <;> omega

/-- The design `IOB33.IOB_Y0.STEPDOWN`: the device ends up with five bits set, two for STEPDOWN and three for the PUDC_B pin. -/
example (load : LoadOrder) (hload : LoadOk load) (ord : HashOrder) (hord : Permutes ord) :
    ∃ (p : Xc7.Part) (walk : BMap (FrameWords 101)), Part.fromPart smallDesc = .ok p ∧ WalkFrom p 0#32 walk ∧ ∃ fuel0, ∀ fuel ≥ fuel0, ∃ o file words data,
      main yardEnv load ord yardInv ⟨[], 0, true, false⟩ fuel = some (.ok (0, o)) ∧
      readBitFile o.bytes = some file ∧
      file.config = fileBytes (List.replicate 8 0xFFFFFFFF#32 ++ [0x000000BB#32, 0x11220044#32] ++
        List.replicate 2 0xFFFFFFFF#32 ++ [0xAA995566#32] ++ words) ∧
      (Device.run p.idcode words).loaded = [(0, data)] ∧
      ∀ (i k : Nat), (walk.map (·.1))[i]? = some k → ∀ w b, w < 101 →
        ((∃ x, data[slot 101 p walk i + w]? = some x ∧ x.getLsbD b = true) ↔ (k, w, b) ∈ yardPlaces) := by
  have hfits := fits_fromPart _ smallDesc_dense.fits _ rfl
  have hdense := dense_fromPart _ smallDesc_dense _ rfl
  obtain ⟨walk, h1, _, fuel0, h2⟩ := C130_device yardEnv load hload ord hord yardInv bytes!"d"
    ⟨by decide, Or.inr ⟨rfl, rfl⟩, by decide, by decide, by decide⟩ yardGrid smallDesc yardPins (fun _ => yardContents) [yardStep] yard_files
    yard_ok
    (Or.inr ⟨fun _ _ h => by simp [yardInv, fileInv] at h, rfl⟩) yard_suffice smallDesc_dense.fits
    _ rfl smallDesc_packet (by unfold ShortAscii; decide) (by unfold ShortAscii; decide)
    (by
      intro tile feature addr block s k hw hl hf
      have hk := yard_inside hw hl hf
      refine (reached_iff hfits hdense _).2 (Or.inr ⟨by omega, ?_⟩)
      rw [Nat.mod_eq_of_lt (by omega)]
      exact file_valid k hk) true
  refine ⟨_, walk, rfl, h1, fuel0, fun fuel hf => ?_⟩
  obtain ⟨o, file, words, data, a1, a2, a3, a4, _, _, _, a5⟩ := h2 fuel hf
  refine ⟨o, file, words, data, a1, a2, a3, a4, fun i k hik w b hw => (a5 i k hik w b hw).trans ?_⟩
  exact yard_bits k w b

end Verif.Props
