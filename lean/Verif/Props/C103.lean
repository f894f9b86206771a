import Verif.Proofs.JsonMessages
import Verif.Props.C73
import Verif.Props.C68
/-! # C103: what is said about the JSON files -/
namespace Verif.Props
open Verif.Db Verif.Spec Verif.Text
open Verif.Fasm (lit)

/-- The parsers with messages are the parsers of C41 and C42. -/
theorem C103_same_parsers (x : LibTexts) (j : Json) :
    (parseTileGridM x j).forget = parseTileGrid j ∧ (parsePartM x j).forget = parsePart j :=
  ⟨parseTileGridM_forget x j, parsePartM_forget x j⟩

/-- A tile grid is read exactly if there is no trouble with it; otherwise the first trouble decides how the reader ends and what it says. -/
theorem C103_grid (x : LibTexts) (j : Json) :
    ((∃ g, parseTileGridM x j = .ok g) ↔ ∀ t, ¬ GridTrouble x j t) ∧
    (∀ m, parseTileGridM x j = .err m ↔ GridTrouble x j (.says m)) ∧
    (parseTileGridM x j = .abort ↔ GridTrouble x j .terminated) ∧
    (parseTileGridM x j = .ub ↔ GridTrouble x j .undefined) :=
  ⟨tells_ok_iff (tells_grid x j), fun m => tells_iff (tells_grid x j) (.says m), tells_iff (tells_grid x j) .terminated,
    tells_iff (tells_grid x j) .undefined⟩

/-- The same for a part. -/
theorem C103_part (x : LibTexts) (j : Json) :
    ((∃ p, parsePartM x j = .ok p) ↔ ∀ t, ¬ PartTrouble x j t) ∧
    (∀ m, parsePartM x j = .err m ↔ PartTrouble x j (.says m)) ∧
    (parsePartM x j = .abort ↔ PartTrouble x j .terminated) ∧
    (parsePartM x j = .ub ↔ PartTrouble x j .undefined) :=
  ⟨tells_ok_iff (tells_part x j), fun m => tells_iff (tells_part x j) (.says m), tells_iff (tells_part x j) .terminated,
    tells_iff (tells_part x j) .undefined⟩

/-- There is trouble exactly with what does not describe a tile grid, or a part. -/
theorem C103_trouble (x : LibTexts) (j : Json) :
    ((∃ t, GridTrouble x j t) ↔ ∀ g, ¬ GridJson AddressText j g) ∧ ((∃ t, PartTrouble x j t) ↔ ∀ p, ¬ PartJson j p) := by
  have key : ∀ {α : Type} {r : Said α} {C : Trouble → Prop} {P : α → Prop}, Tells r C → (∀ a, r = .ok a ↔ P a) →
      ((∃ t, C t) ↔ ∀ a, ¬ P a) := by
    intro α r C P ht hP
    constructor
    · rintro ⟨t, h⟩ a ha
      have := ht.1 t h
      rw [(hP a).2 ha] at this
      exact troubled_ne_ok t a this.symm
    · intro hn
      refine Classical.byContradiction fun hno => ?_
      obtain ⟨a, ha⟩ := ht.2 (fun t h => hno ⟨t, h⟩)
      exact hn a ((hP a).1 ha)
  constructor
  · refine key (tells_grid x j) fun g => ?_
    rw [← C73_grid, ← parseTileGridM_forget x, Said.forget_eq_ok]
  · refine key (tells_part x j) fun p => ?_
    rw [← C41_iff, ← parsePartM_forget x, Said.forget_eq_ok]

/-- No trouble with a tile: it is one. -/
theorem C103_tile (x : LibTexts) (v : Json) : (∀ t, ¬ TileTrouble x v t) ↔ ∃ tile, TileJson AddressText v tile := by
  have hA : CodeAddress = AddressText := by
    funext s a; exact propext (C73_address_iff s a)
  rw [← tells_ok_iff (tells_tile x v), ← hA]
  constructor
  · rintro ⟨tile, h⟩
    exact ⟨tile, (asTile_iff v tile).1 (by rw [← asTileM_forget x, h]; rfl)⟩
  · rintro ⟨tile, h⟩
    exact ⟨tile, Said.forget_eq_ok.1 (by rw [asTileM_forget]; exact (asTile_iff v tile).2 h)⟩

/-- The message about a tile grid names the first member that is not a tile, and says what is wrong with it. -/
theorem C103_names_tile (x : LibTexts) (ms : List (Bytes × Json)) (m : Bytes) :
    parseTileGridM x (.obj ms) = .err m ↔
      ∃ pre name v post why, ms = pre ++ (name, v) :: post ∧ (∀ e ∈ pre, ∃ tile, TileJson AddressText e.2 tile) ∧
        TileTrouble x v (.says why) ∧ m = ascii "could not unmarshal tile " ++ untilNul name ++ ascii ": " ++ why := by
  rw [(C103_grid x _).2.1]
  have named : ∀ e : Bytes × Json, (∀ t, ¬ NamedTileTrouble x e t) ↔ ∃ tile, TileJson AddressText e.2 tile := by
    intro e
    rw [← C103_tile x]
    constructor
    · intro h t ht
      cases t with
      | says why => exact h _ (Or.inl ⟨why, ht, rfl⟩)
      | terminated => exact h _ (Or.inr ⟨ht, Or.inl rfl⟩)
      | undefined => exact h _ (Or.inr ⟨ht, Or.inr rfl⟩)
    · rintro h t (⟨why, ht, _⟩ | ⟨ht, _⟩)
      · exact h _ ht
      · exact h _ ht
  constructor
  · rintro (h | ⟨ms', e, pre, c, post, hc, hp, ht⟩)
    · exact absurd ⟨ms, rfl⟩ h.1
    · cases e
      obtain ⟨l1, l2, rfl, rfl, h2⟩ := List.map_eq_append_iff.1 hc
      obtain ⟨a, l3, rfl, rfl, rfl⟩ := List.map_eq_cons_iff.1 h2
      rcases ht with ⟨why, ht, hm⟩ | ⟨_, h | h⟩
      · refine ⟨l1, a.1, a.2, l3, why, rfl, ?_, ht, ?_⟩
        · intro e he
          exact (named e).1 (hp _ (List.mem_map_of_mem he))
        · injection hm
      · cases h
      · cases h
  · rintro ⟨pre, name, v, post, why, rfl, hp, ht, rfl⟩
    refine Or.inr ⟨_, rfl, pre.map (NamedTileTrouble x), NamedTileTrouble x (name, v), post.map (NamedTileTrouble x), by simp, ?_,
      Or.inl ⟨why, ht, rfl⟩⟩
    intro c hc
    obtain ⟨e, he, rfl⟩ := List.mem_map.1 hc
    exact (named e).2 (hp e he)

/-- The second tile has no `grid_x`. -/
example (x : LibTexts) : parseTileGridM x (.obj [(bytes!"A", .obj [(kType, .str bytes!"B"), (kGridX, .int 0), (kGridY, .int 0),
      (kBits, .obj []), (kPinFunctions, .obj []), (kSites, .obj []), (kProhibitedSites, .arr [])]),
    (bytes!"C", .obj [(kType, .str bytes!"B")])]) =
    .err (lit "could not unmarshal tile C: json attribute \"grid_x\" not found in " ++ x.render (.obj [(kType, .str bytes!"B")])) := by
  rfl

/-- A base address that does not fit. -/
example (x : LibTexts) : BlockTrouble x (.obj [(kBaseaddr, .str bytes!"0x8000000000000000")])
    (.says (ascii "could not parse 0x8000000000000000 to bits address")) := by
  apply (tells_iff (tells_block x _) _).1
  have e : baseAddressM bytes!"0x8000000000000000" = .err (ascii "could not parse 0x8000000000000000 to bits address") := by
    decide +kernel
  have h1 : optGetMemberM (asAliasM x) (.obj [(kBaseaddr, .str bytes!"0x8000000000000000")]) kAlias = .ok none := rfl
  have h2 : getMemberM x (asStringM x) (.obj [(kBaseaddr, .str bytes!"0x8000000000000000")]) kBaseaddr = .ok bytes!"0x8000000000000000" := rfl
  unfold asBitsBlockM
  rw [h1, Said.bind_ok, h2, Said.bind_ok, e]
  rfl

/-- Columns numbered from 1 terminate the program; a row that is not a number is an error. -/
example (x : LibTexts) : parsePartM x (.obj [(kIdcode, .int 1), (kGlobalClockRegions, .obj [(kBottom, .obj [(kRows,
    .obj [(bytes!"x", .null)])])])]) = .err (lit "cannot parse \"x\" for " ++ x.render (.obj [(bytes!"x", .null)])) := by
  rfl

/-- Nothing says where in part.json the trouble is: it is the same message for the first row of the bottom and for the second of the top. -/
theorem C103_no_place (x : LibTexts) :
    let bad : Json := .obj [(kConfigurationBuses, .obj [(kClbIoClk, .obj [])])]
    let good : Json := .obj [(kConfigurationBuses, .obj [])]
    parsePartM x (.obj [(kIdcode, .int 1), (kGlobalClockRegions, .obj [(kBottom, .obj [(kRows, .obj [(bytes!"0", bad)])])])]) =
      .err (lit "json attribute \"configuration_columns\" not found in " ++ x.render (.obj [])) ∧
    parsePartM x (.obj [(kIdcode, .int 1), (kGlobalClockRegions, .obj [(kBottom, .obj [(kRows, .obj [])]),
        (kTop, .obj [(kRows, .obj [(bytes!"0", good), (bytes!"1", bad)])])])]) =
      .err (lit "json attribute \"configuration_columns\" not found in " ++ x.render (.obj [])) := ⟨rfl, rfl⟩

end Verif.Props
