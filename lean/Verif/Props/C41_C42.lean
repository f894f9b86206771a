import Verif.Proofs.Render
/-! # C41, C42: JSON files of the database -/
namespace Verif.Props
open Verif.Db Verif.Spec Verif.Text

/-! ## C41 -/

/-- A part is read exactly when the value describes it: all required keys are there, columns and rows are
numbered 0, 1, 2, … in order, numbers are 32-bit. -/
theorem C41_iff (j : Json) (p : Db.Part) : parsePart j = .ok p ↔ PartJson j p := parsePart_iff j p

/-- Writing a part and reading it back gives the same part. -/
theorem C41_round_trip (p : Db.Part) (h : PartValid p) : parsePart (partObj p) = .ok p :=
  (parsePart_iff _ _).2 (part_render p h)

/-- A value describes at most one part. -/
theorem C41_unique (j : Json) (p q : Db.Part) (hp : PartJson j p) (hq : PartJson j q) : p = q := by
  have h := (parsePart_iff _ _).2 hp
  rw [(parsePart_iff _ _).2 hq] at h
  cases h; rfl

theorem member_unique {j : Json} {name : Bytes} {v w : Json} (hv : Member j name v) (hw : Member j name w) : v = w := by
  obtain ⟨ms, rfl, h⟩ := hv
  obtain ⟨ms', e, h'⟩ := hw
  cases e
  rw [h] at h'; cases h'; rfl

/-- Without `idcode` or `global_clock_regions` no part is read. -/
theorem C41_missing_key (j : Json) (h : NoMember j bytes!"idcode" ∨
      NoMember j bytes!"global_clock_regions") (p : Db.Part) : parsePart j ≠ .ok p := by
  intro hp
  obtain ⟨⟨v, ⟨ms, e, hv⟩, _⟩, _, ⟨w, ⟨ms', e', hw⟩, _⟩⟩ := (parsePart_iff _ _).1 hp
  rcases h with ⟨ms'', e'', hn⟩ | ⟨ms'', e'', hn⟩
  · rw [e] at e''; cases e''; rw [hv] at hn; cases hn
  · rw [e'] at e''; cases e''; rw [hw] at hn; cases hn

/-- If the `i`-th row of a half is not numbered `i`, no part is read. -/
theorem C41_out_of_sequence (j regions half : Json) (rows : List (Bytes × Json)) (name : Bytes)
    (hname : name = bytes!"bottom" ∨ name = bytes!"top")
    (h1 : Member j bytes!"global_clock_regions" regions)
    (h2 : Member regions name half) (h3 : Member half bytes!"rows" (.obj rows))
    (i : Nat) (k : Bytes) (v : Json) (hi : rows[i]? = some (k, v)) (hk : ¬ IntText (untilNul k) i) (p : Db.Part) :
    parsePart j ≠ .ok p := by
  intro hp
  obtain ⟨_, _, ⟨w, hw, ⟨b, hb, hbj⟩, ⟨t, ht, htj⟩⟩⟩ := (parsePart_iff _ _).1 hp
  have := member_unique h1 hw
  subst this
  have hseq : ∃ l, SequenceJson RowJson (.obj rows) l := by
    rcases hname with rfl | rfl
    · cases member_unique h2 hb
      obtain ⟨x, hx, hs⟩ := hbj
      cases member_unique h3 hx
      exact ⟨_, hs⟩
    · cases member_unique h2 ht
      obtain ⟨x, hx, hs⟩ := htj
      cases member_unique h3 hx
      exact ⟨_, hs⟩
  obtain ⟨l, es, e1, _, e3⟩ := hseq
  cases e1
  rw [List.getElem?_map] at hi
  cases he : es[i]? with
  | none => rw [he] at hi; cases hi
  | some e =>
    rw [he] at hi
    simp only [Option.map_some, Option.some.injEq] at hi
    have := (e3 i e he).1
    rw [hi] at this
    exact hk this

/-- A part with a bottom and two top rows, two buses and a bank. -/
def samplePart : Db.Part where
  bottomRows := [[(.clbIoClk, [42, 36]), (.blockRam, [128])]]
  topRows := [[(.clbIoClk, [42])], []]
  idcode := 0x0362d093#32
  iobanks := [(14, bytes!"X1")]

example : PartValid samplePart := by
  refine ⟨by decide, ?_⟩
  rintro half (rfl | rfl) <;> decide

/-- Rows numbered 1, 0 (hypotheses of `C41_out_of_sequence`). -/
example : ¬ IntText (untilNul bytes!"1") ((0 : Nat) : Int) := by
  rw [← atoiI32_iff]; decide

/-! ## C42 -/

/-- Everything read is what the value says; base addresses written as `0x…` are read as written
and lie below 2^63. -/
theorem C42_sound (j : Json) (g : TileGrid) (h : parseTileGrid j = .ok g) :
    GridJson (fun s n => ∀ m, HexNumber s m → n = m ∧ m < 2 ^ 63) j g := by
  refine GridJson.mono ?_ ((parseTileGrid_iff _ _).1 h)
  intro s n hn m hm
  have := hexNumber_address hm
  rw [show baseAddress s = .ok n from hn] at this
  split at this
  · cases this
    exact ⟨rfl, by assumption⟩
  · cases this

/-- A value describing a grid is read as that grid. -/
theorem C42_complete (j : Json) (g : TileGrid) (h : GridJson HexText j g) : parseTileGrid j = .ok g :=
  (parseTileGrid_iff _ _).2 (GridJson.mono (fun _ _ => hexText_address) h)

/-- Writing a grid and reading it back gives the same grid. -/
theorem C42_round_trip (g : TileGrid) (h : GridValid g) : parseTileGrid (gridObj g) = .ok g :=
  C42_complete _ _ (grid_render g h)

/-- A tile with a block RAM bus, an alias and a negative offset. -/
def sampleTile : Db.Tile where
  type := bytes!"B"
  x := 3
  y := 4
  clockRegion := some bytes!"X0"
  bits := [(.clbIoClk, ⟨some ⟨[(bytes!"S", bytes!"T")], 2, bytes!"A"⟩, 0x400100, 42, -2, 2⟩), (.blockRam, ⟨none, 0xc00000, 128, 0, 10⟩)]
  pinFunctions := [(bytes!"P", bytes!"Q")]
  sites := [(bytes!"S", bytes!"U")]
  prohibitedSites := [bytes!"S"]

example : GridValid [(bytes!"T1", sampleTile)] := by
  refine ⟨by decide, ?_⟩
  intro e he
  rw [List.mem_singleton.1 he]
  refine ⟨by decide, by decide, ⟨by decide, ?_⟩, by decide, by decide, by decide⟩
  intro b hb
  simp only [sampleTile, List.mem_cons, List.not_mem_nil, or_false] at hb
  rcases hb with rfl | rfl
  · refine ⟨by decide, by decide, by decide, by decide, ?_⟩
    intro a ha; cases ha; decide
  · refine ⟨by decide, by decide, by decide, by decide, ?_⟩
    intro a ha; cases ha

/-- A grid of one tile `T` with one block whose base address is written `text`. -/
def gridWithAddress (text : Bytes) : Json :=
  .obj [(bytes!"T", .obj [(kType, .str bytes!"B"), (kGridX, .int 0), (kGridY, .int 0),
    (kBits, .obj [(busName .clbIoClk, .obj [(kBaseaddr, .str text), (kFrames, .int 1), (kOffset, .int 0), (kWords, .int 1)])]),
    (kPinFunctions, .obj []), (kSites, .obj []), (kProhibitedSites, .arr [])])]

/-- The grid read if the address is `n`. -/
def gridAtAddress (n : Nat) : TileGrid :=
  [(bytes!"T", ⟨bytes!"B", 0, 0, none, [(.clbIoClk, ⟨none, n, 1, 0, 1⟩)], [], [], []⟩)]

/-- Defect: an address that is no number at all (`oops`) is read as 0, without an error. -/
theorem C42_garbage_address : parseTileGrid (gridWithAddress bytes!"oops") = .ok (gridAtAddress 0) := by
  decide

/-- Defect: `-1` is read as 2^64 - 1. -/
theorem C42_negative_address : parseTileGrid (gridWithAddress bytes!"-1") = .ok (gridAtAddress (2 ^ 64 - 1)) := by
  decide

/-- Defect: text behind the digits is ignored, so `0x10zz` is read as 16. -/
theorem C42_trailing_garbage :
    parseTileGrid (gridWithAddress bytes!"0x10zz") = .ok (gridAtAddress 16) := by
  decide

end Verif.Props
