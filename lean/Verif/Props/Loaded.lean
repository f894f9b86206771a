import Verif.Props.C114
/-! # What every loaded database is like: the conditions other theorems put on descriptions -/
namespace Verif.Props
open Verif.Spec Verif.Db Verif.Xc7 Verif.Asm

/-- The parts that can be loaded are exactly the valid ones (32-bit numbers, distinct keys, C strings): every part read from
some file can be written to a file that is read as this part. -/
theorem C41_values (p : Db.Part) : (∃ j, parsePart j = .ok p) ↔ PartValid p :=
  ⟨fun ⟨j, h⟩ => partJson_valid ((parsePart_iff j p).1 h), fun h => ⟨_, C41_round_trip p h⟩⟩

/-- The tile grids written with hexadecimal addresses are exactly the valid ones. -/
theorem C42_values (g : TileGrid) : (∃ j, GridJson HexText j g) ↔ GridValid g :=
  ⟨fun ⟨_, h⟩ => gridJson_valid (fun _ _ h => h.2) h, fun h => ⟨_, grid_render g h⟩⟩

/-- Rows, columns and frame counts are within what a frame address can name. -/
def InAddressRange (d : Db.Part) : Prop :=
  ∀ half, half = d.topRows ∨ half = d.bottomRows → half.length ≤ 32 ∧
    ∀ row ∈ half, ∀ bus ∈ row, bus.2.length ≤ 1024 ∧ ∀ n ∈ bus.2, n ≤ 128

/-- Every loaded part is valid, and one within the address range is what C18, C60, C63, C67 and others ask for: nothing but the
sizes is left to check. -/
theorem C70_part_values (env : Env) (load : LoadOrder) (hload : LoadOk load) (root : Path) (name : Bytes) (db : PartDatabase)
    (h : parseDatabase env load root name = .ok db) :
    PartValid db.tiles.part ∧ WellFormedDesc db.tiles.part ∧ (DescFits db.tiles.part ↔ InAddressRange db.tiles.part) := by
  have hv := loaded_part_valid hload h
  refine ⟨hv, partValid_wellFormed hv, fun hd half hh => ⟨(hd half hh).1, fun row hr => ((hd half hh).2 row hr).2⟩,
    fun hd half hh => ⟨(hd half hh).1, fun row hr => ⟨((hv.halves half hh.symm).2 row hr).1, (hd half hh).2 row hr⟩⟩⟩

/-! ## Example: a part with a hole -/

/-- Rows 0 and 2 of the top half have one column of 36 frames, row 1 has none. -/
def gapDesc : Db.Part :=
  { idcode := 0x03727093#32, iobanks := [], topRows := [[(.clbIoClk, [36])], [], [(.clbIoClk, [36])]], bottomRows := [] }

theorem gapDesc_valid : PartValid gapDesc := by
  refine ⟨by decide, ?_⟩
  rintro half (rfl | rfl) <;> decide

example : InAddressRange gapDesc ∧ ¬ DescDense gapDesc := by
  refine ⟨by rintro half (rfl | rfl) <;> decide, fun h => ?_⟩
  obtain ⟨n, hn⟩ := h.rows false 2 .clbIoClk 36 rfl 1 (by decide)
  cases hn

/-- The part built from it. -/
def gapPart : Xc7.Part := match Part.fromPart gapDesc with | .ok p => p | _ => ⟨0#32, [], []⟩

theorem gap_steps : ∀ k : Nat, k < 35 → gapPart.next (BitVec.ofNat 32 k) = some (BitVec.ofNat 32 (k + 1)) := by decide +kernel

/-- The walk over this part ends at the hole: frame 0x40000 (row 2) belongs to the part, but completion stops at frame 35. -/
theorem gap_walk (a : FrameAddress) : Reached gapPart a ↔ a.toNat < 36 := by
  constructor
  · intro h
    induction h with
    | start => decide
    | @step a n _ hn ih =>
      have he : a = BitVec.ofNat 32 a.toNat := by simp
      by_cases h35 : a.toNat < 35
      · rw [he, gap_steps _ h35] at hn
        rw [← Option.some.inj hn, BitVec.toNat_ofNat]
        omega
      · have h1 : a.toNat = 35 := by omega
        rw [he, h1] at hn
        have : gapPart.next (BitVec.ofNat 32 35) = none := by decide +kernel
        rw [this] at hn
        cases hn
  · intro h
    have : ∀ k : Nat, k < 36 → Reached gapPart (BitVec.ofNat 32 k) := by
      intro k
      induction k with
      | zero => intro _; exact Reached.start
      | succ k ih => intro hk; exact (ih (by omega)).step (gap_steps k (by omega))
    have h2 := this a.toNat h
    rwa [BitVec.ofNat_toNat, BitVec.setWidth_eq] at h2

example : gapPart.isValid 0x40000#32 = true := by decide +kernel

/-- All hypotheses of `C60_gaps` hold for a run on this part; the frames read back are 0 to 35. -/
example : Part.fromPart gapDesc = .ok gapPart ∧ ∃ fuel0, ∀ fuel ≥ fuel0, ∃ o c,
    main (descEnv gapDesc) sameLoad sameOrder fileInv ⟨[], 0, true, false⟩ fuel = some (.ok (0, o)) ∧
    decodeFile gapPart o.bytes fuel = some (.ok (some c)) ∧ ∀ k, (∃ ws, c.frames.get? k = some ws) ↔ k < 36 := by
  refine ⟨rfl, ?_⟩
  have hfr : (assembleFrames sameOrder bytes!"T.F\n" ⟨descTiles gapDesc, []⟩ [] >>= fun r => .ok (r.2.map (·.1))) = .ok (List.range 36) := by
    decide +kernel
  obtain ⟨r, hr, he⟩ := Outcome.bind_eq_ok.1 hfr
  have he := Outcome.ok.inj he
  have hload := desc_database gapDesc gapDesc_valid
  obtain ⟨hok, hreach⟩ := C45_loaded _ _ sameLoad_ok _ _ _ hload
  have hasm := desc_assembles gapDesc gapDesc_valid hfr
  have hframes := C50_frames hok sameOrder sameOrder_permutes _ _ hreach r.1 r.2 hr
  obtain ⟨fuel0, h⟩ := C60_gaps (descEnv gapDesc) sameLoad sameLoad_ok sameOrder sameOrder_permutes fileInv ⟨descTiles gapDesc, []⟩ _
    (desc_starts gapDesc gapDesc_valid) hasm
    ((C70_part_values _ _ sameLoad_ok _ _ _ hload).2.2.2 (by rintro half (rfl | rfl) <;> decide)) gapPart rfl
    (fitsPacket_of_small (fits_fromPart _ ((C70_part_values _ _ sameLoad_ok _ _ _ hload).2.2.2 (by rintro half (rfl | rfl) <;> decide)) _ rfl) (by decide)) (by unfold ShortAscii; decide) (by unfold ShortAscii; decide)
    (by
      intro k hk
      obtain ⟨f, hf⟩ := (hframes.2.2 k).2 hk
      have hmem : k ∈ r.2.map (·.1) := List.mem_map.2 ⟨_, hf, rfl⟩
      rw [he, List.mem_range] at hmem
      have hn : (BitVec.ofNat 32 k).toNat = k := by rw [BitVec.toNat_ofNat]; omega
      exact ⟨_, (gap_walk _).2 (by omega), hn.trans (Nat.mod_eq_of_lt (by omega)).symm⟩)
    true
  refine ⟨fuel0, fun fuel hf => ?_⟩
  obtain ⟨o, c, h1, h2, _, h3, _⟩ := h fuel hf
  refine ⟨o, c, h1, h2, fun k => (h3 k).trans ⟨?_, fun hk => ?_⟩⟩
  · rintro ⟨a, ha, rfl⟩
    exact (gap_walk a).1 ha
  · have hn : (BitVec.ofNat 32 k).toNat = k := by rw [BitVec.toNat_ofNat]; omega
    exact ⟨_, (gap_walk _).2 (by omega), hn⟩

end Verif.Props
