import Verif.Proofs.Missing
import Verif.Proofs.FromPart
/-! # C04, C05 next frame address; C06 part description; C07, C08 completing the frame map -/
namespace Verif.Props
open Verif.Xc7 Verif.Spec

/-! ## C04 -/

/-- The address following any 26-bit address is a valid address of the part and strictly greater
(`Fits`: coordinates fit the address fields; any gaps allowed). -/
theorem C04_next_sound (p : Part) (hp : Fits p) (a n : FrameAddress) (ha : a.toNat < 2^26)
    (h : p.next a = some n) : p.isValid n = true ∧ a < n ∧ n.toNat < 2^26 := by
  obtain ⟨h1, h2, h3⟩ := next_sound p hp a n ha h
  exact ⟨h1, BitVec.lt_def.mpr h2, h3⟩

/-- Validity is exactly "the part has a frame at the coordinate the accessors report". -/
theorem C04_valid_iff (p : Part) (a : FrameAddress) :
    p.isValid a = true ↔ HasFrame p (coordOf a) := isValid_iff p a

/-! ## C05 -/

/-- On a dense part the next address of a valid address is the least valid address above it. -/
theorem C05_next_is_least (p : Part) (hp : Fits p) (hd : Dense p) (a n : FrameAddress)
    (ha : a.toNat < 2^26) (hv : p.isValid a = true) (h : p.next a = some n) :
    p.isValid n = true ∧ a < n ∧
      ∀ y : FrameAddress, y.toNat < 2^26 → p.isValid y = true → a < y → n ≤ y := by
  obtain ⟨h1, h2, h3⟩ := next_sound p hp a n ha h
  refine ⟨h1, BitVec.lt_def.mpr h2, fun y hy hyv hay => ?_⟩
  by_cases hny : n ≤ y
  · exact hny
  · exfalso
    have hlt : y < n := by rw [BitVec.lt_def]; rw [BitVec.le_def] at hny; omega
    exact next_gap p hp hd a n ha hv h _ ((isValid_iff p y).mp hyv)
      ((C03_order_words a y ha hy).mp hay) ((C03_order_words y n hy h3).mp hlt)

/-- There is no next address exactly when the address is the last valid one. -/
theorem C05_none_iff_last (p : Part) (hp : Fits p) (hd : Dense p) (a : FrameAddress)
    (ha : a.toNat < 2^26) (hv : p.isValid a = true) :
    p.next a = none ↔ ∀ y : FrameAddress, y.toNat < 2^26 → p.isValid y = true → y ≤ a := by
  constructor
  · intro h y hy hyv
    by_cases hya : y ≤ a
    · exact hya
    · exfalso
      have hlt : a < y := by rw [BitVec.lt_def]; rw [BitVec.le_def] at hya; omega
      exact next_none_last p hp hd a hv h _ ((isValid_iff p y).mp hyv)
        ((C03_order_words a y ha hy).mp hlt)
  · intro h
    cases hn : p.next a with
    | none => rfl
    | some n =>
      exfalso
      obtain ⟨h1, h2, h3⟩ := next_sound p hp a n ha hn
      have := h n h3 h1
      rw [BitVec.le_def] at this
      omega

/-! ## C06 -/

/-- A part built from a description accepts an address exactly when the description has a column at
that half/row/bus/column with more frames than the minor number — for descriptions without a CFG_CLB
bus.  Missing for the full property: `C06_cfgclb_misfiled` shows the CFG_CLB bus is filed under the
wrong block type. -/
theorem C06_valid_iff_described_partial (d : Db.Part) (hw : WellFormedDesc d) (hc : NoCfgClb d)
    (p : Part) (hp : Part.fromPart d = .ok p) (a : FrameAddress) :
    p.isValid a = true ↔ ∃ bus n, busNumber bus = (coordOf a).block ∧
      describedCount d (coordOf a).bottom (coordOf a).row bus (coordOf a).column = some n ∧
      (coordOf a).minor < n := by
  rw [isValid_iff, hasFrame_iff_described d hw hc p hp]

/-- `FromPart` never fails and keeps the IDCODE. -/
theorem C06_fromPart_total (d : Db.Part) : ∃ p, Part.fromPart d = .ok p ∧ p.idcode = d.idcode :=
  ⟨_, rfl, rfl⟩

/-- A description with one CFG_CLB column and nothing else. -/
def cfgDesc : Db.Part := { bottomRows := [], topRows := [[(.cfgClb, [4])]], idcode := 0x13631093#32, iobanks := [] }

/-- Negation of the full C06: a described CFG_CLB frame is rejected, and an undescribed CLB/IO/CLK
frame is accepted. -/
theorem C06_cfgclb_misfiled : WellFormedDesc cfgDesc ∧ ∃ p, Part.fromPart cfgDesc = .ok p ∧
    describedCount cfgDesc false 0 .cfgClb 0 = some 4 ∧
    p.isValid (addressOf ⟨2, false, 0, 0, 0⟩) = false ∧
    describedCount cfgDesc false 0 .clbIoClk 0 = none ∧
    p.isValid (addressOf ⟨0, false, 0, 0, 0⟩) = true := by
  refine ⟨?_, _, rfl, by decide, by decide, by decide, by decide⟩
  intro half h
  rcases h with rfl | rfl <;> decide

/-- The same row contents in two hash orders give parts that accept different addresses. -/
theorem C06_hash_order_dependent :
    ∃ (d1 d2 : Db.Part) (p1 p2 : Part) (a : FrameAddress),
      d1.topRows = [[(.clbIoClk, [4]), (.cfgClb, [9])]] ∧
      d2.topRows = [[(.cfgClb, [9]), (.clbIoClk, [4])]] ∧
      Part.fromPart d1 = .ok p1 ∧ Part.fromPart d2 = .ok p2 ∧
      p1.isValid a = false ∧ p2.isValid a = true :=
  ⟨⟨[], [[(.clbIoClk, [4]), (.cfgClb, [9])]], 0#32, []⟩,
   ⟨[], [[(.cfgClb, [9]), (.clbIoClk, [4])]], 0#32, []⟩, _, _, 8#32, rfl, rfl, rfl, rfl,
   by decide, by decide⟩

/-- A hole-free description gives a part to which C04, C05, C07, C08 apply. -/
theorem C06_dense_description (d : Db.Part) (hd : DescDense d) :
    ∃ p, Part.fromPart d = .ok p ∧ Fits p ∧ Dense p :=
  ⟨_, rfl, fits_fromPart d hd.fits _ rfl, dense_fromPart d hd _ rfl⟩

/-- A small device: two rows on top, one below, block RAM in all of them. -/
def smallDesc : Db.Part :=
  { bottomRows := [[(.blockRam, [128]), (.clbIoClk, [42, 30])]],
    topRows := [[(.clbIoClk, [36, 28, 2]), (.blockRam, [128])], [(.clbIoClk, [36]), (.blockRam, [3, 5])]],
    idcode := 0x0362D093#32, iobanks := [] }

theorem smallDesc_dense : DescDense smallDesc where
  fits := by intro half h; rcases h with rfl | rfl <;> decide
  noCfg := by intro half h; rcases h with rfl | rfl <;> decide
  positive := by intro half h; rcases h with rfl | rfl <;> decide
  rows := by
    intro b r t n h r' hr'
    have hr : r < 2 := by
      obtain ⟨row, cols, h1, _, _⟩ := (describedCount_eq ..).mp h
      have := (List.getElem?_eq_some_iff.mp h1).1
      cases b
      · exact this
      · exact Nat.lt_of_lt_of_le this (by decide)
    have : r' = 0 ∨ (r' = 1 ∧ r = 1) := by omega
    rcases this with h0 | ⟨h0, h1⟩
    · subst h0
      cases b <;> cases t
      · exact ⟨36, by decide⟩
      · exact ⟨128, by decide⟩
      · exfalso
        have : r = 0 ∨ r = 1 := by omega
        rcases this with h1 | h1 <;> subst h1 <;> exact absurd h (by rw [show describedCount _ _ _ _ _ = none by decide]; simp)
      · exact ⟨42, by decide⟩
      · exact ⟨128, by decide⟩
      · exfalso
        have : r = 0 ∨ r = 1 := by omega
        rcases this with h1 | h1 <;> subst h1 <;> exact absurd h (by rw [show describedCount _ _ _ _ _ = none by decide]; simp)
    · subst h0 h1; exact ⟨n, h⟩
  halves := by
    intro r t n h
    cases t
    · exact ⟨36, by decide⟩
    · exact ⟨128, by decide⟩
    · exfalso
      obtain ⟨row, cols, h1, h2, _⟩ := (describedCount_eq ..).mp h
      have := (List.getElem?_eq_some_iff.mp h1).1
      have h0 : r = 0 := by have : r < 1 := this; omega
      subst h0
      simp [descHalf, smallDesc] at h1
      subst h1
      exact absurd h2 (by rw [show List.lookup _ _ = none by decide]; simp)

/-- Non-vacuity of C04–C06: the small device, a row crossing and a block-type crossing. -/
example : ∃ p, Part.fromPart smallDesc = .ok p ∧ Fits p ∧ Dense p ∧
    p.isValid (addressOf ⟨0, false, 0, 2, 1⟩) = true ∧
    p.next (addressOf ⟨0, false, 0, 2, 1⟩) = some (addressOf ⟨0, false, 1, 0, 0⟩) ∧
    p.next (addressOf ⟨0, true, 0, 1, 29⟩) = some (addressOf ⟨1, false, 0, 0, 0⟩) ∧
    p.next (addressOf ⟨1, true, 0, 0, 127⟩) = none :=
  ⟨_, rfl, fits_fromPart _ smallDesc_dense.fits _ rfl, dense_fromPart _ smallDesc_dense _ rfl,
   by decide, by decide, by decide, by decide⟩

/-! ## C07 -/

/-- Completing a frame map: existing frames are kept, exactly the addresses of the walk from 0 are
added, each as the zero frame; the result is again an ordered map. -/
theorem C07_fill_exact {β : Type} (p : Part) (zero : β) (fuel : Nat) (data r : BMap β)
    (hs : data.Sorted) (h : addMissingFrames p zero fuel data = some r) :
    r.Sorted ∧ ∀ k v, r.get? k = some v ↔
      (data.get? k = some v ∨ (data.get? k = none ∧ v = zero ∧ ∃ a, Reached p a ∧ a.toNat = k)) := by
  have := addMissingLoop_spec p zero fuel 0#32 data r hs h
  simpa only [reached_iff_from] using this

/-- No frame already present is changed. -/
theorem C07_fill_preserves {β : Type} (p : Part) (zero : β) (fuel : Nat) (data r : BMap β)
    (hs : data.Sorted) (h : addMissingFrames p zero fuel data = some r) (k : Nat) (v : β)
    (hk : data.get? k = some v) : r.get? k = some v :=
  ((C07_fill_exact p zero fuel data r hs h).2 k v).mpr (Or.inl hk)

/-- On a dense part the completed map has a frame for every valid address; an address it has beyond
the caller's is valid or 0. -/
theorem C07_fill_complete {β : Type} (p : Part) (hp : Fits p) (hd : Dense p) (zero : β) (fuel : Nat)
    (data r : BMap β) (hs : data.Sorted) (h : addMissingFrames p zero fuel data = some r)
    (a : FrameAddress) (ha : a.toNat < 2^26) :
    (p.isValid a = true → r.get? a.toNat = some ((data.get? a.toNat).getD zero)) ∧
    (data.get? a.toNat = none → r.get? a.toNat ≠ none → p.isValid a = true ∨ a = 0#32) := by
  obtain ⟨_, h2⟩ := C07_fill_exact p zero fuel data r hs h
  constructor
  · intro hv
    have hr := reached_of_valid p hp hd a ha hv
    cases hg : data.get? a.toNat with
    | some v => exact (h2 _ _).mpr (Or.inl hg)
    | none => exact (h2 _ _).mpr (Or.inr ⟨hg, rfl, a, hr, rfl⟩)
  · intro hg hne
    cases hrg : r.get? a.toNat with
    | none => exact absurd hrg hne
    | some v =>
      rcases (h2 _ _).mp hrg with h3 | ⟨_, _, b, hb, hba⟩
      · rw [hg] at h3; simp at h3
      · have : b = a := BitVec.eq_of_toNat_eq hba
        subst this
        exact (reached_lt p hp b hb).2

/-! ## C08 -/

/-- Completion terminates for every part that fits the address fields, from any frame map. -/
theorem C08_fill_terminates {β : Type} (p : Part) (hp : Fits p) (zero : β) (data : BMap β) :
    ∃ fuel r, addMissingFrames p zero fuel data = some r ∧
      ∀ more, addMissingFrames p zero (fuel + more) data = some r := by
  obtain ⟨r, hr⟩ := addMissingLoop_terminates p hp zero (2^26) 0#32 data (by decide) (by decide)
  exact ⟨2^26, r, hr, fun more => addMissingLoop_mono p zero _ _ _ _ hr more⟩

/-- A part description with 33 rows in the top half. -/
def tallDesc : Db.Part :=
  { bottomRows := [], topRows := List.replicate 33 [(.clbIoClk, [1])], idcode := 0x13631093#32, iobanks := [] }

/-- Finding: for a 33-row part (which the loader accepts, see C41) the row number wraps to 0 and
completion runs forever, whatever the initial frames. -/
theorem C08_tall_part_diverges {β : Type} (zero : β) :
    WellFormedDesc tallDesc ∧ NoCfgClb tallDesc ∧ ∃ p, Part.fromPart tallDesc = .ok p ∧
      ∀ fuel (data : BMap β), addMissingFrames p zero fuel data = none := by
  refine ⟨?_, ?_, _, rfl, ?_⟩
  · intro half h; rcases h with rfl | rfl <;> decide
  · intro half h; rcases h with rfl | rfl <;> decide
  · intro fuel data
    have hstep : ∀ r : Fin 32, Part.next
        ⟨tallDesc.idcode, regionFrom 0 [] tallDesc.topRows, regionFrom 0 [] tallDesc.bottomRows⟩
        (BitVec.ofNat 32 (r.val * 2^17)) = some (BitVec.ofNat 32 ((r.val + 1) % 32 * 2^17)) := by
      decide +kernel
    have key : ∀ fuel (r : Nat) (data : BMap β), r < 32 → addMissingLoop
        ⟨tallDesc.idcode, regionFrom 0 [] tallDesc.topRows, regionFrom 0 [] tallDesc.bottomRows⟩ zero
        fuel (BitVec.ofNat 32 (r * 2^17)) data = none := by
      intro fuel
      induction fuel with
      | zero => intros; rfl
      | succ fuel ih =>
        intro r data hr
        simp only [addMissingLoop]
        have := hstep ⟨r, hr⟩
        simp only at this
        rw [this]
        exact ih _ _ (Nat.mod_lt _ (by decide))
    exact key fuel 0 data (by decide)

/-- Non-vacuity of C07/C08: the small device, starting from a map with one frame. -/
example : ∃ p, Part.fromPart smallDesc = .ok p ∧ Fits p ∧ Dense p ∧
    BMap.Sorted [(128, 7)] ∧ ∃ fuel r, addMissingFrames p 0 fuel [(128, 7)] = some r := by
  refine ⟨_, rfl, fits_fromPart _ smallDesc_dense.fits _ rfl, dense_fromPart _ smallDesc_dense _ rfl,
    by simp [BMap.Sorted], ?_⟩
  obtain ⟨fuel, r, h, _⟩ := C08_fill_terminates _ (fits_fromPart _ smallDesc_dense.fits _ rfl) 0
    [(128, 7)]
  exact ⟨fuel, r, h⟩

end Verif.Props
