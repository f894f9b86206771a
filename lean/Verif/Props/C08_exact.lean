import Verif.Proofs.Prune
import Verif.Props.C04_C08
/-! # C08, exactly: which part descriptions make frame completion run forever -/
namespace Verif.Props
open Verif.Xc7 Verif.Spec

/-- **C08, exactly.**  For a description of the documented shape (at most 128 frames per column, any
number of rows and columns), completion of a frame map ends, on any initial map, if and only if every
described column has a row number below 32 and a column number below 1024. -/
theorem C08_exact (d : Db.Part) (hw : WellFormedDesc d) (hs : DescShape d)
    (h128 : ∀ bottom row bus col n, describedCount d bottom row bus col = some n → n ≤ 128)
    (p : Part) (hp : Part.fromPart d = .ok p) {β : Type} (zero : β) (data : BMap β) :
    (∃ fuel r, addMissingFrames p zero fuel data = some r) ↔
      ∀ bottom row bus col n, describedCount d bottom row bus col = some n → row < 32 ∧ col < 1024 := by
  have hcount : ∀ half, half = d.topRows ∨ half = d.bottomRows → ∀ row ∈ half, ∀ bus ∈ row,
      ∀ n ∈ bus.2, 0 < n ∧ n ≤ 128 := by
    intro half hh row hrow bus hbus n hn
    refine ⟨hs.positive half hh row hrow bus hbus n hn, ?_⟩
    have hb : ∃ b, descHalf d b = half := by
      rcases hh with rfl | rfl
      · exact ⟨false, rfl⟩
      · exact ⟨true, rfl⟩
    obtain ⟨b, rfl⟩ := hb
    obtain ⟨i, hi⟩ := List.getElem?_of_mem hrow
    obtain ⟨j, hj⟩ := List.getElem?_of_mem hn
    have hl := lookup_of_mem_nodup ((hw _ hh).2 row hrow).1 (show (bus.1, bus.2) ∈ row from hbus)
    exact h128 b i bus.1 j n ((describedCount_eq ..).2 ⟨row, bus.2, hi, hl, hj⟩)
  have hplain := plain_fromPart d hw hcount p hp
  have hdense := dense_of_shape d hw hs p hp
  have key := hasFrame_iff_described d hw hs.noCfg p hp
  constructor
  · rintro ⟨fuel, r, h⟩ bottom row bus col n hc
    apply Classical.byContradiction
    intro hno
    have hpos : 0 < n := by
      obtain ⟨rw', cols, h1, h2, h3⟩ := (describedCount_eq ..).1 hc
      exact hs.positive _ (descHalf_or d bottom) rw' (List.mem_of_getElem? h1) _ (mem_of_lookup h2) n
        (List.mem_of_getElem? h3)
    have hf : HasFrame p ⟨busNumber bus, bottom, row, col, 0⟩ := (key _).2 ⟨bus, n, rfl, hc, hpos⟩
    rw [diverges p hplain hdense _ hf (by simp only; omega) zero fuel data] at h
    cases h
  · intro h
    obtain ⟨r, hr⟩ := terminates_low p hplain (fun c hc => by
      obtain ⟨bus, n, _, h2, _⟩ := (key c).1 hc
      exact h _ _ _ _ _ h2) zero data
    exact ⟨_, r, hr⟩

/-- `n` rows in the top half with the same single column on the configuration bus. -/
def rowsDesc (n : Nat) : Db.Part :=
  { bottomRows := [], topRows := List.replicate n [(.clbIoClk, [36])], idcode := 0x13631093#32, iobanks := [] }

theorem rowsDesc_count (n : Nat) (b : Bool) (row : Nat) (bus : Db.ConfigBusType) (col m : Nat) :
    describedCount (rowsDesc n) b row bus col = some m ↔ b = false ∧ row < n ∧ bus = .clbIoClk ∧ col = 0 ∧ m = 36 := by
  rw [describedCount_eq]
  cases b with
  | true => simp [descHalf, rowsDesc]
  | false =>
    constructor
    · rintro ⟨r, cols, h1, h2, h3⟩
      have h1' : (List.replicate n [(Db.ConfigBusType.clbIoClk, [36])])[row]? = some r := h1
      rw [List.getElem?_replicate] at h1'
      split at h1'
      · cases h1'
        have hb : bus = .clbIoClk := by
          cases bus <;> first | rfl | cases h2
        subst hb
        cases h2
        cases col with
        | zero => cases h3; exact ⟨rfl, by assumption, rfl, rfl, rfl⟩
        | succ k => simp at h3
      · cases h1'
    · rintro ⟨_, h1, rfl, rfl, rfl⟩
      refine ⟨[(.clbIoClk, [36])], [36], ?_, rfl, rfl⟩
      show (List.replicate n [(Db.ConfigBusType.clbIoClk, [36])])[row]? = _
      rw [List.getElem?_replicate, if_pos h1]

theorem rowsDesc_shape (n : Nat) (hn : n ≤ 2^32) : WellFormedDesc (rowsDesc n) ∧ DescShape (rowsDesc n) := by
  have hmem : ∀ half, half = (rowsDesc n).topRows ∨ half = (rowsDesc n).bottomRows → ∀ row ∈ half,
      row = [(Db.ConfigBusType.clbIoClk, [36])] := by
    intro half hh row hr
    rcases hh with rfl | rfl
    · exact List.eq_of_mem_replicate hr
    · cases hr
  refine ⟨?_, ?_, ?_, ?_, ?_⟩
  · intro half hh
    refine ⟨?_, fun row hr => ?_⟩
    · rcases hh with rfl | rfl
      · simpa [rowsDesc] using hn
      · simp [rowsDesc]
    · rw [hmem half hh row hr]; decide
  · intro half hh row hr bus hb
    rw [hmem half hh row hr] at hb
    rw [List.mem_singleton] at hb
    subst hb
    intro h; cases h
  · intro half hh row hr bus hb m hm
    rw [hmem half hh row hr, List.mem_singleton] at hb
    subst hb
    rw [List.mem_singleton] at hm
    omega
  · intro b row bus m h row' hr
    obtain ⟨h1, h2, h3, h4, h5⟩ := (rowsDesc_count ..).1 h
    exact ⟨36, (rowsDesc_count ..).2 ⟨h1, by omega, h3, rfl, rfl⟩⟩
  · intro row bus m h
    obtain ⟨h1, _⟩ := (rowsDesc_count ..).1 h
    cases h1

/-- Non-vacuity, both ways: with equal rows completion ends for up to 32 rows and not for more. -/
theorem rowsDesc_ends (n : Nat) (hn : n ≤ 2^32) (p : Part) (hp : Part.fromPart (rowsDesc n) = .ok p)
    {β : Type} (zero : β) (data : BMap β) :
    (∃ fuel r, addMissingFrames p zero fuel data = some r) ↔ n ≤ 32 := by
  obtain ⟨hw, hs⟩ := rowsDesc_shape n hn
  rw [C08_exact _ hw hs (fun b row bus col m h => by
    obtain ⟨_, _, _, _, h5⟩ := (rowsDesc_count ..).1 h; omega) p hp]
  constructor
  · intro h
    apply Classical.byContradiction
    intro hlt
    have := (h false 32 .clbIoClk 0 36 ((rowsDesc_count ..).2 ⟨rfl, by omega, rfl, rfl, rfl⟩)).1
    omega
  · intro h b row bus col m hc
    obtain ⟨_, h2, _, h4, _⟩ := (rowsDesc_count ..).1 hc
    omega

/-- A description with one column of 129 frames, one more than the minor field can number. -/
def wideDesc : Db.Part :=
  { bottomRows := [], topRows := [[(.clbIoClk, [129])]], idcode := 0x13631093#32, iobanks := [] }

/-- Finding, why 128 frames per column are required: with 129, completion ends, but the address after
the 128th frame is that of column 1, which the part does not have; a frame is added there, and the
129th frame of column 0 does not exist. -/
theorem C08_wide_column : WellFormedDesc wideDesc ∧ DescShape wideDesc ∧ ∃ p,
    Part.fromPart wideDesc = .ok p ∧ ∃ r, addMissingFrames p 0 200 ([] : BMap Nat) = some r ∧
      r.length = 129 ∧ r.get? 128 = some 0 ∧ p.isValid 128#32 = false := by
  have hd : ∀ b row bus m, describedCount wideDesc b row bus 0 = some m → b = false ∧ row = 0 ∧ bus = .clbIoClk := by
    intro b row bus m h
    obtain ⟨r, cols, h1, h2, h3⟩ := (describedCount_eq ..).1 h
    cases b with
    | true => cases row <;> cases h1
    | false =>
      cases row with
      | succ k => cases h1
      | zero =>
        cases h1
        cases bus <;> first | exact ⟨rfl, rfl, rfl⟩ | cases h2
  refine ⟨?_, ⟨?_, ?_, ?_, ?_⟩, _, rfl, ?_⟩
  · intro half h; rcases h with rfl | rfl <;> decide
  · intro half h; rcases h with rfl | rfl <;> decide
  · intro half h; rcases h with rfl | rfl <;> decide
  · intro b row bus m h row' hr
    obtain ⟨rfl, rfl, rfl⟩ := hd _ _ _ _ h
    have : row' = 0 := by omega
    subst this
    exact ⟨129, rfl⟩
  · intro row bus m h
    obtain ⟨h1, _, _⟩ := hd _ _ _ _ h
    cases h1
  · have h : (addMissingFrames ⟨wideDesc.idcode, regionFrom 0 [] wideDesc.topRows, regionFrom 0 [] wideDesc.bottomRows⟩
        0 200 ([] : BMap Nat)).any (fun r => decide (r.length = 129 ∧ r.get? 128 = some 0)) = true := by decide +kernel
    rw [Option.any_eq_true] at h
    obtain ⟨r, h1, h2⟩ := h
    have h3 := of_decide_eq_true h2
    exact ⟨r, h1, h3.1, h3.2, by decide +kernel⟩

end Verif.Props
