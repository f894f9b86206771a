import Verif.Proofs.PartWalk
import Verif.Spec.Description
/-! Geometry of a part built from a description. -/
namespace Verif.Xc7
open Verif.Spec Verif.Props FrameAddress

theorem busFrom_spec (cols : List Nat) : ∀ (i : Nat) (acc : Bus), acc.Sorted →
    (∀ x ∈ acc, x.1 < i) → i + cols.length ≤ 2^32 →
    (busFrom i acc cols).Sorted ∧ ∀ k, (busFrom i acc cols).get? k =
      if k < i then acc.get? k else (cols[k - i]?).map Column.mk := by
  induction cols with
  | nil =>
    intro i acc hs hlt _
    refine ⟨hs, fun k => ?_⟩
    simp only [busFrom]
    split
    · rfl
    · rename_i h
      simp only [List.getElem?_nil, Option.map_none]
      rw [BMap.get?_eq_none, BMap.find_eq_nil]
      intro x hx hk
      have := hlt x hx
      omega
  | cons n ns ih =>
    intro i acc hs hlt hlen
    simp only [busFrom]
    simp only [List.length_cons] at hlen
    have him : i % 2^32 = i := Nat.mod_eq_of_lt (by omega)
    rw [him]
    have hs' := BMap.sorted_emplace hs i (⟨n⟩ : Column)
    have := ih (i + 1) (acc.emplace i ⟨n⟩) hs' (by
      intro x hx
      rcases BMap.mem_emplace hx with h | h
      · subst h; simp
      · have := hlt x h; omega) (by omega)
    refine ⟨this.1, fun k => ?_⟩
    rw [this.2, BMap.get?_emplace hs]
    by_cases h1 : k < i
    · rw [if_pos (by omega), if_neg (by omega), if_pos h1]
    · rw [if_neg h1]
      by_cases h2 : k = i
      · subst h2
        rw [if_pos (by omega), if_pos rfl]
        have : acc.get? k = none := by
          rw [BMap.get?_eq_none, BMap.find_eq_nil]
          intro x hx hk
          have := hlt x hx
          omega
        simp [this]
      · rw [if_neg (by omega)]
        have : k - i = (k - (i + 1)) + 1 := by omega
        rw [this, List.getElem?_cons_succ]

theorem busFrom_get? (cols : List Nat) (h : cols.length ≤ 2^32) (k : Nat) :
    (busFrom 0 [] cols).get? k = (cols[k]?).map Column.mk := by
  have := (busFrom_spec cols 0 [] List.Pairwise.nil (by simp) (by omega)).2 k
  simpa using this

theorem busFrom_sorted (cols : List Nat) (h : cols.length ≤ 2^32) : (busFrom 0 [] cols).Sorted :=
  (busFrom_spec cols 0 [] List.Pairwise.nil (by simp) (by omega)).1

/-- First non-empty bus in iteration order that the code files under block number `b`. -/
def firstBus (row : Db.ClockRegionRow) (b : Nat) : Option (List Nat) :=
  (row.find? (fun x => !x.2.isEmpty && decide ((blockTypeFrom x.1).toNat = b))).map (·.2)

theorem rowFrom_spec (row : Db.ClockRegionRow) : ∀ acc : Row, acc.Sorted →
    (rowFrom acc row).Sorted ∧ ∀ b, (rowFrom acc row).get? b =
      match acc.get? b with
      | some x => some x
      | none => (firstBus row b).map (busFrom 0 []) := by
  induction row with
  | nil =>
    intro acc hs
    refine ⟨hs, fun b => ?_⟩
    simp only [rowFrom, firstBus, List.find?_nil, Option.map_none]
    cases acc.get? b <;> rfl
  | cons x rest ih =>
    intro acc hs
    obtain ⟨t, cols⟩ := x
    simp only [rowFrom]
    split
    · rename_i he
      obtain ⟨i1, i2⟩ := ih acc hs
      refine ⟨i1, fun b => ?_⟩
      rw [i2]
      simp [firstBus, he]
    · rename_i he
      obtain ⟨i1, i2⟩ := ih _ (BMap.sorted_emplace hs (blockTypeFrom t).toNat (busFrom 0 [] cols))
      refine ⟨i1, fun b => ?_⟩
      rw [i2, BMap.get?_emplace hs]
      simp only [firstBus, List.find?_cons]
      by_cases hb : b = (blockTypeFrom t).toNat
      · rw [if_pos hb]
        subst hb
        cases hg : acc.get? (blockTypeFrom t).toNat with
        | some y => simp
        | none => simp [he]
      · rw [if_neg hb]
        have : ¬ (blockTypeFrom t).toNat = b := fun h => hb h.symm
        simp [this]

theorem rowFrom_get? (row : Db.ClockRegionRow) (b : Nat) :
    (rowFrom [] row).get? b = (firstBus row b).map (busFrom 0 []) := by
  have := (rowFrom_spec row [] List.Pairwise.nil).2 b
  simpa [BMap.get?_nil] using this

theorem regionFrom_spec (rows : Db.ClockRegionHalf) : ∀ (i : Nat) (acc : Region), acc.Sorted →
    (∀ x ∈ acc, x.1 < i) → i + rows.length ≤ 2^32 →
    (regionFrom i acc rows).Sorted ∧ ∀ k, (regionFrom i acc rows).get? k =
      if k < i then acc.get? k else (rows[k - i]?).map (rowFrom []) := by
  induction rows with
  | nil =>
    intro i acc hs hlt _
    refine ⟨hs, fun k => ?_⟩
    simp only [regionFrom]
    split
    · rfl
    · rename_i h
      simp only [List.getElem?_nil, Option.map_none]
      rw [BMap.get?_eq_none, BMap.find_eq_nil]
      intro x hx hk
      have := hlt x hx
      omega
  | cons n ns ih =>
    intro i acc hs hlt hlen
    simp only [regionFrom]
    simp only [List.length_cons] at hlen
    have him : i % 2^32 = i := Nat.mod_eq_of_lt (by omega)
    rw [him]
    have hs' := BMap.sorted_emplace hs i (rowFrom [] n)
    have := ih (i + 1) (acc.emplace i (rowFrom [] n)) hs' (by
      intro x hx
      rcases BMap.mem_emplace hx with h | h
      · subst h; simp
      · have := hlt x h; omega) (by omega)
    refine ⟨this.1, fun k => ?_⟩
    rw [this.2, BMap.get?_emplace hs]
    by_cases h1 : k < i
    · rw [if_pos (by omega), if_neg (by omega), if_pos h1]
    · rw [if_neg h1]
      by_cases h2 : k = i
      · subst h2
        rw [if_pos (by omega), if_pos rfl]
        have : acc.get? k = none := by
          rw [BMap.get?_eq_none, BMap.find_eq_nil]
          intro x hx hk
          have := hlt x hx
          omega
        simp [this]
      · rw [if_neg (by omega)]
        have : k - i = (k - (i + 1)) + 1 := by omega
        rw [this, List.getElem?_cons_succ]

theorem regionFrom_get? (rows : Db.ClockRegionHalf) (h : rows.length ≤ 2^32) (k : Nat) :
    (regionFrom 0 [] rows).get? k = (rows[k]?).map (rowFrom []) := by
  have := (regionFrom_spec rows 0 [] List.Pairwise.nil (by simp) (by omega)).2 k
  simpa using this

theorem firstBus_mem {row : Db.ClockRegionRow} {b : Nat} {cols : List Nat}
    (h : firstBus row b = some cols) :
    ∃ t, (t, cols) ∈ row ∧ cols ≠ [] ∧ (blockTypeFrom t).toNat = b := by
  unfold firstBus at h
  rw [Option.map_eq_some_iff] at h
  obtain ⟨⟨t, c⟩, h1, h2⟩ := h
  simp only at h2
  subst h2
  have hm := List.mem_of_find?_eq_some h1
  have hp := List.find?_some h1
  simp only [Bool.and_eq_true, decide_eq_true_eq, Bool.not_eq_true'] at hp
  refine ⟨t, hm, ?_, hp.2⟩
  intro h0
  rw [h0] at hp
  simp at hp

theorem lookup_of_mem_nodup {row : Db.ClockRegionRow} (hn : (row.map (·.1)).Nodup)
    {t : Db.ConfigBusType} {cols : List Nat} (h : (t, cols) ∈ row) : row.lookup t = some cols := by
  induction row with
  | nil => simp at h
  | cons x xs ih =>
    obtain ⟨t', c'⟩ := x
    simp only [List.map_cons, List.nodup_cons] at hn
    rw [List.lookup_cons]
    rcases List.mem_cons.mp h with h | h
    · simp only [Prod.mk.injEq] at h
      simp [h.1, h.2]
    · have : t ≠ t' := by
        intro he
        apply hn.1
        rw [← he]
        exact List.mem_map.mpr ⟨(t, cols), h, rfl⟩
      have hb : (t == t') = false := by simpa using this
      rw [hb]
      exact ih hn.2 h

theorem mem_of_lookup {row : Db.ClockRegionRow} {t : Db.ConfigBusType} {cols : List Nat}
    (h : row.lookup t = some cols) : (t, cols) ∈ row := by
  induction row with
  | nil => simp at h
  | cons x xs ih =>
    obtain ⟨t', c'⟩ := x
    rw [List.lookup_cons] at h
    cases hb : t == t' with
    | true =>
      rw [hb] at h
      simp only [Option.some.injEq] at h
      have : t = t' := by simpa using hb
      simp [this, h]
    | false =>
      rw [hb] at h
      exact List.mem_cons_of_mem _ (ih h)

/-- The half of the description. -/
def descHalf (p : Db.Part) (bottom : Bool) : Db.ClockRegionHalf :=
  if bottom then p.bottomRows else p.topRows

/-- Frames of the constructed part, in terms of the row's first matching bus. -/
theorem hasFrame_fromPart (d : Db.Part) (hw : WellFormedDesc d) (p : Part)
    (hp : Part.fromPart d = .ok p) (c : Coord) :
    HasFrame p c ↔ ∃ row cols n, (descHalf d c.bottom)[c.row]? = some row ∧
      firstBus row c.block = some cols ∧ cols[c.column]? = some n ∧ c.minor < n := by
  simp only [Part.fromPart, Outcome.ok.injEq] at hp
  subst hp
  rw [hasFrame_iff]
  have hreg : (Part.region ⟨d.idcode, regionFrom 0 [] d.topRows, regionFrom 0 [] d.bottomRows⟩
      c.bottom) = regionFrom 0 [] (descHalf d c.bottom) := by
    unfold Part.region descHalf
    cases c.bottom <;> rfl
  rw [hreg]
  have hh : descHalf d c.bottom = d.topRows ∨ descHalf d c.bottom = d.bottomRows := by
    unfold descHalf; cases c.bottom <;> simp
  obtain ⟨hl, hrows⟩ := hw _ hh
  rw [regionFrom_get? _ hl]
  constructor
  · rintro ⟨r, b, col, h1, h2, h3, h4⟩
    rw [Option.map_eq_some_iff] at h1
    obtain ⟨row, h1, rfl⟩ := h1
    rw [rowFrom_get?, Option.map_eq_some_iff] at h2
    obtain ⟨cols, h2, rfl⟩ := h2
    obtain ⟨t, hm, _, _⟩ := firstBus_mem h2
    have hlen := (hrows row (List.mem_of_getElem? h1)).2 _ hm
    rw [busFrom_get? _ hlen, Option.map_eq_some_iff] at h3
    obtain ⟨n, h3, rfl⟩ := h3
    exact ⟨row, cols, n, h1, h2, h3, h4⟩
  · rintro ⟨row, cols, n, h1, h2, h3, h4⟩
    obtain ⟨t, hm, _, _⟩ := firstBus_mem h2
    have hlen := (hrows row (List.mem_of_getElem? h1)).2 _ hm
    exact ⟨rowFrom [] row, busFrom 0 [] cols, ⟨n⟩, by rw [h1]; rfl, by rw [rowFrom_get?, h2]; rfl,
      by rw [busFrom_get? _ hlen, h3]; rfl, h4⟩

theorem fits_fromPart (d : Db.Part) (hd : DescFits d) (p : Part) (hp : Part.fromPart d = .ok p) :
    Fits p := by
  simp only [Part.fromPart, Outcome.ok.injEq] at hp
  subst hp
  intro g hg
  have : ∃ half, (half = d.topRows ∨ half = d.bottomRows) ∧ g = regionFrom 0 [] half := by
    rcases hg with h | h
    · exact ⟨_, Or.inl rfl, h⟩
    · exact ⟨_, Or.inr rfl, h⟩
  obtain ⟨half, hh, rfl⟩ := this
  obtain ⟨hl, hrows⟩ := hd half hh
  have hspec := regionFrom_spec half 0 [] List.Pairwise.nil (by simp) (by omega)
  refine ⟨hspec.1, ?_⟩
  intro r hr
  have hget := BMap.get?_of_mem hspec.1 hr
  rw [regionFrom_get? _ (by omega), Option.map_eq_some_iff] at hget
  obtain ⟨row, h1, h2⟩ := hget
  have hlt : r.1 < half.length := (List.getElem?_eq_some_iff.mp h1).1
  have hrow := hrows row (List.mem_of_getElem? h1)
  have hrs := rowFrom_spec row [] List.Pairwise.nil
  refine ⟨by omega, by rw [← h2]; exact hrs.1, ?_⟩
  intro b hb
  rw [← h2] at hb
  have hgb := BMap.get?_of_mem hrs.1 hb
  rw [rowFrom_get?, Option.map_eq_some_iff] at hgb
  obtain ⟨cols, h3, h4⟩ := hgb
  obtain ⟨t, hm, _, _⟩ := firstBus_mem h3
  have hcols := hrow.2 _ hm
  simp only at hcols
  have hbs := busFrom_sorted cols (by omega)
  refine ⟨by rw [← h4]; exact hbs, ?_⟩
  intro c hc
  rw [← h4] at hc
  have hgc := BMap.get?_of_mem hbs hc
  rw [busFrom_get? _ (by omega), Option.map_eq_some_iff] at hgc
  obtain ⟨n, h5, h6⟩ := hgc
  have hlt2 : c.1 < cols.length := (List.getElem?_eq_some_iff.mp h5).1
  have hn := hcols.2 n (List.mem_of_getElem? h5)
  refine ⟨by omega, ?_⟩
  rw [← h6]; exact hn

end Verif.Xc7

namespace Verif.Xc7
open Verif.Spec Verif.Props FrameAddress

theorem DescFits.wf {d : Db.Part} (h : DescFits d) : WellFormedDesc d := by
  intro half hh
  obtain ⟨h1, h2⟩ := h half hh
  refine ⟨by omega, fun row hr => ⟨(h2 row hr).1, fun bus hb => ?_⟩⟩
  have := ((h2 row hr).2 bus hb).1
  omega

theorem descHalf_or (d : Db.Part) (b : Bool) :
    descHalf d b = d.topRows ∨ descHalf d b = d.bottomRows := by
  unfold descHalf; cases b <;> simp

theorem blockTypeFrom_eq {t : Db.ConfigBusType} (h : t ≠ .cfgClb) :
    (blockTypeFrom t).toNat = busNumber t := by
  cases t <;> first | rfl | exact absurd rfl h

theorem busNumber_inj {t u : Db.ConfigBusType} (h : busNumber t = busNumber u) : t = u := by
  cases t <;> cases u <;> simp_all [busNumber]

theorem firstBus_iff {row : Db.ClockRegionRow} (hn : (row.map (·.1)).Nodup)
    (hc : ∀ bus ∈ row, bus.1 = .cfgClb → bus.2 = []) (b : Nat) (cols : List Nat) :
    firstBus row b = some cols ↔ ∃ t, row.lookup t = some cols ∧ cols ≠ [] ∧ busNumber t = b := by
  constructor
  · intro h
    obtain ⟨t, h1, h2, h3⟩ := firstBus_mem h
    have ht : t ≠ .cfgClb := fun he => h2 (hc _ h1 he)
    exact ⟨t, lookup_of_mem_nodup hn h1, h2, by rw [← blockTypeFrom_eq ht]; exact h3⟩
  · rintro ⟨t, h1, h2, h3⟩
    have hm := mem_of_lookup h1
    have ht : t ≠ .cfgClb := fun he => h2 (hc _ hm he)
    cases hf : firstBus row b with
    | some cols' =>
      obtain ⟨t', g1, g2, g3⟩ := firstBus_mem hf
      have ht' : t' ≠ .cfgClb := fun he => g2 (hc _ g1 he)
      rw [blockTypeFrom_eq ht'] at g3
      have : t' = t := busNumber_inj (by omega)
      subst this
      rw [lookup_of_mem_nodup hn g1] at h1
      exact h1
    | none =>
      exfalso
      unfold firstBus at hf
      rw [Option.map_eq_none_iff, List.find?_eq_none] at hf
      have := hf _ hm
      apply this
      rw [blockTypeFrom_eq ht]
      simp [h3, h2]

theorem describedCount_eq (d : Db.Part) (b : Bool) (r : Nat) (t : Db.ConfigBusType) (c n : Nat) :
    describedCount d b r t c = some n ↔
      ∃ row cols, (descHalf d b)[r]? = some row ∧ row.lookup t = some cols ∧ cols[c]? = some n := by
  simp only [describedCount, Option.bind_eq_some_iff, descHalf]
  constructor
  · rintro ⟨cols, ⟨row, h1, h2⟩, h3⟩; exact ⟨row, cols, h1, h2, h3⟩
  · rintro ⟨row, cols, h1, h2, h3⟩; exact ⟨cols, ⟨row, h1, h2⟩, h3⟩

theorem hasFrame_iff_described (d : Db.Part) (hw : WellFormedDesc d) (hc : NoCfgClb d) (p : Part)
    (hp : Part.fromPart d = .ok p) (c : Coord) :
    HasFrame p c ↔ ∃ bus n, busNumber bus = c.block ∧
      describedCount d c.bottom c.row bus c.column = some n ∧ c.minor < n := by
  rw [hasFrame_fromPart d hw p hp c]
  have hh := descHalf_or d c.bottom
  constructor
  · rintro ⟨row, cols, n, h1, h2, h3, h4⟩
    have hm := List.mem_of_getElem? h1
    rw [firstBus_iff ((hw _ hh).2 row hm).1 (hc _ hh row hm)] at h2
    obtain ⟨t, g1, g2, g3⟩ := h2
    exact ⟨t, n, g3, (describedCount_eq ..).mpr ⟨row, cols, h1, g1, h3⟩, h4⟩
  · rintro ⟨t, n, g1, g2, g3⟩
    obtain ⟨row, cols, h1, h2, h3⟩ := (describedCount_eq ..).mp g2
    have hm := List.mem_of_getElem? h1
    refine ⟨row, cols, n, h1, ?_, h3, g3⟩
    rw [firstBus_iff ((hw _ hh).2 row hm).1 (hc _ hh row hm)]
    refine ⟨t, h2, ?_, g1⟩
    intro h0
    rw [h0] at h3
    simp at h3

theorem dense_of_shape (d : Db.Part) (hw : WellFormedDesc d) (hd : DescShape d) (p : Part)
    (hp : Part.fromPart d = .ok p) : Dense p := by
  have key := hasFrame_iff_described d hw hd.noCfg p hp
  have pos : ∀ b r t c n, describedCount d b r t c = some n → 0 < n := by
    intro b r t c n h
    obtain ⟨row, cols, h1, h2, h3⟩ := (describedCount_eq ..).mp h
    exact hd.positive _ (descHalf_or d b) row (List.mem_of_getElem? h1) _ (mem_of_lookup h2) n
      (List.mem_of_getElem? h3)
  have colz : ∀ b r t c n, describedCount d b r t c = some n → ∀ k ≤ c,
      ∃ n', describedCount d b r t k = some n' := by
    intro b r t c n h k hk
    obtain ⟨row, cols, h1, h2, h3⟩ := (describedCount_eq ..).mp h
    have : k < cols.length := by
      have := (List.getElem?_eq_some_iff.mp h3).1; omega
    exact ⟨cols[k], (describedCount_eq ..).mpr ⟨row, cols, h1, h2, by simp [this]⟩⟩
  constructor
  · intro c hc
    obtain ⟨t, n, h1, h2, h3⟩ := (key c).mp hc
    have : t ≠ .cfgClb := by
      intro ht
      subst ht
      obtain ⟨row, cols, g1, g2, g3⟩ := (describedCount_eq ..).mp h2
      have := hd.noCfg _ (descHalf_or d c.bottom) row (List.mem_of_getElem? g1) _ (mem_of_lookup g2) rfl
      simp only at this
      rw [this] at g3
      simp at g3
    cases t <;> simp_all [busNumber] <;> omega
  · intro c hc k hk
    obtain ⟨t, n, h1, h2, h3⟩ := (key c).mp hc
    obtain ⟨n', h4⟩ := colz _ _ _ _ _ h2 k hk
    exact (key _).mpr ⟨t, n', h1, h4, pos _ _ _ _ _ h4⟩
  · intro c hc r hr
    obtain ⟨t, n, h1, h2, h3⟩ := (key c).mp hc
    obtain ⟨n', h4⟩ := colz _ _ _ _ _ h2 0 (by omega)
    obtain ⟨n2, h5⟩ := hd.rows _ _ _ _ h4 r hr
    exact (key _).mpr ⟨t, n2, h1, h5, pos _ _ _ _ _ h5⟩
  · intro c hc
    obtain ⟨t, n, h1, h2, h3⟩ := (key c).mp hc
    obtain ⟨n', h4⟩ := colz _ _ _ _ _ h2 0 (by omega)
    have : ∃ n2, describedCount d false 0 t 0 = some n2 := by
      cases hb : c.bottom with
      | true => rw [hb] at h4; exact hd.halves _ _ _ h4
      | false => rw [hb] at h4; exact hd.rows _ _ _ _ h4 0 (by omega)
    obtain ⟨n2, h5⟩ := this
    exact (key _).mpr ⟨t, n2, h1, h5, pos _ _ _ _ _ h5⟩

theorem dense_fromPart (d : Db.Part) (hd : DescDense d) (p : Part) (hp : Part.fromPart d = .ok p) :
    Dense p :=
  dense_of_shape d (DescFits.wf hd.fits) ⟨hd.noCfg, hd.positive, hd.rows, hd.halves⟩ p hp

end Verif.Xc7
