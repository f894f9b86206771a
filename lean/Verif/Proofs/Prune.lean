import Verif.Proofs.Diverge
/-! # Rows beyond the address fields that have no frames do not matter to the walk -/
namespace Verif.Xc7
open Verif.Spec Verif.Props FrameAddress

theorem find_append_left {β : Type} (m : BMap β) (m' : BMap β) (k : Nat) (h : ∀ x ∈ m', x.1 ≠ k) :
    (∃ rest v, BMap.find m k = (k, v) :: rest ∧ BMap.find (m ++ m') k = (k, v) :: (rest ++ m')) ∨
    (BMap.find m k = [] ∧ BMap.find (m ++ m') k = []) := by
  induction m with
  | nil => exact Or.inr ⟨rfl, BMap.find_eq_nil.2 h⟩
  | cons x xs ih =>
    obtain ⟨k', v⟩ := x
    by_cases hk : k' = k
    · subst hk
      refine Or.inl ⟨xs, v, ?_, ?_⟩ <;> simp [BMap.find]
    · simpa [BMap.find, hk] using ih

theorem regionIsValid_append (g g' : Region) (a : FrameAddress) (h : ∀ x ∈ g', x.1 ≠ (row a).toNat) :
    regionIsValid (g ++ g') a = regionIsValid g a := by
  unfold regionIsValid
  rcases find_append_left g g' (row a).toNat h with ⟨rest, v, h1, h2⟩ | ⟨h1, h2⟩ <;> rw [h1, h2]

theorem regionNext_append (g g' : Region) (a : FrameAddress) (h : ∀ x ∈ g', x.1 ≠ (row a).toNat)
    (hv : ∀ x ∈ g', ∀ n, rowIsValid x.2 n = false) : regionNext (g ++ g') a = regionNext g a := by
  rcases find_append_left g g' (row a).toNat h with ⟨rest, v, h1, h2⟩ | ⟨h1, h2⟩
  · simp only [regionNext, h1, h2]
    cases rowNext v a with
    | some n => rfl
    | none =>
      cases rest with
      | cons x xs => rfl
      | nil =>
        cases g' with
        | nil => rfl
        | cons y ys =>
          obtain ⟨k, r⟩ := y
          have := hv (k, r) (by simp)
          simp only at this
          simp [this]
  · simp only [regionNext, h1, h2]

/-- The rows the address field can name. -/
def Part.low (p : Part) : Part :=
  { p with top := p.top.takeWhile (fun r => decide (r.1 < 32)), bottom := p.bottom.takeWhile (fun r => decide (r.1 < 32)) }

theorem low_region (p : Part) (h : Bool) :
    p.low.region h = (p.region h).takeWhile (fun r => decide (r.1 < 32)) := by
  cases h <;> rfl

theorem dropWhile_high {g : Region} (hs : g.Sorted) :
    ∀ x ∈ g.dropWhile (fun r => decide (r.1 < 32)), 32 ≤ x.1 := by
  induction g with
  | nil => simp
  | cons y ys ih =>
    obtain ⟨h1, h2⟩ := List.pairwise_cons.1 hs
    intro x hx
    rw [List.dropWhile_cons] at hx
    split at hx
    · exact ih h2 x hx
    · rename_i hy
      simp only [decide_eq_true_eq, Nat.not_lt] at hy
      rcases List.mem_cons.1 hx with rfl | hx
      · exact hy
      · have := h1 x hx; omega

theorem row_empty (p : Part) (hp : Plain p) (hb : ∀ c, HasFrame p c → c.row < 32 ∧ c.column < 1024) (h : Bool) :
    ∀ x ∈ (p.region h).dropWhile (fun r => decide (r.1 < 32)), (∀ a : FrameAddress, x.1 ≠ (row a).toNat) ∧
      ∀ n, rowIsValid x.2 n = false := by
  intro x hx
  obtain ⟨hs, hr⟩ := hp h
  have h32 := dropWhile_high hs x hx
  have hmem : x ∈ p.region h := (List.dropWhile_suffix _).mem hx
  refine ⟨fun a => ?_, fun n => ?_⟩
  · have := (C02_coordOf_inRange a).2.1
    have e : (coordOf a).row = (row a).toNat := rfl
    omega
  · cases hv : rowIsValid x.2 n with
    | false => rfl
    | true =>
      exfalso
      rw [rowIsValid_iff] at hv
      obtain ⟨b, h1, h2⟩ := hv
      rw [busIsValid_iff] at h2
      obtain ⟨c, h3, h4⟩ := h2
      have := (hb ⟨(blockType n).toNat, h, x.1, (column n).toNat, (minor n).toNat⟩
        ((hasFrame_iff p _).2 ⟨x.2, b, c, BMap.get?_of_mem hs hmem, h1, h3, h4⟩)).1
      simp only at this
      omega

theorem low_next (p : Part) (hp : Plain p) (hb : ∀ c, HasFrame p c → c.row < 32 ∧ c.column < 1024) (a : FrameAddress) :
    p.low.next a = p.next a := by
  have hr : ∀ h (a : FrameAddress), regionNext (p.low.region h) a = regionNext (p.region h) a := by
    intro h a
    have := regionNext_append ((p.region h).takeWhile (fun r => decide (r.1 < 32)))
      ((p.region h).dropWhile (fun r => decide (r.1 < 32))) a
      (fun x hx => (row_empty p hp hb h x hx).1 a) (fun x hx => (row_empty p hp hb h x hx).2)
    rw [List.takeWhile_append_dropWhile] at this
    rw [low_region, this]
  have hv : ∀ h (a : FrameAddress), regionIsValid (p.low.region h) a = regionIsValid (p.region h) a := by
    intro h a
    have := regionIsValid_append ((p.region h).takeWhile (fun r => decide (r.1 < 32)))
      ((p.region h).dropWhile (fun r => decide (r.1 < 32))) a
      (fun x hx => (row_empty p hp hb h x hx).1 a)
    rw [List.takeWhile_append_dropWhile] at this
    rw [low_region, this]
  have hpv : ∀ a : FrameAddress, p.low.isValid a = p.isValid a := by
    intro a
    rw [isValid_eq_region, isValid_eq_region, hv]
  have hbv : ∀ a : FrameAddress, regionIsValid p.low.bottom a = regionIsValid p.bottom a := hv true
  unfold Part.next Part.nextBlock
  rw [part_next_region, part_next_region, hr]
  simp only [hpv, hbv]

theorem low_fits (p : Part) (hp : Plain p) (hb : ∀ c, HasFrame p c → c.row < 32 ∧ c.column < 1024) : Fits p.low := by
  have key : ∀ h, (p.low.region h).Sorted ∧ ∀ r ∈ p.low.region h, r.1 < 32 ∧ r.2.Sorted ∧
      ∀ b ∈ r.2, b.2.Sorted ∧ ∀ c ∈ b.2, c.1 < 1024 ∧ c.2.frameCount ≤ 128 := by
    intro h
    obtain ⟨hs, hr⟩ := hp h
    rw [low_region]
    have hsub := List.takeWhile_sublist (l := p.region h) (fun r => decide (r.1 < 32))
    refine ⟨hs.sublist hsub, fun r hrm => ?_⟩
    have hmem := hsub.mem hrm
    obtain ⟨h1, h2⟩ := hr r hmem
    have hlt : r.1 < 32 := by
      have := List.all_takeWhile (l := p.region h) (p := fun r => decide (r.1 < 32))
      have := List.all_eq_true.1 this r hrm
      simpa using this
    refine ⟨hlt, h1, fun b hbm => ⟨(h2 b hbm).1, fun c hc => ?_⟩⟩
    have hc2 := (h2 b hbm).2 c hc
    refine ⟨?_, hc2.2⟩
    exact (hb ⟨b.1, h, r.1, c.1, 0⟩ ((hasFrame_iff p _).2 ⟨r.2, b.2, c.2, BMap.get?_of_mem hs hmem,
      BMap.get?_of_mem h1 hbm, BMap.get?_of_mem (h2 b hbm).1 hc, hc2.1⟩)).2
  intro g hg
  rcases hg with rfl | rfl
  · exact key false
  · exact key true

theorem addMissingLoop_congr {β : Type} (p q : Part) (h : ∀ a, p.next a = q.next a) (zero : β) (fuel : Nat) :
    ∀ (a : FrameAddress) (data : BMap β), addMissingLoop p zero fuel a data = addMissingLoop q zero fuel a data := by
  induction fuel with
  | zero => intros; rfl
  | succ fuel ih =>
    intro a data
    simp only [addMissingLoop, h a]
    cases q.next a with
    | none => rfl
    | some n => exact ih n _

theorem terminates_low {β : Type} (p : Part) (hp : Plain p) (hb : ∀ c, HasFrame p c → c.row < 32 ∧ c.column < 1024)
    (zero : β) (data : BMap β) : ∃ r, addMissingFrames p zero (2^26) data = some r := by
  obtain ⟨r, hr⟩ := addMissingLoop_terminates p.low (low_fits p hp hb) zero (2^26) 0#32 data (by decide) (by decide)
  refine ⟨r, ?_⟩
  unfold addMissingFrames
  rw [addMissingLoop_congr p p.low (fun a => (low_next p hp hb a).symm)]
  exact hr

/-! ## From the description -/

theorem plain_fromPart (d : Db.Part) (hw : WellFormedDesc d)
    (hn : ∀ half, half = d.topRows ∨ half = d.bottomRows → ∀ row ∈ half, ∀ bus ∈ row, ∀ n ∈ bus.2, 0 < n ∧ n ≤ 128)
    (p : Part) (hp : Part.fromPart d = .ok p) : Plain p := by
  simp only [Part.fromPart, Outcome.ok.injEq] at hp
  subst hp
  intro h
  have : ∃ half, (half = d.topRows ∨ half = d.bottomRows) ∧
      Part.region ⟨d.idcode, regionFrom 0 [] d.topRows, regionFrom 0 [] d.bottomRows⟩ h = regionFrom 0 [] half := by
    cases h
    · exact ⟨_, Or.inl rfl, rfl⟩
    · exact ⟨_, Or.inr rfl, rfl⟩
  obtain ⟨half, hh, e⟩ := this
  rw [e]
  obtain ⟨hl, hrows⟩ := hw half hh
  have hspec := regionFrom_spec half 0 [] List.Pairwise.nil (by simp) (by omega)
  refine ⟨hspec.1, ?_⟩
  intro r hr
  have hget := BMap.get?_of_mem hspec.1 hr
  rw [regionFrom_get? _ (by omega), Option.map_eq_some_iff] at hget
  obtain ⟨row, h1, h2⟩ := hget
  have hm1 := List.mem_of_getElem? h1
  have hrow := hrows row hm1
  have hrs := rowFrom_spec row [] List.Pairwise.nil
  refine ⟨by rw [← h2]; exact hrs.1, ?_⟩
  intro b hb
  rw [← h2] at hb
  have hgb := BMap.get?_of_mem hrs.1 hb
  rw [rowFrom_get?, Option.map_eq_some_iff] at hgb
  obtain ⟨cols, h3, h4⟩ := hgb
  obtain ⟨t, hm, _, _⟩ := firstBus_mem h3
  have hcols := hrow.2 _ hm
  simp only at hcols
  have hbs := busFrom_sorted cols hcols
  refine ⟨by rw [← h4]; exact hbs, ?_⟩
  intro c hc
  rw [← h4] at hc
  have hgc := BMap.get?_of_mem hbs hc
  rw [busFrom_get? _ hcols, Option.map_eq_some_iff] at hgc
  obtain ⟨n, h5, h6⟩ := hgc
  have := hn half hh row hm1 _ hm n (List.mem_of_getElem? h5)
  rw [← h6]
  exact this

end Verif.Xc7
