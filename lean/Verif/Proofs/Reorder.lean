import Verif.Proofs.Stepdown
import Verif.Proofs.DbFiles
import Verif.Proofs.FromPart
/-! Databases that differ only in the iteration order of their hash maps. -/
namespace Verif.Asm
open Verif.Db Verif.Spec Verif.Xc7 Verif.Text

theorem _root_.Verif.Spec.Reordered.sameMap {κ ν : Type} [BEq κ] [LawfulBEq κ] {R : ν → ν → Prop} {m m' : List (κ × ν)}
    (h : Reordered R m m') (hn : (m.map (·.1)).Nodup) : SameMap R m m' := by
  have hn' : (m'.map (·.1)).Nodup := h.keys.nodup_iff.1 hn
  intro k
  cases h1 : m.lookup k with
  | none =>
    cases h2 : m'.lookup k with
    | none => trivial
    | some v' =>
      obtain ⟨v, hv, _⟩ := h.mem_right (Text.mem_of_lookup h2)
      rw [Text.lookup_of_mem hn hv] at h1
      cases h1
  | some v =>
    obtain ⟨v', hv', hR⟩ := h.mem_left (Text.mem_of_lookup h1)
    rw [Text.lookup_of_mem hn' hv']
    exact hR

theorem _root_.Verif.Spec.SameMap.symm {κ ν : Type} [BEq κ] {R R' : ν → ν → Prop} {m m' : List (κ × ν)} (h : SameMap R m m')
    (hR : ∀ a b, R a b → R' b a) : SameMap R' m' m := by
  intro k
  cases h1 : m'.lookup k with
  | none =>
    have := h k
    rw [h1] at this
    revert this
    cases m.lookup k with
    | none => exact id
    | some _ => exact id
  | some v' =>
    obtain ⟨v, h2, h3⟩ := h.some_right h1
    rw [h2]
    exact hR _ _ h3

theorem _root_.Verif.Spec.SameMap.refl {κ ν : Type} [BEq κ] {R : ν → ν → Prop} (hR : ∀ a, R a a) (m : List (κ × ν)) : SameMap R m m := by
  intro k
  cases m.lookup k with
  | none => trivial
  | some v => exact hR v

theorem perm_sameMap {κ ν : Type} [BEq κ] [LawfulBEq κ] {m m' : List (κ × ν)} (h : m.Perm m') (hn : (m.map (·.1)).Nodup) :
    SameMap (· = ·) m m' := by
  have hn' : (m'.map (·.1)).Nodup := (h.map _).nodup_iff.1 hn
  intro k
  cases h1 : m.lookup k with
  | none =>
    cases h2 : m'.lookup k with
    | none => trivial
    | some v' => rw [Text.lookup_of_mem hn (h.mem_iff.2 (Text.mem_of_lookup h2))] at h1; cases h1
  | some v => rw [Text.lookup_of_mem hn' (h.mem_iff.1 (Text.mem_of_lookup h1))]

theorem sameBlock_symm {b b' : BitsBlock} (h : SameBlock b b') : SameBlock b' b := by
  obtain ⟨h1, h2, h3, h4, h5⟩ := h
  refine ⟨h1.symm, h2.symm, h3.symm, h4.symm, ?_⟩
  revert h5
  cases b.alias? with
  | none => cases b'.alias? with
    | none => exact id
    | some _ => exact id
  | some a => cases b'.alias? with
    | none => exact id
    | some a' => rintro ⟨h6, h7, h8⟩; exact ⟨h6.symm, h7.symm, h8.symm fun _ _ e => e.symm⟩

theorem sameTile_symm {t t' : Tile} (h : SameTile t t') : SameTile t' t := ⟨h.1.symm, h.2.symm fun _ _ => sameBlock_symm⟩

theorem sameSegBits_refl (s : SegBits) : SameSegBits s s := ⟨.refl (fun _ => rfl) _, .refl (fun _ => .refl (fun _ => rfl) _) _⟩

theorem sameSegBits_symm {s s' : SegBits} (h : SameSegBits s s') : SameSegBits s' s :=
  ⟨h.1.symm fun _ _ e => e.symm, h.2.symm fun _ _ h' => h'.symm fun _ _ e => e.symm⟩

/-- Two lookups of a tile type give the same bits, or fail in the same way. -/
def SameBits (a b : Outcome (Option SegBits)) : Prop :=
  match a, b with
  | .ok (some s), .ok (some s') => SameSegBits s s'
  | .ok none, .ok none => True
  | .err, .err => True
  | .abort, .abort => True
  | .ub, .ub => True
  | _, _ => False

theorem sameBits_refl (a : Outcome (Option SegBits)) : SameBits a a := by
  cases a with
  | ok r => cases r with
    | none => trivial
    | some s => exact sameSegBits_refl s
  | err => trivial
  | abort => trivial
  | ub => trivial

theorem sameBits_symm {a b : Outcome (Option SegBits)} (h : SameBits a b) : SameBits b a := by
  cases a with
  | ok r =>
    cases b with
    | ok r' =>
      cases r with
      | none => cases r' with
        | none => trivial
        | some _ => exact h
      | some s => cases r' with
        | none => exact h
        | some s' => exact sameSegBits_symm h
    | err => cases r <;> exact h
    | abort => cases r <;> exact h
    | ub => cases r <;> exact h
  | err => cases b with
    | ok r => cases r <;> exact h
    | err => trivial
    | abort => exact h
    | ub => exact h
  | abort => cases b with
    | ok r => cases r <;> exact h
    | err => exact h
    | abort => trivial
    | ub => exact h
  | ub => cases b with
    | ok r => cases r <;> exact h
    | err => exact h
    | abort => exact h
    | ub => trivial

/-- What the assembler can see of two databases is the same. -/
structure SameAll (T T' : Tiles) : Prop where
  grid : SameMap SameTile T.grid T'.grid
  bits : ∀ ty, SameBits (T.bits ty) (T'.bits ty)
  sites : ∀ tile t t', T.grid.lookup tile = some t → T'.grid.lookup tile = some t' →
    ∀ pin, pin ∈ t.sites.map (·.1) ↔ pin ∈ t'.sites.map (·.1)
  pudc : ∀ tile pin, FirstPudcB T.grid tile pin ↔ FirstPudcB T'.grid tile pin
  tileBanks : ∀ tile, T.banks.tileBanks tile = T'.banks.tileBanks tile
  bankTiles : ∀ bank tile, (∃ ts, T.banks.tiles bank = some ts ∧ tile ∈ ts) ↔ ∃ ts, T'.banks.tiles bank = some ts ∧ tile ∈ ts
  bankKnown : ∀ bank, (∃ ts, T.banks.tiles bank = some ts) ↔ ∃ ts, T'.banks.tiles bank = some ts

theorem SameAll.symm {T T' : Tiles} (S : SameAll T T') : SameAll T' T :=
  ⟨S.grid.symm fun _ _ => sameTile_symm, fun ty => sameBits_symm (S.bits ty), fun tile t t' h h' pin => (S.sites tile t' t h' h pin).symm,
    fun tile pin => (S.pudc tile pin).symm, fun tile => (S.tileBanks tile).symm, fun b t => (S.bankTiles b t).symm, fun b => (S.bankKnown b).symm⟩

theorem SameAll.tiles {T T' : Tiles} (S : SameAll T T') : SameTiles T T' := ⟨S.grid, S.bits⟩

section Same
variable {T T' : Tiles} (S : SameAll T T')
include S

theorem basic_same (text : Bytes) : Basic T text = Basic T' text := by
  funext F
  unfold Basic PudcFeature
  simp only [S.pudc]

theorem stepTag_same (D : FasmFeature → Prop) (bank : Nat) (tag : Bytes) : StepTag T.banks D bank tag ↔ StepTag T'.banks D bank tag := by
  unfold StepTag
  simp only [S.tileBanks]

theorem stepdown_same (D : FasmFeature → Prop) (F : FasmFeature) (h : StepdownFeature T D F) : StepdownFeature T' D F := by
  refine ⟨h.1, ?_⟩
  rcases h.2 with ⟨bank, tag, ts, tile, t, pin, site, h1, h2, h3, h4, h5, h6, h7⟩ | ⟨bank, tag, ts, tile, h1, h2, h3, h4⟩
  · obtain ⟨t', ht', _⟩ := S.grid.some_left h5
    obtain ⟨ts', h8, h9⟩ := (S.bankTiles bank tile).1 ⟨ts, h2, h3⟩
    exact Or.inl ⟨bank, tag, ts', tile, t', pin, site, (stepTag_same S D bank tag).1 h1, h8, h9, h4, ht',
      (S.sites tile t t' h5 ht' pin).1 h6, h7⟩
  · obtain ⟨ts', h8, h9⟩ := (S.bankTiles bank tile).1 ⟨ts, h2, h3⟩
    exact Or.inr ⟨bank, tag, ts', tile, (stepTag_same S D bank tag).1 h1, h8, h9, h4⟩

theorem design_same (text : Bytes) : Design T text = Design T' text := by
  funext F
  unfold Design
  rw [basic_same S]
  exact propext (or_congr Iff.rfl ⟨stepdown_same S _ F, stepdown_same S.symm _ F⟩)

theorem aliasesAgree_same (hT' : TilesOk T') (h : AliasesOk T) : AliasesOk T' := by
  intro name t' ht'
  obtain ⟨t, ht, hs⟩ := S.grid.some_right ht'
  exact sameTile_agree (hT' _ _ ht') hs (h name t ht)

theorem lists_same (hT : TilesOk T) (hT' : TilesOk T') (hag : AliasesOk T) (D : FasmFeature → Prop) (tile : Bytes) (c : BitCall) (h : Lists T D tile c) :
    Lists T' D tile c := by
  obtain ⟨F, feature, addr, bits, h1, h2, h3, h4⟩ := h
  obtain ⟨bits', h5, h6⟩ := featureBits_same hT hT' S.tiles (hag tile) h3
  exact ⟨F, feature, addr, bits', h1, h2, h5, h6.mem_iff.2 h4⟩

theorem featureOk_same (hT : TilesOk T) (hT' : TilesOk T') (hag : AliasesOk T) (F : FasmFeature) (h : FeatureOk T F) : FeatureOk T' F := by
  obtain ⟨h1, h2, h3⟩ := h
  refine ⟨h1, h2, fun tile feature addr ha => ?_⟩
  obtain ⟨bits, h4, h5⟩ := h3 tile feature addr ha
  obtain ⟨bits', h6, h7⟩ := featureBits_same hT hT' S.tiles (hag tile) h4
  exact ⟨bits', h6, fun c hc => h5 c (h7.mem_iff.1 hc)⟩

theorem stepdownOk_same (D : FasmFeature → Prop) (h : StepdownOk T D) : StepdownOk T' D := by
  obtain ⟨h1, h2⟩ := h
  refine ⟨fun F tile site tag a b c => by rw [← S.tileBanks]; exact h1 F tile site tag a b c, fun bank tag hb => ?_⟩
  obtain ⟨ts, h3, h4⟩ := h2 bank tag ((stepTag_same S D bank tag).2 hb)
  obtain ⟨ts', h5⟩ := (S.bankKnown bank).1 ⟨ts, h3⟩
  refine ⟨ts', h5, fun tile ht ho => ?_⟩
  obtain ⟨ts2, h6, h7⟩ := (S.bankTiles bank tile).2 ⟨ts', h5, ht⟩
  rw [h3] at h6
  cases h6
  obtain ⟨t, h8, h9⟩ := h4 tile h7 ho
  obtain ⟨t', h10, _⟩ := S.grid.some_left h8
  exact ⟨t', h10, fun pin hp => h9 pin ((S.sites tile t t' h8 h10 pin).2 hp)⟩

theorem assembles_same (hT : TilesOk T) (hT' : TilesOk T') (hag : AliasesOk T) (text : Bytes) (h : Assembles T text) : Assembles T' text := by
  obtain ⟨h1, h2, h3, h4⟩ := h
  refine ⟨h1, by rw [← basic_same S]; exact stepdownOk_same S _ h2, fun F hF => featureOk_same S hT hT' hag F (h3 F ?_),
    fun tile pin hp => h4 tile pin ((S.pudc tile pin).2 hp)⟩
  rw [design_same S]; exact hF

theorem present_same (hT : TilesOk T) (hT' : TilesOk T') (hag : AliasesOk T) (D : FasmFeature → Prop) (k : Nat) (h : TouchesFrame T D k) : TouchesFrame T' D k := by
  obtain ⟨tile, c, h1, h2⟩ := h
  refine ⟨tile, c, lists_same S hT hT' hag D tile c h1, ?_⟩
  rcases h2 with h2 | ⟨t, block, i, h3, h4, h5, h6⟩
  · exact Or.inl h2
  · obtain ⟨t', h7, h8⟩ := S.grid.some_left h3
    obtain ⟨block', h9, h10⟩ := h8.2.some_left (Text.lookup_of_mem (hT _ _ h3) h4)
    exact Or.inr ⟨t', block', i, h7, Text.mem_of_lookup h9, by rw [← h10.2.1]; exact h5, by rw [← h10.1]; exact h6⟩

theorem framesOf_same (hT : TilesOk T) (hT' : TilesOk T') (hag : AliasesOk T) (D : FasmFeature → Prop) (fr : Frames) (h : FramesOf T D fr) : FramesOf T' D fr := by
  obtain ⟨h1, h2, h3⟩ := h
  refine ⟨h1, fun k w b => (h2 k w b).trans ?_, fun k => (h3 k).trans ⟨present_same S hT hT' hag D k, present_same S.symm hT' hT (aliasesAgree_same S hT' hag) D k⟩⟩
  constructor
  · rintro ⟨tile, c, hc, r⟩; exact ⟨tile, c, lists_same S hT hT' hag D tile c hc, r⟩
  · rintro ⟨tile, c, hc, r⟩; exact ⟨tile, c, lists_same S.symm hT' hT (aliasesAgree_same S hT' hag) D tile c hc, r⟩

theorem pudcOk_same (h : PudcOk T.grid) : PudcOk T'.grid := fun tile pin hp => h tile pin ((S.pudc tile pin).2 hp)

end Same

/-! ## The PUDC_B pin -/

theorem firstPudc_pin {grid : TileGrid} {tile pin : Bytes} (h : FirstPudcB grid tile pin) : PudcPin grid tile pin := by
  obtain ⟨g1, info, g2, p1, fn, p2, rfl, h2, h3, _⟩ := h
  exact ⟨info, fn, by simp, by rw [h2]; simp, h3⟩

theorem pin_first {grid : TileGrid} {tile pin : Bytes} (h : PudcPin grid tile pin) : ∃ tile' pin', FirstPudcB grid tile' pin' := by
  cases hf : firstPin grid with
  | some r => exact ⟨r.1, r.2, (firstPin_iff grid r.1 r.2).1 hf⟩
  | none =>
    exfalso
    obtain ⟨info, fn, h1, h2, h3⟩ := h
    revert hf
    induction grid with
    | nil => cases h1
    | cons e g ih =>
      obtain ⟨tl, inf⟩ := e
      intro hf
      rw [firstPin] at hf
      cases hfi : inf.pinFunctions.find? fun e => contains kPudcB e.2 with
      | some x => rw [hfi] at hf; cases hf
      | none =>
        rw [hfi] at hf
        rcases List.mem_cons.1 h1 with h1 | h1
        · cases h1
          have := List.find?_eq_none.1 hfi _ h2
          exact this ((contains_iff _ _).2 h3)
        · exact ih h1 hf

theorem firstPudc_iff {grid : TileGrid} (hu : ∀ t p t' p', PudcPin grid t p → PudcPin grid t' p' → t = t' ∧ p = p') (tile pin : Bytes) :
    FirstPudcB grid tile pin ↔ PudcPin grid tile pin := by
  refine ⟨firstPudc_pin, fun h => ?_⟩
  obtain ⟨t', p', h'⟩ := pin_first h
  obtain ⟨rfl, rfl⟩ := hu _ _ _ _ h (firstPudc_pin h')
  exact h'

theorem pudcPin_reordered {g g' : TileGrid} (h : Reordered TileReordered g g') (tile pin : Bytes) : PudcPin g tile pin ↔ PudcPin g' tile pin := by
  constructor
  · rintro ⟨info, fn, h1, h2, h3⟩
    obtain ⟨t', h4, h5⟩ := h.mem_left h1
    exact ⟨t', fn, h4, h5.2.2.2.2.2.2.1.mem_iff.1 h2, h3⟩
  · rintro ⟨info, fn, h1, h2, h3⟩
    obtain ⟨t', h4, h5⟩ := h.mem_right h1
    exact ⟨t', fn, h4, h5.2.2.2.2.2.2.1.mem_iff.2 h2, h3⟩

/-! ## The part -/

theorem regionFrom_rows (zs : List (ClockRegionRow × ClockRegionRow)) (h : ∀ z ∈ zs, rowFrom [] z.1 = rowFrom [] z.2) :
    ∀ i acc, regionFrom i acc (zs.map (·.1)) = regionFrom i acc (zs.map (·.2)) := by
  induction zs with
  | nil => intro i acc; rfl
  | cons z zs ih =>
    intro i acc
    simp only [List.map_cons, regionFrom]
    rw [h z (by simp), ih fun y hy => h y (by simp [hy])]

theorem find?_perm_unique {α : Type} (p : α → Bool) {l l' : List α} (h : l.Perm l')
    (hu : ∀ a ∈ l, ∀ b ∈ l, p a = true → p b = true → a = b) : l.find? p = l'.find? p := by
  cases h1 : l.find? p with
  | none =>
    symm
    rw [List.find?_eq_none] at h1 ⊢
    exact fun x hx => h1 x (h.mem_iff.2 hx)
  | some a =>
    cases h2 : l'.find? p with
    | none =>
      rw [List.find?_eq_none] at h2
      exact absurd (List.find?_some h1) (h2 a (h.mem_iff.1 (List.mem_of_find?_eq_some h1)))
    | some b =>
      rw [hu a (List.mem_of_find?_eq_some h1) b (h.mem_iff.2 (List.mem_of_find?_eq_some h2)) (List.find?_some h1) (List.find?_some h2)]

theorem rowFrom_perm {r r' : ClockRegionRow} (h : r.Perm r') (hn : (r.map (·.1)).Nodup)
    (hc : ∀ c c', (ConfigBusType.clbIoClk, c) ∈ r → (ConfigBusType.cfgClb, c') ∈ r → c = [] ∨ c' = []) : rowFrom [] r = rowFrom [] r' := by
  refine BMap.sorted_ext (rowFrom_spec r [] List.Pairwise.nil).1 (rowFrom_spec r' [] List.Pairwise.nil).1 fun b => ?_
  rw [rowFrom_get?, rowFrom_get?]
  unfold firstBus
  rw [find?_perm_unique _ h]
  rintro ⟨t, c⟩ ha ⟨t', c'⟩ hb h1 h2
  simp only [Bool.and_eq_true, Bool.not_eq_true', List.isEmpty_eq_false_iff, decide_eq_true_eq] at h1 h2
  have key : t = t' := by
    cases t <;> cases t' <;> first | rfl | skip
    all_goals first
      | (exfalso; have := h1.2.trans h2.2.symm; revert this; decide)
      | skip
    · exact absurd (hc _ _ ha hb) (by simp [h1.1, h2.1])
    · exact absurd (hc _ _ hb ha) (by simp [h1.1, h2.1])
  subst key
  have e1 := Text.lookup_of_mem hn ha
  rw [Text.lookup_of_mem hn hb] at e1
  cases e1
  rfl

theorem fromPart_reordered {p p' : Db.Part} (h : PartReordered p p') (hn : ∀ row, row ∈ p.topRows ∨ row ∈ p.bottomRows → (row.map (·.1)).Nodup)
    (hc : NoBusClash p) : Part.fromPart p = Part.fromPart p' := by
  obtain ⟨h1, _, ⟨zs, h3, h4, h5⟩, ⟨ws, h6, h7, h8⟩⟩ := h
  unfold Part.fromPart
  rw [h1, h3, h4, h6, h7]
  rw [regionFrom_rows zs fun z hz => ?_, regionFrom_rows ws fun z hz => ?_]
  · have hm : z.1 ∈ p.bottomRows := by rw [h6]; exact List.mem_map.2 ⟨z, hz, rfl⟩
    exact rowFrom_perm (h8 z hz) (hn _ (Or.inr hm)) (hc _ (Or.inr hm))
  · have hm : z.1 ∈ p.topRows := by rw [h3]; exact List.mem_map.2 ⟨z, hz, rfl⟩
    exact rowFrom_perm (h5 z hz) (hn _ (Or.inl hm)) (hc _ (Or.inl hm))

end Verif.Asm
