import Verif.Spec.Concern
import Verif.Props.C106
/-! # C107: a design takes from the database what it names, and nothing else -/
namespace Verif.Props
open Verif.Db Verif.Spec Verif.Text Verif.Asm Verif.Xc7

section Agreeing
variable {tiles tiles' : Tiles} {text : Bytes} (ha : AgreeBits tiles tiles' text)

theorem _root_.Verif.Spec.Agree.toBits {tiles tiles' : Tiles} {text : Bytes} (h : Agree tiles tiles' text) : AgreeBits tiles tiles' text :=
  ⟨h.pudc, fun tile feature addr hq => (h.named tile feature addr hq).2, h.bankOf, h.bank, h.banked⟩

include ha

theorem basic_agree (F : FasmFeature) : Basic tiles' text F ↔ Basic tiles text F := by
  unfold Basic PudcFeature
  simp only [ha.pudc]

theorem stepTag_agree (bank : Nat) (tag : Bytes) :
    StepTag tiles'.banks (Basic tiles' text) bank tag ↔ StepTag tiles.banks (Basic tiles text) bank tag := by
  constructor
  · rintro ⟨F, tile, site, h1, h2, h3, h4⟩
    have h1 := (basic_agree ha F).1 h1
    exact ⟨F, tile, site, h1, h2, h3, by rw [← ha.bankOf F tile site tag h1 h2 h3]; exact h4⟩
  · rintro ⟨F, tile, site, h1, h2, h3, h4⟩
    exact ⟨F, tile, site, (basic_agree ha F).2 h1, h2, h3, by rw [ha.bankOf F tile site tag h1 h2 h3]; exact h4⟩

theorem usedSite_agree (tile site : Bytes) : UsedSite (Basic tiles' text) tile site ↔ UsedSite (Basic tiles text) tile site := by
  unfold UsedSite
  simp only [basic_agree ha]

omit ha in
theorem map_some_transfer {α β : Type} {o o' : Option α} {f : α → β} (h : o'.map f = o.map f) {a : α} (ha : o = some a) :
    ∃ a', o' = some a' ∧ f a' = f a := by
  subst ha
  cases o' with
  | none => simp at h
  | some a' => exact ⟨a', rfl, by simpa using h⟩

theorem stepdown_agree (F : FasmFeature) : StepdownFeature tiles' (Basic tiles' text) F ↔ StepdownFeature tiles (Basic tiles text) F := by
  unfold StepdownFeature
  refine and_congr_right fun _ => or_congr ?_ ?_
  · constructor
    · rintro ⟨bank, tag, ts, tile, t, pin, site, h1, h2, h3, h4, h5, h6, h7, h8, h9⟩
      have g1 := (stepTag_agree ha bank tag).1 h1
      have g2 : tiles.banks.tiles bank = some ts := by rw [← ha.bank bank tag g1]; exact h2
      obtain ⟨t', e1, e2⟩ := map_some_transfer (ha.banked tile ⟨bank, tag, ts, g1, g2, h3⟩ h4).symm h5
      exact ⟨bank, tag, ts, tile, t', pin, site, g1, g2, h3, h4, e1, by rw [e2]; exact h6, h7,
        by rw [← usedSite_agree ha]; exact h8, h9⟩
    · rintro ⟨bank, tag, ts, tile, t, pin, site, g1, g2, h3, h4, h5, h6, h7, h8, h9⟩
      obtain ⟨t', e1, e2⟩ := map_some_transfer (ha.banked tile ⟨bank, tag, ts, g1, g2, h3⟩ h4) h5
      exact ⟨bank, tag, ts, tile, t', pin, site, (stepTag_agree ha bank tag).2 g1, by rw [ha.bank bank tag g1]; exact g2, h3, h4,
        e1, by rw [e2]; exact h6, h7, by rw [usedSite_agree ha]; exact h8, h9⟩
  · constructor
    · rintro ⟨bank, tag, ts, tile, h1, h2, h3, h4, h5⟩
      have g1 := (stepTag_agree ha bank tag).1 h1
      exact ⟨bank, tag, ts, tile, g1, by rw [← ha.bank bank tag g1]; exact h2, h3, h4, h5⟩
    · rintro ⟨bank, tag, ts, tile, g1, g2, h3, h4, h5⟩
      exact ⟨bank, tag, ts, tile, (stepTag_agree ha bank tag).2 g1, by rw [ha.bank bank tag g1]; exact g2, h3, h4, h5⟩

theorem design_agree (F : FasmFeature) : Design tiles' text F ↔ Design tiles text F := by
  unfold Design
  rw [basic_agree ha, stepdown_agree ha]

omit ha in
theorem asks_named {F : FasmFeature} {tile feature : Bytes} {addr : Nat} (hF : Design tiles text F) (h : Asks F tile feature addr) :
    AsksFor tiles text tile feature addr :=
  ⟨F, hF, h⟩

theorem lists_agree (tile : Bytes) (c : BitCall) : Lists tiles' (Design tiles' text) tile c ↔ Lists tiles (Design tiles text) tile c := by
  unfold Lists
  constructor
  · rintro ⟨F, feature, addr, bits, h1, h2, h3, h4⟩
    have g1 := (design_agree ha F).1 h1
    exact ⟨F, feature, addr, bits, g1, h2, (ha.bits tile feature addr (asks_named g1 h2) bits).1 h3, h4⟩
  · rintro ⟨F, feature, addr, bits, g1, h2, h3, h4⟩
    exact ⟨F, feature, addr, bits, (design_agree ha F).2 g1, h2, (ha.bits tile feature addr (asks_named g1 h2) bits).2 h3, h4⟩

omit ha in
theorem lists_named {tile : Bytes} {c : BitCall} (h : Lists tiles (Design tiles text) tile c) : ∃ feature addr, AsksFor tiles text tile feature addr := by
  obtain ⟨F, feature, addr, bits, h1, h2, _⟩ := h
  exact ⟨feature, addr, asks_named h1 h2⟩

omit ha in
theorem framesOf_agree (ha : Agree tiles tiles' text) (fr : Frames) : FramesOf tiles' (Design tiles' text) fr ↔ FramesOf tiles (Design tiles text) fr := by
  unfold FramesOf
  refine and_congr_right fun _ => and_congr ?_ ?_
  · simp only [lists_agree ha.toBits]
  · refine forall_congr' fun k => iff_congr Iff.rfl (exists_congr fun tile => exists_congr fun c => ?_)
    rw [lists_agree ha.toBits]
    refine and_congr_right fun hl => or_congr Iff.rfl ?_
    obtain ⟨feature, addr, hn⟩ := lists_named hl
    have hb := (ha.named tile feature addr hn).1
    constructor
    · rintro ⟨t, block, i, h1, h2, h3⟩
      obtain ⟨t', e1, e2⟩ := map_some_transfer hb.symm h1
      exact ⟨t', block, i, e1, by rw [e2]; exact h2, h3⟩
    · rintro ⟨t, block, i, h1, h2, h3⟩
      obtain ⟨t', e1, e2⟩ := map_some_transfer hb h1
      exact ⟨t', block, i, e1, by rw [e2]; exact h2, h3⟩

theorem featureOk_agree {F : FasmFeature} (hF : Design tiles text F) : FeatureOk tiles' F ↔ FeatureOk tiles F := by
  unfold FeatureOk
  refine and_congr_right fun _ => and_congr_right fun _ => forall_congr' fun tile => forall_congr' fun feature => forall_congr' fun addr => ?_
  refine imp_congr_right fun hq => exists_congr fun bits => ?_
  rw [ha.bits tile feature addr (asks_named hF hq)]

theorem stepdownOk_agree : StepdownOk tiles' (Basic tiles' text) ↔ StepdownOk tiles (Basic tiles text) := by
  unfold StepdownOk
  refine and_congr ?_ ?_
  · refine forall_congr' fun F => forall_congr' fun tile => forall_congr' fun site => forall_congr' fun tag => ?_
    rw [basic_agree ha]
    refine imp_congr_right fun hF => imp_congr_right fun ht => imp_congr_right fun ho => ?_
    rw [ha.bankOf F tile site tag hF ht ho]
  · refine forall_congr' fun bank => forall_congr' fun tag => ?_
    rw [stepTag_agree ha]
    refine imp_congr_right fun ht => ?_
    rw [ha.bank bank tag ht]
    refine exists_congr fun ts => and_congr_right fun hts => forall_congr' fun tile => imp_congr_right fun hm => imp_congr_right fun ho => ?_
    have hb := ha.banked tile ⟨bank, tag, ts, ht, hts, hm⟩ ho
    constructor
    · rintro ⟨t, h1, h2⟩
      obtain ⟨t', e1, e2⟩ := map_some_transfer hb.symm h1
      exact ⟨t', e1, by rw [e2]; exact h2⟩
    · rintro ⟨t, h1, h2⟩
      obtain ⟨t', e1, e2⟩ := map_some_transfer hb h1
      exact ⟨t', e1, by rw [e2]; exact h2⟩

theorem assembles_agree : Assembles tiles' text ↔ Assembles tiles text := by
  unfold Assembles
  refine and_congr_right fun _ => and_congr (stepdownOk_agree ha) (and_congr (forall_congr' fun F => ?_)
    (forall_congr' fun tile => forall_congr' fun pin => imp_congr (ha.pudc tile pin) Iff.rfl))
  rw [design_agree ha]
  exact imp_congr_right fun hF => featureOk_agree ha hF

end Agreeing

/-- The same statements are added. -/
theorem C107_same_design {tiles tiles' : Tiles} {text : Bytes} (ha : Agree tiles tiles' text) (F : FasmFeature) :
    Design tiles' text F ↔ Design tiles text F := design_agree ha.toBits F

theorem featureBits_unique {tiles : Tiles} {tile feature : Bytes} {addr : Nat} {bits bits' : List BitCall}
    (h : FeatureBits tiles tile feature addr bits) (h' : FeatureBits tiles tile feature addr bits') : bits = bits' := by
  obtain ⟨t, ty, f, sb, g1, g2, g3, g4⟩ := h
  obtain ⟨t', ty', f', sb', g1', g2', g3', g4'⟩ := h'
  rw [g1] at g1'
  cases g1'
  obtain ⟨ty0, f0, _, hu⟩ := C48_one_name t feature
  obtain ⟨rfl, rfl⟩ := hu ty f g2
  obtain ⟨rfl, rfl⟩ := hu ty' f' g2'
  rw [g3] at g3'
  cases g3'
  rcases g4 with ⟨p1, p2⟩ | ⟨p1, _, p2⟩
  · rcases g4' with ⟨_, q2⟩ | ⟨q1, _⟩
    · rw [p2, q2]
    · exact absurd p1 q1
  · rcases g4' with ⟨q1, _⟩ | ⟨_, _, q2⟩
    · exact absurd q1 p1
    · rw [p2, q2]

section Frames
variable {tiles tiles' : Tiles} (hok : TilesOk tiles) (hok' : TilesOk tiles')
  (ord ord' : HashOrder) (hord : Permutes ord) (hord' : Permutes ord') (text : Bytes) (ha : Agree tiles tiles' text)
  (db db' : PartDatabase) (hdb : Reachable tiles db) (hdb' : Reachable tiles' db')
include hok hok' hord hord' hdb hdb' ha

/-- Databases that agree on the tiles a design names accept it alike. -/
theorem C107_succeeds : (∃ r, assembleFrames ord text db [] = .ok r) ↔ ∃ r, assembleFrames ord' text db' [] = .ok r := by
  rw [C50_succeeds hok ord hord text db hdb, C50_succeeds hok' ord' hord' text db' hdb', assembles_agree ha.toBits]

/-- And give the same frames. -/
theorem C107_same_frames (d d' : PartDatabase) (fr fr' : Frames) (h : assembleFrames ord text db [] = .ok (d, fr))
    (h' : assembleFrames ord' text db' [] = .ok (d', fr')) : fr' = fr :=
  framesOf_unique ((framesOf_agree ha fr').1 (C50_frames hok' ord' hord' text db' hdb' d' fr' h'))
    (C50_frames hok ord hord text db hdb d fr h)

omit hord' hdb' hok' ha in
/-- A database that says more agrees on what a design needs, if the first accepts the design. -/
theorem C107_extends_agrees (hx : Extends tiles tiles') (r : PartDatabase × Frames) (h : assembleFrames ord text db [] = .ok r) : Agree tiles tiles' text := by
  obtain ⟨_, ⟨hs1, hs2⟩, hF, _⟩ := (C50_succeeds hok ord hord text db hdb).1 ⟨r, h⟩
  refine ⟨hx.pudc, ?_, fun F tile site tag _ _ _ => by rw [hx.banks], fun bank tag _ => by rw [hx.banks], ?_⟩
  · rintro tile feature addr ⟨F, h1, h2⟩
    obtain ⟨bits, hb, _⟩ := (hF F h1).2.2 tile feature addr h2
    obtain ⟨t, ty, f, sb, g1, _⟩ := id hb
    obtain ⟨t', e1, e2, _⟩ := hx.grid tile t g1
    refine ⟨by rw [g1, e1, Option.map_some, Option.map_some, e2], fun bits' => ⟨fun hb' => ?_, hx.features _ _ _ _⟩⟩
    rw [featureBits_unique hb' (hx.features _ _ _ _ hb)]
    exact hb
  · rintro tile ⟨bank, tag, ts, g1, g2, g3⟩ ho
    obtain ⟨ts', e1, e2⟩ := hs2 bank tag g1
    rw [g2] at e1
    cases e1
    obtain ⟨t, e3, _⟩ := e2 tile g3 ho
    obtain ⟨t', e4, _, e5⟩ := hx.grid tile t e3
    rw [e3, e4, Option.map_some, Option.map_some, e5]

omit ha in
/-- A database extended by tiles and tile types gives a design the frames it had. -/
theorem C107_extended (hx : Extends tiles tiles') (d : PartDatabase) (fr : Frames) (h : assembleFrames ord text db [] = .ok (d, fr)) :
    ∃ d', assembleFrames ord' text db' [] = .ok (d', fr) := by
  have ha := C107_extends_agrees hok ord hord text db hdb hx _ h
  obtain ⟨⟨d', fr'⟩, h'⟩ := (C107_succeeds hok hok' ord ord' hord hord' text ha db db' hdb hdb').1 ⟨_, h⟩
  have := C107_same_frames hok hok' ord ord' hord hord' text ha db db' hdb hdb' d d' fr fr' h h'
  subst this
  exact ⟨d', h'⟩

end Frames

/-! ## Examples -/

/-- Only tile `T` and its type. -/
def onlyT : Tiles := { ioTiles with grid := [(bytes!"T", demoT)], bits := fun ty => .ok (if ty = bytes!"X" then some demoSeg else none) }

theorem onlyT_ok : TilesOk onlyT := by
  intro name t h
  have hm := mem_of_lookup h
  simp only [onlyT, List.mem_cons, List.not_mem_nil, or_false, Prod.mk.injEq] at hm
  rcases hm with ⟨_, rfl⟩
  decide

/-- A database with the tiles and types of another, and more, extends it. -/
theorem extends_of {tiles tiles' : Tiles} (hg : ∀ name t, tiles.grid.lookup name = some t → tiles'.grid.lookup name = some t)
    (hb : ∀ ty sb, tiles.bits ty = .ok (some sb) → tiles'.bits ty = .ok (some sb)) (hk : tiles'.banks = tiles.banks)
    (hp : ∀ tile pin, FirstPudcB tiles'.grid tile pin ↔ FirstPudcB tiles.grid tile pin) : Extends tiles tiles' := by
  refine ⟨fun name t h => ⟨t, hg name t h, rfl, rfl⟩, ?_, hk, hp⟩
  rintro tile feature addr bits ⟨t, ty, f, sb, h1, h2, h3, h4⟩
  exact ⟨t, ty, f, sb, hg tile t h1, h2, hb ty sb h3, h4⟩

/-- The example database extends it. -/
theorem onlyT_extended : Extends onlyT ioTiles := by
  refine extends_of ?_ ?_ rfl ?_
  · intro name t h
    have hm := mem_of_lookup h
    simp only [onlyT, List.mem_cons, List.not_mem_nil, or_false, Prod.mk.injEq] at hm
    rcases hm with ⟨rfl, rfl⟩
    rfl
  · intro ty sb h
    simp only [onlyT] at h
    by_cases hty : ty = bytes!"X"
    · subst hty; exact h
    · rw [if_neg hty] at h; cases h
  · intro tile pin
    rw [← firstPin_iff, ← firstPin_iff]
    have e1 : firstPin onlyT.grid = none := by decide
    have e2 : firstPin ioTiles.grid = none := by decide
    rw [e1, e2]

example : ∃ d d' fr, assembleFrames sameOrder bytes!"T.F\n" ⟨onlyT, []⟩ [] = .ok (d, fr) ∧ assembleFrames sameOrder bytes!"T.F\n" ⟨ioTiles, []⟩ [] = .ok (d', fr) := by
  obtain ⟨d', h⟩ := C107_extended onlyT_ok ioTiles_ok sameOrder sameOrder sameOrder_permutes sameOrder_permutes bytes!"T.F\n"
    ⟨onlyT, []⟩ ⟨ioTiles, []⟩ .fresh .fresh onlyT_extended _ _ rfl
  exact ⟨_, d', _, rfl, h⟩

/-- What a design does not name is not looked at: the STEPDOWN bits of type `I`, which the other example database changes, for the text `T.F`. -/
example : Agree ioTiles driveTiles bytes!"T.F\n" := by
  have hn : NoStepdown ioTiles bytes!"T.F\n" := noStepdown_of (by decide) _ rfl (by decide)
  refine ⟨fun _ _ => Iff.rfl, ?_, fun _ _ _ _ _ _ _ => rfl, fun _ _ _ => rfl, fun _ _ _ => rfl⟩
  rintro tile feature addr ⟨F, h1, h2⟩
  refine ⟨rfl, ?_⟩
  have hw : Written bytes!"T.F\n" F := by
    rcases (design_of_noStepdown hn F).1 h1 with ⟨t, p, s, h3, _⟩ | h
    · rw [← firstPin_iff] at h3
      have : firstPin ioTiles.grid = none := by decide
      rw [this] at h3
      cases h3
    · exact h
  have hF : F.name = bytes!"T.F" := by
    obtain ⟨r, hr, hn⟩ : ∃ r, (getlines bytes!"T.F\n").mapM plainLine = .ok r ∧ ∀ G ∈ r.flatten, G.name = bytes!"T.F" := ⟨_, rfl, by decide⟩
    exact hn F (((parsed_inv bytes!"T.F\n" r hr).2 F).2 hw)
  obtain ⟨e, hd, _⟩ := h2
  rw [hF] at e
  have ht : tile = bytes!"T" := (cut_unique (c := 0x2e) (a := bytes!"T") (b := bytes!"F") e (by decide) hd).1.symm
  subst ht
  have hbits : ∀ t ty f, ioTiles.grid.lookup bytes!"T" = some t → KnownAs t feature ty f → driveTiles.bits ty = ioTiles.bits ty := by
    intro t ty f g1 g2
    have : t = demoT := by
      have : ioTiles.grid.lookup bytes!"T" = some demoT := rfl
      rw [this] at g1
      cases g1
      rfl
    subst this
    have hty : ty = bytes!"X" := by
      rcases g2 with ⟨_, h, _⟩ | ⟨pre, bus, block, a, post, h1, h2, _⟩
      · exact h
      · have h3 : ∀ e ∈ demoT.bits, e.2.alias? = none := by decide
        have := h3 (bus, block) (by rw [h1]; simp)
        rw [h2] at this
        cases this
    subst hty
    rfl
  intro bits
  constructor
  · rintro ⟨t, ty, f, sb, g1, g2, g3, g4⟩
    exact ⟨t, ty, f, sb, g1, g2, by rw [← hbits t ty f g1 g2]; exact g3, g4⟩
  · rintro ⟨t, ty, f, sb, g1, g2, g3, g4⟩
    exact ⟨t, ty, f, sb, g1, g2, by rw [hbits t ty f g1 g2]; exact g3, g4⟩

end Verif.Props
