import Verif.Proofs.Stepdown
import Verif.Spec.Failure
/-! # How assembly fails -/
namespace Verif.Asm
open Verif.Db Verif.Spec Verif.Xc7 Verif.Text

/-! ## Statements -/

theorem pureBits_abort (order : Bits → Bits) (hord : ∀ l, (order l).Perm l) (tiles : Tiles) (hok : TilesOk tiles)
    (hload : FilesLoad tiles) (tileName feature : Bytes) (address : Nat)
    (h : ∀ bits, ¬ FeatureBits tiles tileName feature address bits) {σ : Type} (setter : BitSetter σ) (s : σ) :
    pureBits order tiles tileName feature address setter s = .abort := by
  cases hg : tiles.grid.lookup tileName with
  | none => unfold pureBits; rw [hg]
  | some t =>
    have hk := knownAs_exists t feature
    obtain ⟨r, hb⟩ := hload (t.bits.foldl (aliasStep feature) ⟨t.type, feature, []⟩).tileType
    cases r with
    | none => unfold pureBits; rw [hg]; dsimp only; rw [hb]; rfl
    | some sb =>
      obtain ⟨calls, h1, h2⟩ := pureBits_known order hord tiles tileName feature address t _ _ sb hg (hok _ _ hg) hk hb
      have h3 := h2 setter s
      by_cases hp : IsPip sb tileName (t.bits.foldl (aliasStep feature) ⟨t.type, feature, []⟩).tileType
          (t.bits.foldl (aliasStep feature) ⟨t.type, feature, []⟩).feature
      · exact absurd ⟨t, _, _, sb, hg, hk, hb, Or.inl ⟨hp, rfl⟩⟩ (h [])
      · by_cases hf : ∃ e ∈ t.bits, (listed sb ((t.bits.foldl (aliasStep feature) ⟨t.type, feature, []⟩).tileType ++ 0x2e ::
            (t.bits.foldl (aliasStep feature) ⟨t.type, feature, []⟩).feature, address) e.1).isSome
        · exact absurd ⟨t, _, _, sb, hg, hk, hb, Or.inr ⟨hp, hf, rfl⟩⟩ (h _)
        · exact h3.2.2 hp hf

section Loop
variable {tiles : Tiles} (hok : TilesOk tiles) (hload : FilesLoad tiles) (hin : BitsInside tiles)
  (order : Nat → Bits → Bits) (hord : ∀ a l, (order a l).Perm l) (F : FasmFeature) (tile feature : Bytes)
include hok hload hin hord

/-- The loop over the bits stops the program at the first unlisted bit. -/
theorem loop_abort (as : List Nat) (hr : ∀ a ∈ as, a < 64 ∧ (a : Int) + F.start < 2 ^ 31) (db : PartDatabase)
    (hdb : Reachable tiles db) (s : St) (hs : s.2.Sorted)
    (h : ∃ a ∈ as, F.bits.testBit a = true ∧ ∀ bits, ¬ FeatureBits tiles tile feature (addrOf F a) bits) :
    as.foldlM (bitStep order F tile feature) (db, s) = .abort := by
  induction as generalizing db s with
  | nil => obtain ⟨a, ha, _⟩ := h; cases ha
  | cons a as ih =>
    rw [List.foldlM_cons]
    obtain ⟨hr1, hr2⟩ := hr a (by simp)
    by_cases hbad : F.bits.testBit a = true ∧ ∀ bits, ¬ FeatureBits tiles tile feature (addrOf F a) bits
    · have hb : bitStep order F tile feature (db, s) a = .abort := by
        have hb : bitStep order F tile feature (db, s) a =
            db.configBits (order a) tile feature (addrOf F a) frameSetter s := by
          rw [bitStep, if_neg (by omega), if_neg (by omega), if_pos hbad.1]
          rfl
        rw [hb]
        obtain ⟨ht, hc⟩ := reachable_cache hdb
        obtain ⟨db', _, _, hp⟩ := configBits_pure (order a) db hc tile feature (addrOf F a)
        rw [hp, ht, pureBits_abort (order a) (hord a) tiles hok hload tile feature (addrOf F a) hbad.2]
        rfl
      rw [hb]; rfl
    · have hb : BitOk tiles F tile feature a := by
        refine ⟨⟨hr1, hr2⟩, fun ht => ?_⟩
        have : ¬ ∀ bits, ¬ FeatureBits tiles tile feature (addrOf F a) bits := fun h => hbad ⟨ht, h⟩
        obtain ⟨bits, hb⟩ := Classical.not_forall.1 this
        have hb := Classical.not_not.1 hb
        exact ⟨bits, hb, hin _ _ _ _ hb⟩
      obtain ⟨db1, s1, h1, h2, h3⟩ := bitStep_ok hok order hord F tile feature db hdb s hs a hb
      rw [h1]
      refine ih (fun a ha => hr a (List.mem_cons_of_mem _ ha)) db1 h2 s1 h3.grows.sorted ?_
      obtain ⟨a', ha', h'⟩ := h
      rcases List.mem_cons.1 ha' with rfl | ha'
      · exact absurd h' hbad
      · exact ⟨a', ha', h'⟩

end Loop

theorem feature_err (ord : HashOrder) (s : PartDatabase × Frames) (F : FasmFeature) (i : Nat) (h : 0x2e ∉ F.name) :
    processFeature ord s (F, i) = .err := by
  rcases splitMax_one 0x2e F.name with ⟨tile, feature, he, _, _⟩ | ⟨_, hsp⟩
  · exact absurd (by rw [he]; simp) h
  · unfold processFeature
    dsimp only
    rw [hsp]

theorem featureOk_iff {tiles : Tiles} (hin : BitsInside tiles) (F : FasmFeature) :
    FeatureOk tiles F ↔ InRange F ∧ 0x2e ∈ F.name ∧ ¬ AsksUnlisted tiles F := by
  constructor
  · rintro ⟨h1, h2, h3⟩
    refine ⟨h1, h2, ?_⟩
    rintro ⟨tile, feature, addr, h, hno⟩
    obtain ⟨bits, hb, _⟩ := h3 tile feature addr h
    exact hno bits hb
  · rintro ⟨h1, h2, h3⟩
    refine ⟨h1, h2, ?_⟩
    intro tile feature addr h
    by_cases hb : ∃ bits, FeatureBits tiles tile feature addr bits
    · obtain ⟨bits, hb⟩ := hb
      exact ⟨bits, hb, hin _ _ _ _ hb⟩
    · exact absurd ⟨tile, feature, addr, h, fun bits hbits => hb ⟨bits, hbits⟩⟩ h3

section Process
variable {tiles : Tiles} (hok : TilesOk tiles) (hload : FilesLoad tiles) (hin : BitsInside tiles)
  (ord : HashOrder) (hord : Permutes ord)
include hok hload hin hord

theorem feature_abort (F : FasmFeature) (i : Nat) (db : PartDatabase) (hdb : Reachable tiles db) (fr : Frames) (hs : fr.Sorted)
    (hr : InRange F) (h : AsksUnlisted tiles F) : processFeature ord (db, fr) (F, i) = .abort := by
  obtain ⟨tile, feature, addr, ⟨he, hn, a, ha, ht, rfl⟩, hno⟩ := h
  rcases splitMax_one 0x2e F.name with ⟨tile', feature', he', hn', hsp⟩ | ⟨hn', _⟩
  rotate_left
  · exact absurd (by rw [he]; simp) hn'
  rw [he] at he'
  obtain ⟨rfl, rfl⟩ := cut_unique he' hn hn'
  have hl := loop_abort hok hload hin (ord.bits i) (fun a l => hord.bits i a l) F tile feature (List.range F.width.toNat)
    (fun a ha => hr a (by rw [List.mem_range] at ha; omega)) db hdb ([], fr) hs
    ⟨a, by rw [List.mem_range]; omega, ht, hno⟩
  unfold processFeature
  dsimp only
  rw [hsp]
  dsimp only
  rw [hl]
  rfl

/-- The first statement that cannot be assembled decides. -/
theorem process_first (pre : List FasmFeature) (F : FasmFeature) (post : List FasmFeature) (n : Nat)
    (hpre : ∀ G ∈ pre, FeatureOk tiles G)
    (db : PartDatabase) (hdb : Reachable tiles db) (fr : Frames) (hs : fr.Sorted) :
    (0x2e ∉ F.name → ((pre ++ F :: post).zipIdx n).foldlM (processFeature ord) (db, fr) = .err) ∧
    (InRange F → AsksUnlisted tiles F → ((pre ++ F :: post).zipIdx n).foldlM (processFeature ord) (db, fr) = .abort) := by
  induction pre generalizing db fr n with
  | nil =>
    rw [List.nil_append, List.zipIdx_cons, List.foldlM_cons]
    constructor
    · intro h; rw [feature_err ord _ F n h]; rfl
    · intro hr h; rw [feature_abort hok hload hin ord hord F n db hdb fr hs hr h]; rfl
  | cons G pre ih =>
    rw [List.cons_append, List.zipIdx_cons, List.foldlM_cons]
    obtain ⟨db', fr', h1, h2, h3⟩ := feature_ok hok ord hord G n db hdb fr hs (hpre G (by simp))
    rw [h1]
    exact ih (n + 1) (fun G h => hpre G (List.mem_cons_of_mem _ h)) db' h2 fr' h3.sorted

end Process

/-! ## Lines -/

theorem getlines_flatten (text : Bytes) : (getlines text).flatten = text := by
  induction text with
  | nil => rfl
  | cons c r ih =>
    rw [getlines]
    split
    · rw [List.flatten_cons, ih]; rfl
    · split
      · rename_i h; rw [h] at ih; rw [← ih]; rfl
      · rename_i l ls h; rw [h] at ih; rw [← ih]; rfl

theorem getlines_split (a : List Bytes) (l : Bytes) (b : List Bytes) (text : Bytes) (h : getlines text = a ++ l :: b) :
    Place text a.flatten l b.flatten ∧ getlines a.flatten = a := by
  induction a generalizing text with
  | nil =>
    rw [List.nil_append] at h
    refine ⟨?_, rfl⟩
    rcases newline_cases text with hn | ⟨body, rest, rfl, hn⟩
    · cases text with
      | nil => cases h
      | cons c t =>
        rw [getlines_last _ (by simp) hn] at h
        obtain ⟨rfl, rfl⟩ := List.cons.inj h
        exact ⟨by simp, Or.inl rfl, Or.inr ⟨rfl, by simp, hn⟩⟩
    · rw [getlines_cut _ _ hn] at h
      obtain ⟨rfl, rfl⟩ := List.cons.inj h
      refine ⟨?_, Or.inl rfl, Or.inl ⟨body, rfl, hn⟩⟩
      rw [getlines_flatten]; simp
  | cons x a ih =>
    rw [List.cons_append] at h
    rcases newline_cases text with hn | ⟨body, rest, rfl, hn⟩
    · cases text with
      | nil => cases h
      | cons c t =>
        rw [getlines_last _ (by simp) hn] at h
        obtain ⟨_, h⟩ := List.cons.inj h
        simp at h
    · rw [getlines_cut _ _ hn] at h
      obtain ⟨rfl, h'⟩ := List.cons.inj h
      obtain ⟨⟨h1, h2, h3⟩, h4⟩ := ih rest h'
      rw [List.flatten_cons]
      refine ⟨⟨?_, Or.inr ?_, h3⟩, ?_⟩
      · rw [h1]; simp
      · rcases h2 with h2 | ⟨p, h2⟩
        · rw [h2]; exact ⟨body, by simp⟩
        · rw [h2]; exact ⟨body ++ [0x0a] ++ p, by simp⟩
      · rw [List.append_assoc, List.singleton_append, getlines_cut _ _ hn, h4]

theorem getlines_place {text pre line post : Bytes} (h : Place text pre line post) :
    getlines text = getlines pre ++ line :: getlines post := by
  obtain ⟨rfl, hp, hl⟩ := h
  have hmem : getlines (line ++ post) = line :: getlines post := by
    rcases hl with ⟨body, rfl, h⟩ | ⟨rfl, h0, h⟩
    · rw [List.append_assoc, List.singleton_append, getlines_cut _ _ h]
    · rw [List.append_nil, getlines_last _ h0 h]; rfl
  rcases hp with rfl | ⟨p, rfl⟩
  · rw [List.nil_append, hmem]; rfl
  · rw [List.append_assoc, List.append_assoc, List.singleton_append, getlines_append, hmem]

theorem place_isLine {text pre line post : Bytes} (h : Place text pre line post) : IsLine text line := ⟨pre, post, h⟩

/-! ## Added statements -/

/-- Reported by success or by stopping the program. -/
def Stops {α : Type} (o : Outcome α) : Prop := (∃ a, o = .ok a) ∨ o = .abort

theorem Stops.ok {α : Type} (a : α) : Stops (Outcome.ok a) := Or.inl ⟨a, rfl⟩
theorem Stops.abort {α : Type} : Stops (Outcome.abort : Outcome α) := Or.inr rfl

theorem Stops.bind {α β : Type} {o : Outcome α} {f : α → Outcome β} (h : Stops o) (hf : ∀ a, Stops (f a)) : Stops (o >>= f) := by
  rcases h with ⟨a, rfl⟩ | rfl
  · exact hf a
  · exact Or.inr rfl

theorem stops_mapM {α β : Type} {f : α → Outcome β} {l : List α} (h : ∀ a ∈ l, Stops (f a)) : Stops (l.mapM f) := by
  induction l with
  | nil => exact .ok []
  | cons a l ih =>
    rw [List.mapM_cons]
    exact (h a (by simp)).bind fun b => (ih fun a ha => h a (List.mem_cons_of_mem _ ha)).bind fun bs => .ok _

theorem stops_foldlM {α σ : Type} {f : σ → α → Outcome σ} {l : List α} (h : ∀ s, ∀ a ∈ l, Stops (f s a)) (s : σ) : Stops (l.foldlM f s) := by
  induction l generalizing s with
  | nil => exact .ok s
  | cons a l ih =>
    rw [List.foldlM_cons]
    exact (h s a (by simp)).bind fun s' => ih (fun s a ha => h s a (List.mem_cons_of_mem _ ha)) s'

theorem stops_scan (banks : Registry) (s : List Bytes × List (Nat × List Bytes)) (F : FasmFeature) : Stops (stepdownScan banks s F) := by
  unfold stepdownScan
  split
  · exact .ok _
  · split
    · dsimp only
      split
      · split
        · exact .abort
        · exact .ok _
      · exact .ok _
    · exact .ok _

theorem stops_iobSite (site : Bytes) (h : site ≠ []) : Stops (iobSite site) := by
  unfold iobSite lastCode
  cases hl : site.getLast? with
  | none => exact absurd (List.getLast?_eq_none_iff.1 hl) h
  | some c =>
    rw [Outcome.bind_ok]
    generalize (if c.toNat < 128 then (c.toNat : Int) else (c.toNat : Int) - 256) = y
    by_cases hy : y < 0
    · rw [if_pos hy]; exact .abort
    · rw [if_neg hy]; exact .ok _

theorem stepdown_stops (ord : HashOrder) (banks : Registry) (grid : TileGrid) (h : SitesNamed grid) (Fs : List FasmFeature) :
    Stops (stepdownFeatures ord banks grid Fs) := by
  unfold stepdownFeatures
  refine (stops_foldlM (fun s a _ => stops_scan banks s a) _).bind fun s => (stops_mapM fun e _ => ?_).bind fun l => .ok _
  unfold stepdownBank
  split
  · exact .abort
  · refine (stops_mapM fun tile _ => ?_).bind fun l => .ok _
    unfold stepdownTile
    refine Stops.bind ?_ fun _ => .ok _
    split
    · refine Stops.bind ?_ fun _ => .ok _
      unfold getIOBSites
      cases hg : grid.lookup tile with
      | none => exact .abort
      | some t => exact stops_mapM fun e he => stops_iobSite e.1 (h tile t hg e he)
    · exact .ok _

theorem first_bad {α : Type} (P : α → Prop) (l : List α) : (∀ x ∈ l, P x) ∨ ∃ a x b, l = a ++ x :: b ∧ (∀ y ∈ a, P y) ∧ ¬ P x := by
  induction l with
  | nil => exact Or.inl (by simp)
  | cons x l ih =>
    by_cases hx : P x
    · rcases ih with h | ⟨a, y, b, rfl, h1, h2⟩
      · exact Or.inl fun y hy => (List.mem_cons.1 hy).elim (fun e => e ▸ hx) (h y)
      · exact Or.inr ⟨x :: a, y, b, rfl, fun z hz => (List.mem_cons.1 hz).elim (fun e => e ▸ hx) (h1 z), h2⟩
    · exact Or.inr ⟨[], x, l, rfl, by simp, hx⟩

end Verif.Asm
