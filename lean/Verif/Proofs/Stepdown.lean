import Verif.Proofs.Assembler
/-! # STEPDOWN and assembly -/
namespace Verif.Asm
open Verif.Db Verif.Spec Verif.Xc7 Verif.Text

theorem hasTag_iff (F : FasmFeature) (tile site tag : Bytes) : HasTag F tile site tag ↔ F.bits ≠ 0 ∧ Parts F.name tile site tag := Iff.rfl

/-- Site names the scan remembers. -/
def UsedName (D : FasmFeature → Prop) (x : Bytes) : Prop :=
  ∃ F t s tag, D F ∧ HasTag F t s tag ∧ Occurs kIob33 t ∧ x = dotted t s

theorem usedSite_iff (D : FasmFeature → Prop) (tile site : Bytes) : UsedSite D tile site ↔ UsedName D (dotted tile site) := by
  unfold UsedSite UsedName dotted
  constructor
  · rintro ⟨F, t, s, tag, h1, h2, h3, h4⟩; exact ⟨F, t, s, tag, h1, h2, h3, h4.symm⟩
  · rintro ⟨F, t, s, tag, h1, h2, h3, h4⟩; exact ⟨F, t, s, tag, h1, h2, h3, h4.symm⟩

/-- The design uses STEPDOWN in tiles of known banks only. -/
def BanksOk (banks : Registry) (D : FasmFeature → Prop) : Prop :=
  ∀ F tile site tag, D F → HasTag F tile site tag → Occurs kStepdown tag → banks.tileBanks tile ≠ []

/-- State of the scan. -/
abbrev ScanSt := List Bytes × List (Nat × List Bytes)

/-- What the scan has seen. -/
structure Scanned (banks : Registry) (D : FasmFeature → Prop) (s s' : ScanSt) : Prop where
  used : ∀ x, x ∈ s'.1 ↔ x ∈ s.1 ∨ UsedName D x
  tags : ∀ bank tag, tag ∈ (s'.2.lookup bank).getD [] ↔ tag ∈ (s.2.lookup bank).getD [] ∨ StepTag banks D bank tag
  nodup : (s.2.map (·.1)).Nodup → (s'.2.map (·.1)).Nodup
  nonempty : (∀ e ∈ s.2, e.2 ≠ []) → ∀ e ∈ s'.2, e.2 ≠ []

theorem mem_assign_keys {κ ν : Type} [BEq κ] [LawfulBEq κ] (m : List (κ × ν)) (k : κ) (v : ν) :
    ((m.map (·.1)).Nodup → ((assign m k v).map (·.1)).Nodup) ∧ ∀ e ∈ assign m k v, e ∈ m ∨ e.2 = v := by
  unfold assign
  split
  · constructor
    · intro h
      have : (m.map fun e => if e.1 == k then (e.1, v) else e).map (·.1) = m.map (·.1) := by
        rw [List.map_map]
        refine List.map_congr_left ?_
        intro a _
        simp only [Function.comp]
        split <;> rfl
      rw [this]; exact h
    · intro e he
      obtain ⟨a, ha, rfl⟩ := List.mem_map.1 he
      split
      · exact Or.inr rfl
      · exact Or.inl ha
  · rename_i hno
    constructor
    · intro h
      rw [List.map_append, List.nodup_append]
      refine ⟨h, by simp, ?_⟩
      intro a ha b hb
      simp only [List.map_cons, List.map_nil, List.mem_singleton] at hb
      subst hb
      rintro rfl
      exact hno ((lookup_isSome_iff _ _).2 ha)
    · intro e he
      rcases List.mem_append.1 he with h | h
      · exact Or.inl h
      · rw [List.mem_singleton] at h; subst h; exact Or.inr rfl

theorem scan_step (banks : Registry) (s : ScanSt) (F : FasmFeature) (hok : BanksOk banks fun G => G = F) :
    ∃ s', stepdownScan banks s F = .ok s' ∧ Scanned banks (fun G => G = F) s s' := by
  unfold stepdownScan
  by_cases h0 : F.bits = 0
  · rw [if_pos h0]
    refine ⟨s, rfl, ?_, ?_, id, id⟩
    · intro x
      constructor
      · exact Or.inl
      · rintro (h | ⟨G, t, st, tag, rfl, h, _⟩)
        · exact h
        · exact absurd h0 h.1
    · intro bank tag
      constructor
      · exact Or.inl
      · rintro (h | ⟨G, t, st, rfl, h, _⟩)
        · exact h
        · exact absurd h0 h.1
  · rw [if_neg h0]
    rcases splitMax_three F.name with ⟨tile, site, tag, rest, hsp, hp⟩ | ⟨hno, hsp⟩
    · rw [hsp]
      dsimp only
      have htag : HasTag F tile site tag := (hasTag_iff _ _ _ _).2 ⟨h0, hp⟩
      have huniq : ∀ t s' g, HasTag F t s' g → t = tile ∧ s' = site ∧ g = tag := by
        intro t s' g h
        obtain ⟨e1, e2, e3⟩ := parts_unique ((hasTag_iff _ _ _ _).1 h).2 hp
        exact ⟨e1, e2, e3⟩
      have hused : ∀ x, x ∈ (if contains kIob33 tile then setInsert s.1 (dotted tile site) else s.1) ↔
          x ∈ s.1 ∨ UsedName (fun G => G = F) x := by
        intro x
        by_cases hi : contains kIob33 tile = true
        · rw [if_pos hi, mem_setInsert]
          refine or_congr Iff.rfl ?_
          constructor
          · rintro rfl; exact ⟨F, tile, site, tag, rfl, htag, (contains_iff _ _).1 hi, rfl⟩
          · rintro ⟨G, t, s', g, rfl, h1, _, rfl⟩
            obtain ⟨rfl, rfl, _⟩ := huniq t s' g h1; rfl
        · rw [if_neg hi]
          constructor
          · exact Or.inl
          · rintro (h | ⟨G, t, s', g, rfl, h1, h2, rfl⟩)
            · exact h
            · obtain ⟨rfl, rfl, _⟩ := huniq t s' g h1
              exact absurd ((contains_iff _ _).2 h2) hi
      by_cases hst : contains kStepdown tag = true
      · rw [if_pos hst]
        have hne := hok F tile site tag rfl htag ((contains_iff _ _).1 hst)
        cases hb : banks.tileBanks tile with
        | nil => exact absurd hb hne
        | cons bank bs =>
          dsimp only
          refine ⟨_, rfl, hused, ?_, ?_, ?_⟩
          · intro bank' tag'
            dsimp only
            unfold addToSet
            rw [lookup_assign]
            have hst' : StepTag banks (fun G => G = F) bank' tag' ↔ bank' = bank ∧ tag' = tag := by
              constructor
              · rintro ⟨G, t, s', rfl, h1, h2, h3⟩
                obtain ⟨rfl, rfl, rfl⟩ := huniq t s' tag' h1
                rw [hb] at h3
                cases h3
                exact ⟨rfl, rfl⟩
              · rintro ⟨rfl, rfl⟩
                exact ⟨F, tile, site, rfl, htag, (contains_iff _ _).1 hst, by rw [hb]; rfl⟩
            rw [hst']
            by_cases hbk : bank' = bank
            · subst hbk
              simp only [beq_self_eq_true, if_true, Option.getD_some, true_and]
              rw [mem_setInsert]
            · have : (bank' == bank) = false := by simpa using hbk
              rw [this]
              simp [hbk]
          · exact (mem_assign_keys _ _ _).1
          · intro hall e he
            rcases (mem_assign_keys _ _ _).2 e he with h | h
            · exact hall e h
            · rw [h]
              intro hnil
              have : tag ∈ setInsert ((s.2.lookup bank).getD []) tag := (mem_setInsert _ _ _).2 (Or.inr rfl)
              rw [hnil] at this
              cases this
      · rw [if_neg hst]
        refine ⟨_, rfl, hused, ?_, id, id⟩
        intro bank' tag'
        constructor
        · exact Or.inl
        · rintro (h | ⟨G, t, s', rfl, h1, h2, _⟩)
          · exact h
          · obtain ⟨rfl, rfl, rfl⟩ := huniq t s' tag' h1
            exact absurd ((contains_iff _ _).2 h2) hst
    · refine ⟨s, ?_, ?_, ?_, id, id⟩
      · split
        · rename_i h; exact absurd h (hsp _ _ _ _)
        · rfl
      · intro x
        constructor
        · exact Or.inl
        · rintro (h | ⟨G, t, st, tag, rfl, h, _⟩)
          · exact h
          · exact absurd ((hasTag_iff _ _ _ _).1 h).2 (hno _ _ _)
      · intro bank tag
        constructor
        · exact Or.inl
        · rintro (h | ⟨G, t, st, rfl, h, _⟩)
          · exact h
          · exact absurd ((hasTag_iff _ _ _ _).1 h).2 (hno _ _ _)

theorem scan_step_inv (banks : Registry) (s s' : ScanSt) (F : FasmFeature) (h : stepdownScan banks s F = .ok s') :
    BanksOk banks fun G => G = F := by
  rintro G tile site tag rfl htag hst hnil
  unfold stepdownScan at h
  rw [if_neg htag.1] at h
  rcases splitMax_three G.name with ⟨t, st, tg, rest, hsp, hp⟩ | ⟨hno, _⟩
  · obtain ⟨rfl, rfl, rfl⟩ := parts_unique hp ((hasTag_iff _ _ _ _).1 htag).2
    rw [hsp] at h
    dsimp only at h
    rw [if_pos (show contains kStepdown tg = true from (contains_iff _ _).2 hst), hnil] at h
    cases h
  · exact hno _ _ _ ((hasTag_iff _ _ _ _).1 htag).2

theorem Scanned.trans {banks : Registry} {D D' : FasmFeature → Prop} {a b c : ScanSt} (h : Scanned banks D a b)
    (h' : Scanned banks D' b c) : Scanned banks (fun F => D F ∨ D' F) a c := by
  refine ⟨?_, ?_, fun h0 => h'.nodup (h.nodup h0), fun h0 => h'.nonempty (h.nonempty h0)⟩
  · intro x
    rw [h'.used, h.used, or_assoc]
    simp only [UsedName, or_and_right, exists_or]
  · intro bank tag
    rw [h'.tags, h.tags, or_assoc]
    simp only [StepTag, or_and_right, exists_or]

theorem scan_ok (banks : Registry) (Fs : List FasmFeature) (s : ScanSt) (hok : BanksOk banks fun G => G ∈ Fs) :
    ∃ s', Fs.foldlM (stepdownScan banks) s = .ok s' ∧ Scanned banks (fun G => G ∈ Fs) s s' := by
  induction Fs generalizing s with
  | nil =>
    refine ⟨s, rfl, ?_, ?_, id, id⟩
    · intro x
      constructor
      · exact Or.inl
      · rintro (h | ⟨F, _, _, _, h, _⟩)
        · exact h
        · cases h
    · intro x y
      constructor
      · exact Or.inl
      · rintro (h | ⟨F, _, _, h, _⟩)
        · exact h
        · cases h
  | cons F Fs ih =>
    obtain ⟨s1, h1, h2⟩ := scan_step banks s F (by
      rintro G t st tg rfl; exact hok G t st tg (by simp))
    obtain ⟨s2, h3, h4⟩ := ih s1 fun G t st tg hG => hok G t st tg (List.mem_cons_of_mem _ hG)
    refine ⟨s2, ?_, ?_⟩
    · rw [List.foldlM_cons, h1]; exact h3
    · have hd : (fun G => G ∈ F :: Fs) = fun G => G = F ∨ G ∈ Fs := by funext G; simp
      rw [hd]; exact h2.trans h4

theorem scan_inv (banks : Registry) (Fs : List FasmFeature) (s s' : ScanSt) (h : Fs.foldlM (stepdownScan banks) s = .ok s') :
    BanksOk banks fun G => G ∈ Fs := by
  induction Fs generalizing s with
  | nil => intro G _ _ _ h; cases h
  | cons F Fs ih =>
    rw [List.foldlM_cons] at h
    obtain ⟨s1, h1, h2⟩ := Outcome.bind_eq_ok.1 h
    intro G t st tg hG
    rcases List.mem_cons.1 hG with rfl | hG
    · exact scan_step_inv banks s s1 G h1 G t st tg rfl
    · exact ih s1 h2 G t st tg hG

/-- A feature whose bank is not known ends the scan, whatever comes before. -/
theorem scan_abort (banks : Registry) (Fs : List FasmFeature) (s : ScanSt) (F : FasmFeature) (hF : F ∈ Fs) (tile site tag : Bytes)
    (ht : HasTag F tile site tag) (hs : Occurs kStepdown tag) (hb : banks.tileBanks tile = []) :
    Fs.foldlM (stepdownScan banks) s = .abort := by
  have hstep : ∀ (s : ScanSt) (G : FasmFeature), (∃ s', stepdownScan banks s G = .ok s') ∨ stepdownScan banks s G = .abort := by
    intro s G
    unfold stepdownScan
    split
    · exact Or.inl ⟨_, rfl⟩
    · split
      · dsimp only
        generalize (if contains kIob33 _ = true then _ else _) = used
        split
        · split
          · exact Or.inr rfl
          · exact Or.inl ⟨_, rfl⟩
        · exact Or.inl ⟨_, rfl⟩
      · exact Or.inl ⟨_, rfl⟩
  induction Fs generalizing s with
  | nil => cases hF
  | cons G Fs ih =>
    rw [List.foldlM_cons]
    rcases hstep s G with ⟨s', h⟩ | h
    · rw [h]
      rcases List.mem_cons.1 hF with rfl | hF
      · exact absurd hb (scan_step_inv banks s s' _ h _ _ _ _ rfl ht hs)
      · exact ih s' hF
    · rw [h]; rfl

/-! ## Features of a bank -/

/-- The sites of a tile have names. -/
def SitesOk (grid : TileGrid) (tile : Bytes) : Prop :=
  Occurs kIob33 tile → ∃ t, grid.lookup tile = some t ∧ ∀ pin ∈ t.sites.map (·.1), ∃ site, IobName pin site

theorem sites_ok {grid : TileGrid} {tile : Bytes} {t : Tile} (ht : grid.lookup tile = some t)
    (h : ∀ pin ∈ t.sites.map (·.1), ∃ site, IobName pin site) :
    ∃ sites, getIOBSites grid tile = .ok sites := by
  unfold getIOBSites
  rw [ht]
  refine mapM_ok _ _ ?_
  intro e he
  obtain ⟨site, hs⟩ := h e.1 (List.mem_map.2 ⟨e, he, rfl⟩)
  exact ⟨site, (iobSite_iff _ _).2 hs⟩

theorem sites_inv {grid : TileGrid} {tile : Bytes} {sites : List Bytes} (h : getIOBSites grid tile = .ok sites) :
    ∃ t, grid.lookup tile = some t ∧ (∀ pin ∈ t.sites.map (·.1), ∃ site, IobName pin site) ∧
      ∀ site, site ∈ sites ↔ ∃ pin ∈ t.sites.map (·.1), IobName pin site := by
  unfold getIOBSites at h
  cases ht : grid.lookup tile with
  | none => rw [ht] at h; cases h
  | some t =>
    rw [ht] at h
    obtain ⟨h1, h2⟩ := mapM_inv _ _ _ h
    refine ⟨t, rfl, ?_, ?_⟩
    · intro pin hp
      obtain ⟨e, he, rfl⟩ := List.mem_map.1 hp
      obtain ⟨site, hs⟩ := h1 e he
      exact ⟨site, (iobSite_iff _ _).1 hs⟩
    · intro site
      rw [h2]
      constructor
      · rintro ⟨e, he, h⟩; exact ⟨e.1, List.mem_map.2 ⟨e, he, rfl⟩, (iobSite_iff _ _).1 h⟩
      · rintro ⟨pin, hp, h⟩
        obtain ⟨e, he, rfl⟩ := List.mem_map.1 hp
        exact ⟨e, he, (iobSite_iff _ _).2 h⟩

/-- The features of a tile. -/
def TileFeat (grid : TileGrid) (used tags : List Bytes) (tile : Bytes) (F : FasmFeature) : Prop :=
  (∃ t pin site tag, Occurs kIob33 tile ∧ grid.lookup tile = some t ∧ pin ∈ t.sites.map (·.1) ∧ IobName pin site ∧
    dotted tile site ∉ used ∧ tag ∈ tags ∧ F = added (dotted (dotted tile site) tag)) ∨
  (Occurs kHclkIoi3 tile ∧ F = added (dotted tile kStepdown))

theorem tile_ok (grid : TileGrid) (used tags : List Bytes) (tile : Bytes) (h : SitesOk grid tile) :
    ∃ fs, stepdownTile grid used tags tile = .ok fs := by
  unfold stepdownTile
  by_cases hi : contains kIob33 tile = true
  · rw [if_pos hi]
    obtain ⟨t, ht, hp⟩ := h ((contains_iff _ _).1 hi)
    obtain ⟨sites, hs⟩ := sites_ok ht hp
    rw [hs]
    exact ⟨_, rfl⟩
  · rw [if_neg hi]
    exact ⟨_, rfl⟩

theorem tile_inv (grid : TileGrid) (used tags : List Bytes) (tile : Bytes) (fs : List FasmFeature)
    (h : stepdownTile grid used tags tile = .ok fs) : SitesOk grid tile ∧ ∀ F, F ∈ fs ↔ TileFeat grid used tags tile F := by
  unfold stepdownTile at h
  obtain ⟨fs1, h1, h2⟩ := Outcome.bind_eq_ok.1 h
  have hfs := Outcome.ok.inj h2
  have hclk : ∀ F, F ∈ (if contains kHclkIoi3 tile then [added (dotted tile kStepdown)] else []) ↔
      Occurs kHclkIoi3 tile ∧ F = added (dotted tile kStepdown) := by
    intro F
    by_cases hc : contains kHclkIoi3 tile = true
    · rw [if_pos hc, List.mem_singleton]
      exact ⟨fun h => ⟨(contains_iff _ _).1 hc, h⟩, fun h => h.2⟩
    · rw [if_neg hc]
      constructor
      · intro h; cases h
      · rintro ⟨h, _⟩; exact absurd ((contains_iff _ _).2 h) hc
  subst hfs
  by_cases hi : contains kIob33 tile = true
  · rw [if_pos hi] at h1
    obtain ⟨sites, h3, h4⟩ := Outcome.bind_eq_ok.1 h1
    obtain ⟨t, ht, hp, hs⟩ := sites_inv h3
    have h4 := Outcome.ok.inj h4
    subst h4
    refine ⟨fun _ => ⟨t, ht, hp⟩, ?_⟩
    intro F
    rw [List.mem_append, hclk]
    refine or_congr ?_ Iff.rfl
    rw [List.mem_flatMap]
    constructor
    · rintro ⟨site, hsite, hF⟩
      obtain ⟨pin, h5, h6⟩ := (hs site).1 hsite
      by_cases hu : used.contains (dotted tile site) = true
      · rw [if_pos hu] at hF; cases hF
      · rw [if_neg hu] at hF
        obtain ⟨tag, htag, rfl⟩ := List.mem_map.1 hF
        exact ⟨t, pin, site, tag, (contains_iff _ _).1 hi, ht, h5, h6, by simpa using hu, htag, rfl⟩
    · rintro ⟨t', pin, site, tag, _, ht', h5, h6, h7, h8, rfl⟩
      rw [ht] at ht'; cases ht'
      refine ⟨site, (hs site).2 ⟨pin, h5, h6⟩, ?_⟩
      rw [if_neg (by simpa using h7)]
      exact List.mem_map.2 ⟨tag, h8, rfl⟩
  · rw [if_neg hi] at h1
    have h1 := Outcome.ok.inj h1
    subst h1
    refine ⟨fun h => absurd ((contains_iff _ _).2 h) hi, ?_⟩
    intro F
    rw [List.nil_append, hclk]
    constructor
    · exact Or.inr
    · rintro (⟨_, _, _, _, h, _⟩ | h)
      · exact absurd ((contains_iff _ _).2 h) hi
      · exact h

section Stepdown
variable (ord : HashOrder) (hord : Permutes ord) (tiles : Tiles) (Fs : List FasmFeature)
include hord

theorem scan_bank (s : ScanSt) (hs : Scanned tiles.banks (fun G => G ∈ Fs) ([], []) s) :
    (∀ bank tags, (bank, tags) ∈ ord.banks s.2 → (∃ tag, StepTag tiles.banks (fun G => G ∈ Fs) bank tag) ∧
      ∀ tag, tag ∈ ord.tags bank tags ↔ StepTag tiles.banks (fun G => G ∈ Fs) bank tag) ∧
    ∀ bank tag, StepTag tiles.banks (fun G => G ∈ Fs) bank tag → ∃ tags, (bank, tags) ∈ ord.banks s.2 := by
  have hn : (s.2.map (·.1)).Nodup := hs.nodup (by simp)
  have hne := hs.nonempty (by simp)
  have ht : ∀ bank tag, tag ∈ (s.2.lookup bank).getD [] ↔ StepTag tiles.banks (fun G => G ∈ Fs) bank tag := by
    intro bank tag
    have := hs.tags bank tag
    simpa using this
  constructor
  · intro bank tags hm
    have hm' := (hord.banks s.2).mem_iff.1 hm
    have hl := lookup_of_mem hn hm'
    have ht' : ∀ tag, tag ∈ tags ↔ StepTag tiles.banks (fun G => G ∈ Fs) bank tag := by
      intro tag
      rw [← ht, hl]
      rfl
    refine ⟨?_, ?_⟩
    · cases htg : tags with
      | nil => exact absurd htg (hne _ hm')
      | cons x _ => exact ⟨x, (ht' x).1 (by rw [htg]; simp)⟩
    · intro tag; rw [(hord.tags bank tags).mem_iff, ht']
  · intro bank tag h
    have := (ht bank tag).2 h
    cases hl : s.2.lookup bank with
    | none => rw [hl] at this; cases this
    | some tags => exact ⟨tags, (hord.banks s.2).mem_iff.2 (mem_of_lookup hl)⟩

theorem stepdown_ok (h : StepdownOk tiles fun G => G ∈ Fs) : ∃ fs, stepdownFeatures ord tiles.banks tiles.grid Fs = .ok fs := by
  obtain ⟨h1, h2⟩ := h
  obtain ⟨s, h3, h4⟩ := scan_ok tiles.banks Fs ([], []) h1
  obtain ⟨hb, _⟩ := scan_bank ord hord tiles Fs s h4
  unfold stepdownFeatures
  rw [h3, Outcome.bind_ok]
  have : ∃ r, (ord.banks s.2).mapM (stepdownBank ord tiles.banks tiles.grid s.1) = .ok r := by
    refine mapM_ok _ _ ?_
    rintro ⟨bank, tags⟩ he
    obtain ⟨⟨tag, htag⟩, _⟩ := hb bank tags he
    obtain ⟨ts, hts, hall⟩ := h2 bank tag htag
    unfold stepdownBank
    dsimp only
    rw [hts]
    obtain ⟨r, hr⟩ := mapM_ok (stepdownTile tiles.grid s.1 (ord.tags bank tags)) ts fun tile htile => tile_ok _ _ _ _ (hall tile htile)
    dsimp only
    rw [hr]
    exact ⟨_, rfl⟩
  obtain ⟨r, hr⟩ := this
  exact ⟨r.flatten, by rw [hr]; rfl⟩

theorem stepdown_inv (fs : List FasmFeature) (h : stepdownFeatures ord tiles.banks tiles.grid Fs = .ok fs) :
    StepdownOk tiles (fun G => G ∈ Fs) ∧ ∀ F, F ∈ fs ↔ StepdownFeature tiles (fun G => G ∈ Fs) F := by
  unfold stepdownFeatures at h
  obtain ⟨s, h1, h⟩ := Outcome.bind_eq_ok.1 h
  obtain ⟨l, h2, h⟩ := Outcome.bind_eq_ok.1 h
  have h := Outcome.ok.inj h
  subst h
  have hbanks := scan_inv tiles.banks Fs _ _ h1
  obtain ⟨s', h3, h4⟩ := scan_ok tiles.banks Fs ([], []) hbanks
  rw [h1] at h3
  cases h3
  obtain ⟨hb, hb'⟩ := scan_bank ord hord tiles Fs s h4
  have hu : ∀ tile site, dotted tile site ∈ s.1 ↔ UsedSite (fun G => G ∈ Fs) tile site := by
    intro tile site
    rw [h4.used, usedSite_iff]
    simp
  obtain ⟨h5, h6⟩ := mapM_inv _ _ _ h2
  -- what each bank yields
  have hbank : ∀ bank tags, (bank, tags) ∈ ord.banks s.2 → ∃ ts l, tiles.banks.tiles bank = some ts ∧
      ts.mapM (stepdownTile tiles.grid s.1 (ord.tags bank tags)) = .ok l := by
    intro bank tags hm
    obtain ⟨b, hbk⟩ := h5 (bank, tags) hm
    unfold stepdownBank at hbk
    dsimp only at hbk
    cases hts : tiles.banks.tiles bank with
    | none => rw [hts] at hbk; cases hbk
    | some ts =>
      rw [hts] at hbk
      obtain ⟨l, hl, _⟩ := Outcome.bind_eq_ok.1 hbk
      exact ⟨ts, l, rfl, hl⟩
  refine ⟨⟨hbanks, ?_⟩, ?_⟩
  · intro bank tag htag
    obtain ⟨tags, hm⟩ := hb' bank tag htag
    obtain ⟨ts, l, hts, hl⟩ := hbank bank tags hm
    refine ⟨ts, hts, ?_⟩
    intro tile htile
    obtain ⟨fs, hfs⟩ := (mapM_inv _ _ _ hl).1 tile htile
    exact (tile_inv _ _ _ _ _ hfs).1
  · intro F
    have key : F ∈ l.flatten ↔ ∃ bank tags ts tile, (bank, tags) ∈ ord.banks s.2 ∧ tiles.banks.tiles bank = some ts ∧ tile ∈ ts ∧
        TileFeat tiles.grid s.1 (ord.tags bank tags) tile F := by
      rw [List.mem_flatten]
      constructor
      · rintro ⟨fs, hfs, hF⟩
        obtain ⟨⟨bank, tags⟩, hm, he⟩ := (h6 fs).1 hfs
        obtain ⟨ts, l', hts, hl⟩ := hbank bank tags hm
        unfold stepdownBank at he
        dsimp only at he
        rw [hts] at he
        dsimp only at he
        rw [hl] at he
        have he := Outcome.ok.inj he
        subst he
        obtain ⟨fs', hfs', hF'⟩ := List.mem_flatten.1 hF
        obtain ⟨tile, htile, hst⟩ := ((mapM_inv _ _ _ hl).2 fs').1 hfs'
        exact ⟨bank, tags, ts, tile, hm, hts, htile, ((tile_inv _ _ _ _ _ hst).2 F).1 hF'⟩
      · rintro ⟨bank, tags, ts, tile, hm, hts, htile, hF⟩
        obtain ⟨ts', l', hts', hl⟩ := hbank bank tags hm
        rw [hts] at hts'; cases hts'
        obtain ⟨fs, hfs⟩ := (mapM_inv _ _ _ hl).1 tile htile
        refine ⟨l'.flatten, (h6 _).2 ⟨(bank, tags), hm, ?_⟩, ?_⟩
        · unfold stepdownBank
          dsimp only
          rw [hts]
          dsimp only
          rw [hl]; rfl
        · exact List.mem_flatten.2 ⟨fs, ((mapM_inv _ _ _ hl).2 fs).2 ⟨tile, htile, hfs⟩, ((tile_inv _ _ _ _ _ hfs).2 F).2 hF⟩
    rw [key]
    constructor
    · rintro ⟨bank, tags, ts, tile, hm, hts, htile, hF⟩
      obtain ⟨⟨tag0, htag0⟩, htags⟩ := hb bank tags hm
      rcases hF with ⟨t, pin, site, tag, h1, h2, h3, h4, h5, h6, h7⟩ | ⟨h1, h7⟩
      · obtain ⟨hm, hn⟩ := (made_iff F _).2 h7
        refine ⟨hm, Or.inl ⟨bank, tag, ts, tile, t, pin, site, (htags tag).1 h6, hts, htile, h1, h2, h3, h4, ?_, ?_⟩⟩
        · intro h; exact h5 ((hu _ _).2 h)
        · rw [hn]; rfl
      · obtain ⟨hm, hn⟩ := (made_iff F _).2 h7
        exact ⟨hm, Or.inr ⟨bank, tag0, ts, tile, htag0, hts, htile, h1, by rw [hn]; rfl⟩⟩
    · rintro ⟨hm, ⟨bank, tag, ts, tile, t, pin, site, h1, h2, h3, h4, h5, h6, h7, h8, h9⟩ | ⟨bank, tag, ts, tile, h1, h2, h3, h4, h5⟩⟩
      · obtain ⟨tags, hmem⟩ := hb' bank tag h1
        refine ⟨bank, tags, ts, tile, hmem, h2, h3, Or.inl ⟨t, pin, site, tag, h4, h5, h6, h7, ?_, ?_, ?_⟩⟩
        · intro h; exact h8 ((hu _ _).1 h)
        · exact ((hb bank tags hmem).2 tag).2 h1
        · exact (made_iff F _).1 ⟨hm, by rw [h9]; rfl⟩
      · obtain ⟨tags, hmem⟩ := hb' bank tag h1
        exact ⟨bank, tags, ts, tile, hmem, h2, h3, Or.inr ⟨h4, (made_iff F _).1 ⟨hm, h5⟩⟩⟩

end Stepdown

/-! ## Assembly -/

theorem growsFramesOf {tiles : Tiles} {D : FasmFeature → Prop} {fr : Frames} (h : Grows (BOf tiles D) (XOf tiles D) [] fr) : FramesOf tiles D fr := by
  refine ⟨h.sorted, ?_, ?_⟩
  · intro k w b
    rw [h.bit]
    constructor
    · rintro (⟨_, _, h, _⟩ | h)
      · cases h
      · exact h
    · exact Or.inr
  · intro k
    rw [h.frame]
    constructor
    · rintro (⟨_, h⟩ | h)
      · cases h
      · exact h
    · exact Or.inr

section Assemble
variable {tiles : Tiles} (hok : TilesOk tiles) (ord : HashOrder) (hord : Permutes ord) (text : Bytes)
  (db : PartDatabase) (hdb : Reachable tiles db)
include hok hord hdb

theorem assemble_ok (h : Assembles tiles text) : ∃ db' fr, assembleFrames ord text db [] = .ok (db', fr) ∧ Reachable tiles db' ∧
    FramesOf tiles (Design tiles text) fr := by
  obtain ⟨h1, h2, h3, hpudc⟩ := h
  obtain ⟨pudcb, h4, h5⟩ := pudcb_ok tiles.grid hpudc
  obtain ⟨parsed, h6⟩ := parsed_ok text h1
  obtain ⟨_, h7⟩ := parsed_inv text parsed h6
  have hb : (fun G => G ∈ pudcb ++ parsed.flatten) = Basic tiles text := by
    funext G
    rw [List.mem_append, h5, h7]; rfl
  obtain ⟨sd, h8⟩ := stepdown_ok ord hord tiles (pudcb ++ parsed.flatten) (by rw [hb]; exact h2)
  obtain ⟨_, h9⟩ := stepdown_inv ord hord tiles _ _ h8
  rw [hb] at h9
  have hd : (fun G => G ∈ pudcb ++ parsed.flatten ++ sd) = Design tiles text := by
    funext G
    have : (G ∈ pudcb ++ parsed.flatten) = Basic tiles text G := congrFun hb G
    rw [List.mem_append, h9, this]; rfl
  obtain ⟨db', fr, h10, h11, h12⟩ := process_ok hok ord hord (pudcb ++ parsed.flatten ++ sd) db hdb [] List.Pairwise.nil (by
    intro F hF
    exact h3 F ((congrFun hd F) ▸ hF))
  rw [hd] at h12
  refine ⟨db', fr, ?_, h11, growsFramesOf h12⟩
  unfold assembleFrames
  rw [(reachable_cache hdb).1, h4, Outcome.bind_ok, (lines_plain text parsed).2 h6, Outcome.bind_ok, h8, Outcome.bind_ok]
  exact h10

theorem assemble_inv (r : PartDatabase × Frames) (h : assembleFrames ord text db [] = .ok r) :
    Assembles tiles text := by
  unfold assembleFrames at h
  rw [(reachable_cache hdb).1] at h
  obtain ⟨pudcb, h4, h⟩ := Outcome.bind_eq_ok.1 h
  have hpudc := pudcb_inv _ _ h4
  obtain ⟨pudcb', h4', h5⟩ := pudcb_ok tiles.grid hpudc
  rw [h4'] at h4
  cases h4
  obtain ⟨parsed, h6, h⟩ := Outcome.bind_eq_ok.1 h
  have h6 := (lines_plain text parsed).1 h6
  obtain ⟨h1, h7⟩ := parsed_inv text parsed h6
  obtain ⟨sd, h8, h⟩ := Outcome.bind_eq_ok.1 h
  have hb : (fun G => G ∈ pudcb ++ parsed.flatten) = Basic tiles text := by
    funext G
    rw [List.mem_append, h5, h7]; rfl
  obtain ⟨h2, h9⟩ := stepdown_inv ord hord tiles _ _ h8
  rw [hb] at h9 h2
  have hd : (fun G => G ∈ pudcb ++ parsed.flatten ++ sd) = Design tiles text := by
    funext G
    have : (G ∈ pudcb ++ parsed.flatten) = Basic tiles text G := congrFun hb G
    rw [List.mem_append, h9, this]; rfl
  refine ⟨h1, h2, ?_, hpudc⟩
  intro F hF
  refine process_inv hok ord hord _ db hdb [] List.Pairwise.nil r h F ?_
  rw [← hd] at hF
  exact hF

end Assemble

end Verif.Asm
