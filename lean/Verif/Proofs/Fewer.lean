import Verif.Proofs.ConfigBits
import Verif.Model.Assembler
/-! # A database that knows fewer tile types -/
namespace Verif.Asm
open Verif.Db Verif.Spec Verif.Text

/-- The same database, but some tile types cannot be had. -/
structure Fewer (t t' : Tiles) : Prop where
  grid : t'.grid = t.grid
  banks : t'.banks = t.banks
  part : t'.part = t.part
  bits : ∀ ty, t'.bits ty = t.bits ty ∨ t'.bits ty = .ok none

theorem foldlM_rel {α σ τ : Type} (R : σ → τ → Prop) (f : σ → α → Outcome σ) (g : τ → α → Outcome τ)
    (h : ∀ s t a s', R s t → f s a = .ok s' → ∃ t', g t a = .ok t' ∧ R s' t') :
    ∀ (l : List α) (s : σ) (t : τ) (s' : σ), R s t → l.foldlM f s = .ok s' → ∃ t', l.foldlM g t = .ok t' ∧ R s' t' := by
  intro l
  induction l with
  | nil =>
    intro s t s' hr hs
    cases hs
    exact ⟨t, rfl, hr⟩
  | cons a l ih =>
    intro s t s' hr hs
    rw [List.foldlM_cons] at hs
    obtain ⟨s1, h1, h2⟩ := Outcome.bind_eq_ok.1 hs
    obtain ⟨t1, h3, h4⟩ := h s t a s1 hr h1
    obtain ⟨t', h5, h6⟩ := ih s1 t1 s' h4 h2
    refine ⟨t', ?_, h6⟩
    rw [List.foldlM_cons]
    exact Outcome.bind_eq_ok.2 ⟨t1, h3, h5⟩

theorem pureBits_fewer {σ : Type} {t t' : Tiles} (h : Fewer t t') (order : Bits → Bits) (tile feature : Bytes) (address : Nat)
    (setter : BitSetter σ) (s s' : σ) (hp : pureBits order t' tile feature address setter s = .ok s') :
    pureBits order t tile feature address setter s = .ok s' := by
  unfold pureBits at hp ⊢
  rw [h.grid] at hp
  cases hg : t.grid.lookup tile with
  | none => rw [hg] at hp; cases hp
  | some info =>
    rw [hg] at hp
    dsimp only at hp ⊢
    rcases h.bits (info.bits.foldl (aliasStep feature) ⟨info.type, feature, []⟩).tileType with hb | hb
    · rw [hb] at hp
      exact hp
    · rw [hb] at hp
      cases hp

/-- Two runs, one on the full database and one on the smaller one. -/
structure Runs (t t' : Tiles) (db db' : PartDatabase) : Prop where
  tiles : db.tiles = t
  tiles' : db'.tiles = t'
  cache : CacheOk db
  cache' : CacheOk db'

theorem configBits_fewer {σ : Type} {t t' : Tiles} (h : Fewer t t') {db db' : PartDatabase} (hr : Runs t t' db db') (order : Bits → Bits)
    (tile feature : Bytes) (address : Nat) (setter : BitSetter σ) (s s' : σ) (d' : PartDatabase)
    (hp : db'.configBits order tile feature address setter s = .ok (d', s')) :
    ∃ d, db.configBits order tile feature address setter s = .ok (d, s') ∧ Runs t t' d d' := by
  obtain ⟨e', h1', h2', h3'⟩ := configBits_pure order db' hr.cache' tile feature address
  obtain ⟨e, h1, h2, h3⟩ := configBits_pure order db hr.cache tile feature address
  rw [h3'] at hp
  obtain ⟨x, h4, h5⟩ := Outcome.bind_eq_ok.1 hp
  cases h5
  refine ⟨e, ?_, ⟨h1.trans hr.tiles, h1'.trans hr.tiles', h2, h2'⟩⟩
  rw [h3]
  refine Outcome.bind_eq_ok.2 ⟨s', ?_, rfl⟩
  rw [hr.tiles]
  rw [hr.tiles'] at h4
  exact pureBits_fewer h order tile feature address setter s s' h4

theorem processFeature_fewer {t t' : Tiles} (h : Fewer t t') (ord : HashOrder) (e : FasmFeature × Nat) {s' s : PartDatabase × Frames}
    {r' : PartDatabase × Frames} (hr : Runs t t' s.1 s'.1 ∧ s.2 = s'.2) (hp : processFeature ord s' e = .ok r') :
    ∃ r, processFeature ord s e = .ok r ∧ Runs t t' r.1 r'.1 ∧ r.2 = r'.2 := by
  obtain ⟨hr, he⟩ := hr
  unfold processFeature at hp ⊢
  split at hp
  · rename_i tile feature hsplit
    obtain ⟨x', hx', hp⟩ := Outcome.bind_eq_ok.1 hp
    obtain ⟨x, hx, hrel⟩ := foldlM_rel (fun a b : PartDatabase × (List ConfigBusType × Frames) => Runs t t' b.1 a.1 ∧ b.2 = a.2)
      (bitStep (ord.bits e.2) e.1 tile feature) (bitStep (ord.bits e.2) e.1 tile feature) (by
        rintro a b addr a' ⟨h1, h2⟩ ha
        unfold bitStep at ha ⊢
        split at ha
        · cases ha
        · rename_i c1
          rw [if_neg c1]
          split at ha
          · cases ha
          · rename_i c2
            rw [if_neg c2]
            split at ha
            · rename_i c3
              rw [if_pos c3]
              obtain ⟨d, h3, h4⟩ := configBits_fewer h h1 _ _ _ _ _ _ _ _ ha
              rw [h2]
              exact ⟨_, h3, h4, rfl⟩
            · rename_i c3
              rw [if_neg c3]
              cases ha
              exact ⟨b, rfl, h1, h2⟩) _ (s'.1, ([], s'.2)) (s.1, ([], s.2)) x' ⟨hr, by rw [he]⟩ hx'
    obtain ⟨h1, h2⟩ := hrel
    rw [hx]
    simp only [Outcome.bind_ok]
    rw [h2]
    split at hp
    · rename_i c
      rw [if_pos c]
      cases hp
      exact ⟨_, rfl, h1, rfl⟩
    · rename_i c
      rw [if_neg c]
      rw [hr.tiles'] at hp
      rw [h.grid] at hp
      rw [hr.tiles]
      cases hg : t.grid.lookup tile with
      | none => rw [hg] at hp; cases hp
      | some info =>
        rw [hg] at hp
        dsimp only at hp ⊢
        obtain ⟨fr, h3, h4⟩ := Outcome.bind_eq_ok.1 hp
        cases h4
        rw [h3]
        exact ⟨_, rfl, h1, rfl⟩
  · cases hp

/-- **Knowing fewer tile types never changes the frames of a design that assembles.** -/
theorem assembleFrames_fewer {t t' : Tiles} (h : Fewer t t') (ord : HashOrder) (text : Bytes) (frames : Frames) {r' : PartDatabase × Frames}
    (hp : assembleFrames ord text ⟨t', []⟩ frames = .ok r') :
    ∃ r, assembleFrames ord text ⟨t, []⟩ frames = .ok r ∧ r.1.tiles = t ∧ r'.1.tiles = t' ∧ r.2 = r'.2 := by
  unfold assembleFrames at hp ⊢
  simp only [h.grid, h.banks] at hp
  obtain ⟨pudcb, h1, hp⟩ := Outcome.bind_eq_ok.1 hp
  obtain ⟨parsed, h2, hp⟩ := Outcome.bind_eq_ok.1 hp
  obtain ⟨sd, h3, hp⟩ := Outcome.bind_eq_ok.1 hp
  rw [h1, Outcome.bind_ok, h2, Outcome.bind_ok, h3, Outcome.bind_ok]
  unfold processFeatures at hp ⊢
  obtain ⟨r, h4, h5, h6⟩ := foldlM_rel (fun a b : PartDatabase × Frames => Runs t t' b.1 a.1 ∧ b.2 = a.2)
    (processFeature ord) (processFeature ord)
    (fun a b e a' hr ha => processFeature_fewer h ord e hr ha) _ (⟨t', []⟩, frames) (⟨t, []⟩, frames) r'
    ⟨⟨rfl, rfl, (fun k s hk => by cases hk), (fun k s hk => by cases hk)⟩, rfl⟩ hp
  exact ⟨r, h4, h5.tiles, h5.tiles', h6⟩

end Verif.Asm
