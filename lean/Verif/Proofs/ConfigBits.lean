import Verif.Proofs.Database
/-! # `ConfigBits`: proofs -/
namespace Verif.Db
open Verif.Text Verif.Spec

/-- The cache holds what the getter returns. -/
def CacheOk (db : PartDatabase) : Prop := ∀ k s, db.cache.lookup k = some s → db.tiles.bits k = .ok (some s)

theorem addSegbits_spec (db : PartDatabase) (h : CacheOk db) (ty : Bytes) :
    ∃ db', db'.tiles = db.tiles ∧ CacheOk db' ∧
      db.addSegbitsToCache ty = (db.tiles.bits ty >>= fun _ => .ok db') ∧
      ∀ r, db.tiles.bits ty = .ok r → db'.cache.lookup ty = r := by
  unfold PartDatabase.addSegbitsToCache
  cases hl : db.cache.lookup ty with
  | some s =>
    refine ⟨db, rfl, h, ?_, ?_⟩
    · rw [h _ _ hl]; rfl
    · intro r hr; rw [h _ _ hl] at hr; cases hr; exact hl
  | none =>
    simp only [Option.isSome_none, Bool.false_eq_true, if_false]
    cases hb : db.tiles.bits ty with
    | ok r =>
      cases r with
      | none =>
        exact ⟨db, rfl, h, rfl, by intro r hr; cases hr; exact hl⟩
      | some s =>
        refine ⟨{ db with cache := insertNew db.cache ty s }, rfl, ?_, rfl, ?_⟩
        · intro k s' hk
          rw [lookup_insertNew] at hk
          cases hdk : db.cache.lookup k with
          | some s'' =>
            rw [hdk] at hk
            simp only [Option.some_or, Option.some.injEq] at hk
            rw [← hk]; exact h _ _ hdk
          | none =>
            rw [hdk] at hk
            cases hkt : k == ty with
            | true =>
              rw [hkt] at hk
              have := eq_of_beq hkt
              subst this
              simp only [Option.none_or, if_true, Option.some.injEq] at hk
              rw [← hk]; exact hb
            | false => rw [hkt] at hk; simp at hk
        · intro r hr
          cases hr
          rw [lookup_insertNew, hl]
          simp
    | err => exact ⟨db, rfl, h, rfl, by intro r hr; cases hr⟩
    | abort => exact ⟨db, rfl, h, rfl, by intro r hr; cases hr⟩
    | ub => exact ⟨db, rfl, h, rfl, by intro r hr; cases hr⟩

/-- `ConfigBits` without the cache. -/
def pureBits {σ : Type} (order : Bits → Bits) (tiles : Tiles) (tileName feature : Bytes) (address : Nat)
    (setter : BitSetter σ) (s : σ) : Outcome σ :=
  match tiles.grid.lookup tileName with
  | none => .abort
  | some tile =>
    let al := tile.bits.foldl (aliasStep feature) ⟨tile.type, feature, []⟩
    tiles.bits al.tileType >>= fun r => match r with
    | none => .abort
    | some sb =>
      if (sb.pips.lookup (dotted tileName al.feature)).isSome then .ok s
      else if (sb.pips.lookup (dotted al.tileType al.feature)).isSome then .ok s
      else
        (order al.blocks).foldlM (busStep setter sb (1 < al.blocks.length) (dotted al.tileType al.feature, address)) (false, s)
          >>= fun r => if r.1 then .ok r.2 else .abort

theorem configBits_pure (order : Bits → Bits) (db : PartDatabase) (h : CacheOk db) (tileName feature : Bytes) (address : Nat) :
    ∃ db', db'.tiles = db.tiles ∧ CacheOk db' ∧ ∀ {σ : Type} (setter : BitSetter σ) (s : σ),
      db.configBits order tileName feature address setter s =
        (pureBits order db.tiles tileName feature address setter s >>= fun s' => .ok (db', s')) := by
  unfold PartDatabase.configBits pureBits
  cases hg : db.tiles.grid.lookup tileName with
  | none => exact ⟨db, rfl, h, fun _ _ => rfl⟩
  | some tile =>
    dsimp only
    obtain ⟨db', h1, h2, h3, h4⟩ := addSegbits_spec db h (tile.bits.foldl (aliasStep feature) ⟨tile.type, feature, []⟩).tileType
    refine ⟨db', h1, h2, ?_⟩
    intro σ setter s
    rw [h3]
    cases hb : db.tiles.bits (tile.bits.foldl (aliasStep feature) ⟨tile.type, feature, []⟩).tileType with
    | ok r =>
      simp only [Outcome.bind_ok]
      rw [h4 r hb]
      cases r with
      | none => rfl
      | some sb =>
        dsimp only
        split
        · rfl
        · split
          · rfl
          · rw [Outcome.bind_assoc']
            congr 1
            funext r
            split <;> rfl
    | err => rfl
    | abort => rfl
    | ub => rfl

theorem perm_map_inv {α β : Type} (f : α → β) {l l' : List β} (h : l.Perm l') :
    ∀ es : List α, l' = es.map f → ∃ es' : List α, l = es'.map f ∧ es'.Perm es := by
  induction h with
  | nil =>
    intro es he
    cases es with
    | nil => exact ⟨[], rfl, List.Perm.refl _⟩
    | cons => simp at he
  | cons x _ ih =>
    intro es he
    cases es with
    | nil => simp at he
    | cons e es =>
      simp only [List.map_cons, List.cons.injEq] at he
      obtain ⟨es', h1, h2⟩ := ih es he.2
      exact ⟨e :: es', by simp [h1, he.1], h2.cons e⟩
  | swap x y l =>
    intro es he
    match es, he with
    | [], he => simp at he
    | [_], he => simp at he
    | a :: b :: es, he =>
      simp only [List.map_cons, List.cons.injEq] at he
      exact ⟨b :: a :: es, by simp [he.1, he.2.1, he.2.2], List.Perm.swap a b es⟩
  | trans _ _ ih1 ih2 =>
    intro es he
    obtain ⟨e2, h1, h2⟩ := ih2 es he
    obtain ⟨e1, h3, h4⟩ := ih1 e2 h1
    exact ⟨e1, h3, h4.trans h2⟩

theorem tileBits_eq (t : Tile) (sb : SegBits) (key : TileFeature) : tileBits t sb key = t.bits.flatMap (blockCalls sb key) := rfl

/-- What a tile does whose type and feature name come out as `ty` and `f`. -/
theorem pureBits_read (order : Bits → Bits) (hord : ∀ l, (order l).Perm l) (tiles : Tiles) (tileName feature : Bytes)
    (address : Nat) (t : Tile) (ty f : Bytes) (sb : SegBits) (hg : tiles.grid.lookup tileName = some t)
    (hn : (t.bits.map (·.1)).Nodup) 
    (e1 : (t.bits.foldl (aliasStep feature) ⟨t.type, feature, []⟩).tileType = ty)
    (e2 : (t.bits.foldl (aliasStep feature) ⟨t.type, feature, []⟩).feature = f) (hb : tiles.bits ty = .ok (some sb)) :
    ∃ calls, calls.Perm (tileBits t sb (ty ++ 0x2e :: f, address)) ∧ ∀ {σ : Type} (setter : BitSetter σ) (s : σ),
      ((IsPip sb tileName ty f → pureBits order tiles tileName feature address setter s = .ok s) ∧
       (¬ IsPip sb tileName ty f → (∃ e ∈ t.bits, (listed sb (ty ++ 0x2e :: f, address) e.1).isSome) →
         pureBits order tiles tileName feature address setter s = applyCalls setter s calls) ∧
       (¬ IsPip sb tileName ty f → (¬ ∃ e ∈ t.bits, (listed sb (ty ++ 0x2e :: f, address) e.1).isSome) →
         pureBits order tiles tileName feature address setter s = .abort)) := by
  have e3 := aliasFold_blocks feature t.bits ⟨t.type, feature, []⟩ (by simpa using hn)
  simp only [List.nil_append] at e3
  obtain ⟨es, h1, h2⟩ := perm_map_inv (fun e : ConfigBusType × BitsBlock => (e.1, resolved e.2)) (hord (t.bits.map fun e => (e.1, resolved e.2))) t.bits rfl
  refine ⟨es.flatMap (blockCalls sb (ty ++ 0x2e :: f, address)), ?_, ?_⟩
  · rw [tileBits_eq]; exact h2.flatMap_right _
  · intro σ setter s
    have hp : ∀ key, (sb.pips.lookup key).isSome = true ↔ ∃ v, sb.pips.lookup key = some v := by
      intro key; rw [Option.isSome_iff_exists]
    have heq : pureBits order tiles tileName feature address setter s =
        if (sb.pips.lookup (tileName ++ 0x2e :: f)).isSome then .ok s
        else if (sb.pips.lookup (ty ++ 0x2e :: f)).isSome then .ok s
        else if ∃ e ∈ es, (listed sb (ty ++ 0x2e :: f, address) e.1).isSome then
          applyCalls setter s (es.flatMap (blockCalls sb (ty ++ 0x2e :: f, address))) else .abort := by
      unfold pureBits
      rw [hg]
      dsimp only
      rw [e1, e2, e3, h1, hb]
      rw [Outcome.bind_ok]
      dsimp only
      rw [show dotted tileName f = tileName ++ 0x2e :: f from rfl, show dotted ty f = ty ++ 0x2e :: f from rfl]
      by_cases hc1 : (sb.pips.lookup (tileName ++ 0x2e :: f)).isSome = true
      · rw [if_pos hc1, if_pos hc1]
      · rw [if_neg hc1, if_neg hc1]
        by_cases hc2 : (sb.pips.lookup (ty ++ 0x2e :: f)).isSome = true
        · rw [if_pos hc2, if_pos hc2]
        · rw [if_neg hc2, if_neg hc2]
          have := busLoop setter sb (decide (1 < (t.bits.map fun e => (e.1, resolved e.2)).length)) (ty ++ 0x2e :: f, address) es false
            (by
              intro hm
              have hl := h2.length_eq
              simp only [List.length_map, decide_eq_false_iff_not] at hm
              exact ⟨by omega, rfl⟩) s
          rw [this]
          by_cases hc : ∃ e ∈ es, (listed sb (ty ++ 0x2e :: f, address) e.1).isSome = true
          · rw [if_pos hc, if_pos (Or.inr hc)]
          · rw [if_neg hc, if_neg (by simpa using hc)]
    have hmem : (∃ e ∈ es, (listed sb (ty ++ 0x2e :: f, address) e.1).isSome = true) ↔
        ∃ e ∈ t.bits, (listed sb (ty ++ 0x2e :: f, address) e.1).isSome = true := by
      constructor
      · rintro ⟨e, he, h⟩; exact ⟨e, h2.mem_iff.1 he, h⟩
      · rintro ⟨e, he, h⟩; exact ⟨e, h2.mem_iff.2 he, h⟩
    refine ⟨?_, ?_, ?_⟩
    · intro hpip
      rw [heq]
      split
      · rfl
      · rename_i hno
        rw [if_pos]
        rcases hpip with h | h
        · exact absurd ((hp _).2 h) hno
        · exact (hp _).2 h
    · intro hpip hf
      rw [heq, if_neg (fun h => hpip (Or.inl ((hp _).1 h))), if_neg (fun h => hpip (Or.inr ((hp _).1 h))), if_pos (hmem.2 hf)]
    · intro hpip hf
      rw [heq, if_neg (fun h => hpip (Or.inl ((hp _).1 h))), if_neg (fun h => hpip (Or.inr ((hp _).1 h))),
        if_neg (fun h => hf (hmem.1 h))]

/-- What a tile whose names and segment bits are known does. -/
theorem pureBits_known (order : Bits → Bits) (hord : ∀ l, (order l).Perm l) (tiles : Tiles) (tileName feature : Bytes)
    (address : Nat) (t : Tile) (ty f : Bytes) (sb : SegBits) (hg : tiles.grid.lookup tileName = some t)
    (hn : (t.bits.map (·.1)).Nodup) (hk : KnownAs t feature ty f) (hb : tiles.bits ty = .ok (some sb)) :
    ∃ calls, calls.Perm (tileBits t sb (ty ++ 0x2e :: f, address)) ∧ ∀ {σ : Type} (setter : BitSetter σ) (s : σ),
      ((IsPip sb tileName ty f → pureBits order tiles tileName feature address setter s = .ok s) ∧
       (¬ IsPip sb tileName ty f → (∃ e ∈ t.bits, (listed sb (ty ++ 0x2e :: f, address) e.1).isSome) →
         pureBits order tiles tileName feature address setter s = applyCalls setter s calls) ∧
       (¬ IsPip sb tileName ty f → (¬ ∃ e ∈ t.bits, (listed sb (ty ++ 0x2e :: f, address) e.1).isSome) →
         pureBits order tiles tileName feature address setter s = .abort)) :=
  pureBits_read order hord tiles tileName feature address t ty f sb hg hn (knownAs_fold hk).1 (knownAs_fold hk).2 hb

/-- A feature the database knows: the setter is called with its bits, in some order. -/
theorem pureBits_found (order : Bits → Bits) (hord : ∀ l, (order l).Perm l) (tiles : Tiles) (hok : TilesOk tiles)
    (tileName feature : Bytes) (address : Nat) (bits : List BitCall) (h : FeatureBits tiles tileName feature address bits) :
    ∃ calls, calls.Perm bits ∧ ∀ {σ : Type} (setter : BitSetter σ) (s : σ),
      pureBits order tiles tileName feature address setter s = applyCalls setter s calls := by
  obtain ⟨t, ty, f, sb, hg, hk, hb, hcase⟩ := h
  obtain ⟨calls, h1, h2⟩ := pureBits_known order hord tiles tileName feature address t ty f sb hg (hok _ _ hg) hk hb
  rcases hcase with ⟨hp, rfl⟩ | ⟨hp, hf, rfl⟩
  · exact ⟨[], List.Perm.refl _, fun setter s => (h2 setter s).1 hp⟩
  · exact ⟨calls, h1, fun setter s => (h2 setter s).2.1 hp hf⟩

/-- A feature the database does not know never succeeds. -/
theorem pureBits_unknown (order : Bits → Bits) (hord : ∀ l, (order l).Perm l) (tiles : Tiles) (hok : TilesOk tiles)
    (tileName feature : Bytes) (address : Nat)
    (h : ∀ bits, ¬ FeatureBits tiles tileName feature address bits) {σ : Type} (setter : BitSetter σ) (s s' : σ) :
    pureBits order tiles tileName feature address setter s ≠ .ok s' := by
  cases hg : tiles.grid.lookup tileName with
  | none => unfold pureBits; rw [hg]; intro h; cases h
  | some t =>
    have hk := knownAs_exists t feature
    cases hb : tiles.bits (t.bits.foldl (aliasStep feature) ⟨t.type, feature, []⟩).tileType with
    | ok r =>
      cases r with
      | none => unfold pureBits; rw [hg]; dsimp only; rw [hb]; intro h; cases h
      | some sb =>
        obtain ⟨calls, h1, h2⟩ := pureBits_known order hord tiles tileName feature address t _ _ sb hg (hok _ _ hg) hk hb
        have h3 := h2 setter s
        by_cases hp : IsPip sb tileName (t.bits.foldl (aliasStep feature) ⟨t.type, feature, []⟩).tileType
            (t.bits.foldl (aliasStep feature) ⟨t.type, feature, []⟩).feature
        · exact absurd ⟨t, _, _, sb, hg, hk, hb, Or.inl ⟨hp, rfl⟩⟩ (h [])
        · by_cases hf : ∃ e ∈ t.bits, (listed sb ((t.bits.foldl (aliasStep feature) ⟨t.type, feature, []⟩).tileType ++ 0x2e ::
              (t.bits.foldl (aliasStep feature) ⟨t.type, feature, []⟩).feature, address) e.1).isSome
          · exact absurd ⟨t, _, _, sb, hg, hk, hb, Or.inr ⟨hp, hf, rfl⟩⟩ (h _)
          · rw [h3.2.2 hp hf]; intro h; cases h
    | err => unfold pureBits; rw [hg]; dsimp only; rw [hb]; intro h; cases h
    | abort => unfold pureBits; rw [hg]; dsimp only; rw [hb]; intro h; cases h
    | ub => unfold pureBits; rw [hg]; dsimp only; rw [hb]; intro h; cases h

/-- What happens to a feature the database does not list: the program is terminated, unless reading the tile type's files
does not return. -/
theorem pureBits_unknown_exact (order : Bits → Bits) (hord : ∀ l, (order l).Perm l) (tiles : Tiles) (hok : TilesOk tiles)
    (tileName feature : Bytes) (address : Nat)
    (h : ∀ bits, ¬ FeatureBits tiles tileName feature address bits)
    (hread : ∀ t ty f, tiles.grid.lookup tileName = some t → KnownAs t feature ty f → ∃ r, tiles.bits ty = .ok r)
    {σ : Type} (setter : BitSetter σ) (s : σ) :
    pureBits order tiles tileName feature address setter s = .abort := by
  cases hg : tiles.grid.lookup tileName with
  | none => unfold pureBits; rw [hg]
  | some t =>
    have hk := knownAs_exists t feature
    obtain ⟨r, hb⟩ := hread t _ _ hg hk
    cases r with
    | none => unfold pureBits; rw [hg]; dsimp only; rw [hb]; rfl
    | some sb =>
      obtain ⟨calls, h1, h2⟩ := pureBits_known order hord tiles tileName feature address t _ _ sb hg (hok _ _ hg) hk hb
      have h3 := h2 setter s
      by_cases hp : IsPip sb tileName (t.bits.foldl (aliasStep feature) ⟨t.type, feature, []⟩).tileType
          (t.bits.foldl (aliasStep feature) ⟨t.type, feature, []⟩).feature
      · exact absurd ⟨t, _, _, sb, hg, hk, hb, Or.inl ⟨hp, rfl⟩⟩ (h [])
      · by_cases hf : ∃ e ∈ t.bits, (listed sb ((t.bits.foldl (aliasStep feature) ⟨t.type, feature, []⟩).tileType ++ 0x2e ::
            (t.bits.foldl (aliasStep feature) ⟨t.type, feature, []⟩).feature, address) e.1).isSome
        · exact absurd ⟨t, _, _, sb, hg, hk, hb, Or.inr ⟨hp, hf, rfl⟩⟩ (h _)
        · exact h3.2.2 hp hf

/-- The database determines the bits of a feature. -/
theorem featureBits_unique {tiles : Tiles} {tileName feature : Bytes} {address : Nat} {b b' : List BitCall}
    (h : FeatureBits tiles tileName feature address b) (h' : FeatureBits tiles tileName feature address b') : b = b' := by
  obtain ⟨t, ty, f, sb, hg, hk, hb, hcase⟩ := h
  obtain ⟨t', ty', f', sb', hg', hk', hb', hcase'⟩ := h'
  rw [hg] at hg'; cases hg'
  obtain ⟨e1, e2⟩ := knownAs_fold hk
  obtain ⟨e1', e2'⟩ := knownAs_fold hk'
  rw [e1] at e1'; subst e1'
  rw [e2] at e2'; subst e2'
  rw [hb] at hb'; cases hb'
  rcases hcase with ⟨hp, rfl⟩ | ⟨hp, _, rfl⟩ <;> rcases hcase' with ⟨hp', rfl⟩ | ⟨hp', _, rfl⟩
  · rfl
  · exact absurd hp hp'
  · exact absurd hp' hp
  · rfl

/-! ## Order of the maps -/

theorem _root_.Verif.Spec.SameMap.some_left {κ ν : Type} [BEq κ] {R : ν → ν → Prop} {m m' : List (κ × ν)} (h : SameMap R m m') {k : κ} {v : ν}
    (hl : m.lookup k = some v) : ∃ v', m'.lookup k = some v' ∧ R v v' := by
  have := h k
  rw [hl] at this
  cases hm : m'.lookup k with
  | none => rw [hm] at this; exact this.elim
  | some v' => rw [hm] at this; exact ⟨v', rfl, this⟩

theorem _root_.Verif.Spec.SameMap.some_right {κ ν : Type} [BEq κ] {R : ν → ν → Prop} {m m' : List (κ × ν)} (h : SameMap R m m') {k : κ} {v' : ν}
    (hl : m'.lookup k = some v') : ∃ v, m.lookup k = some v ∧ R v v' := by
  have := h k
  rw [hl] at this
  cases hm : m.lookup k with
  | none => rw [hm] at this; exact this.elim
  | some v => rw [hm] at this; exact ⟨v, rfl, this⟩

theorem _root_.Verif.Spec.SameMap.none_left {κ ν : Type} [BEq κ] {R : ν → ν → Prop} {m m' : List (κ × ν)} (h : SameMap R m m') {k : κ}
    (hl : m.lookup k = none) : m'.lookup k = none := by
  have := h k
  rw [hl] at this
  cases hm : m'.lookup k with
  | none => rfl
  | some v => rw [hm] at this; exact this.elim

theorem _root_.Verif.Spec.SameMap.eq {κ ν : Type} [BEq κ] {m m' : List (κ × ν)} (h : SameMap (· = ·) m m') (k : κ) : m.lookup k = m'.lookup k := by
  cases hl : m.lookup k with
  | none => rw [h.none_left hl]
  | some v => obtain ⟨v', h1, rfl⟩ := h.some_left hl; rw [h1]

/-- Maps with the same lookups have the same entries up to order. -/
theorem sameMap_flatMap {κ ν α : Type} [BEq κ] [LawfulBEq κ] {R : ν → ν → Prop} {m m' : List (κ × ν)}
    (hn : (m.map (·.1)).Nodup) (hn' : (m'.map (·.1)).Nodup) (h : SameMap R m m') (g : κ × ν → List α)
    (hg : ∀ k v v', R v v' → g (k, v) = g (k, v')) : (m.flatMap g).Perm (m'.flatMap g) := by
  induction m generalizing m' with
  | nil =>
    cases m' with
    | nil => exact List.Perm.refl _
    | cons e m' =>
      have := h e.1
      rw [show (e :: m').lookup e.1 = some e.2 from lookup_of_mem hn' (by simp)] at this
      exact this.elim
  | cons e m ih =>
    obtain ⟨v', hv', hr⟩ := h.some_left (lookup_of_mem hn (show (e.1, e.2) ∈ e :: m by simp))
    obtain ⟨a, b, hab⟩ := List.append_of_mem (mem_of_lookup hv')
    rw [List.map_cons, List.nodup_cons] at hn
    have hperm : m'.Perm ((e.1, v') :: (a ++ b)) := by rw [hab]; exact List.perm_middle
    have hn2 : (((e.1, v') :: (a ++ b)).map (·.1)).Nodup := (hperm.map _).nodup_iff.1 hn'
    rw [List.map_cons, List.nodup_cons] at hn2
    have hsame : SameMap R m (a ++ b) := by
      intro k
      cases hke : k == e.1 with
      | true =>
        have := eq_of_beq hke
        subst this
        have l1 : m.lookup e.1 = none := by
          cases hl : m.lookup e.1 with
          | none => rfl
          | some v => exact absurd (List.mem_map_of_mem (f := (·.1)) (mem_of_lookup hl)) hn.1
        have l2 : (a ++ b).lookup e.1 = none := by
          cases hl : (a ++ b).lookup e.1 with
          | none => rfl
          | some v => exact absurd (List.mem_map_of_mem (f := (·.1)) (mem_of_lookup hl)) hn2.1
        rw [l1, l2]; trivial
      | false =>
        have hk := h k
        have l1 : (e :: m).lookup k = m.lookup k := by
          obtain ⟨e1, e2⟩ := e
          rw [List.lookup_cons, hke]
        have l2 : m'.lookup k = (a ++ b).lookup k := by
          cases hl : m'.lookup k with
          | some v =>
            have hm := hperm.mem_iff.1 (mem_of_lookup hl)
            rcases List.mem_cons.1 hm with e' | hm
            · cases e'; simp at hke
            · exact (lookup_of_mem hn2.2 hm).symm
          | none =>
            cases hl2 : (a ++ b).lookup k with
            | none => rfl
            | some v =>
              have hm := hperm.mem_iff.2 (List.mem_cons_of_mem _ (mem_of_lookup hl2))
              rw [lookup_of_mem hn' hm] at hl; cases hl
        rw [l1, l2] at hk
        exact hk
    have := ih hn.2 hn2.2 hsame
    refine List.Perm.trans ?_ (hperm.symm.flatMap_right g)
    simp only [List.flatMap_cons]
    rw [show g e = g (e.1, v') from hg _ _ _ hr]
    exact this.append_left _

theorem sameBlock_pos {b b' : BitsBlock} (h : SameBlock b b') (s : SegmentBit) : bitPos b s = bitPos b' s := by
  obtain ⟨_, _, h3, _, h5⟩ := h
  unfold bitPos firstWord
  rw [h3]
  cases ha : b.alias? with
  | none =>
    cases ha' : b'.alias? with
    | none => rfl
    | some a' => rw [ha, ha'] at h5; exact h5.elim
  | some a =>
    cases ha' : b'.alias? with
    | none => rw [ha, ha'] at h5; exact h5.elim
    | some a' =>
      rw [ha, ha'] at h5
      simp only [Option.elim_some, h5.2.1]

theorem sameBlock_alias {b b' : BitsBlock} (h : SameBlock b b') :
    (b.alias? = none ↔ b'.alias? = none) ∧ ∀ a', b'.alias? = some a' → ∃ a, b.alias? = some a ∧ a.type = a'.type ∧
      ∀ s, a.sites.lookup s = a'.sites.lookup s := by
  obtain ⟨_, _, _, _, h5⟩ := h
  cases ha : b.alias? with
  | none =>
    cases ha' : b'.alias? with
    | none => exact ⟨by simp, by simp⟩
    | some a' => rw [ha, ha'] at h5; exact h5.elim
  | some a =>
    cases ha' : b'.alias? with
    | none => rw [ha, ha'] at h5; exact h5.elim
    | some a' =>
      rw [ha, ha'] at h5
      refine ⟨by simp, ?_⟩
      intro x hx; cases hx
      exact ⟨a, rfl, h5.1, h5.2.2.eq⟩

theorem renamed_congr {sites sites' : List (Bytes × Bytes)} (h : ∀ s, sites.lookup s = sites'.lookup s) {feature f : Bytes}
    (hr : Renamed sites feature f) : Renamed sites' feature f := by
  unfold Renamed at *
  simpa only [h] using hr

theorem sameTile_unanimous {t t' : Tile} (hn' : (t'.bits.map (·.1)).Nodup) (hn : (t.bits.map (·.1)).Nodup)
    (h : SameTile t t') {feature ty f : Bytes} (hk : Unanimous t feature ty f) : Unanimous t' feature ty f := by
  have hback : ∀ e' ∈ t'.bits, ∃ b, (e'.1, b) ∈ t.bits ∧ SameBlock b e'.2 := by
    intro e' he'
    obtain ⟨v, h1, h2⟩ := h.2.some_right (lookup_of_mem hn' (show (e'.1, e'.2) ∈ t'.bits from he'))
    exact ⟨v, mem_of_lookup h1, h2⟩
  rcases hk with ⟨h1, h2, h3⟩ | ⟨⟨e, he, hne⟩, h2⟩
  · refine Or.inl ⟨?_, by rw [h2, h.1], h3⟩
    intro e' he'
    obtain ⟨b, hb, hs⟩ := hback e' he'
    exact (sameBlock_alias hs).1.1 (h1 _ hb)
  · refine Or.inr ⟨?_, ?_⟩
    · obtain ⟨v', hv', hs⟩ := h.2.some_left (lookup_of_mem hn (show (e.1, e.2) ∈ t.bits from he))
      exact ⟨(e.1, v'), mem_of_lookup hv', fun hh => hne ((sameBlock_alias hs).1.2 hh)⟩
    · intro e' he' a' ha'
      obtain ⟨b, hb, hs⟩ := hback e' he'
      obtain ⟨a, ha, ht, hsites⟩ := (sameBlock_alias hs).2 a' ha'
      obtain ⟨h4, h5⟩ := h2 _ hb a ha
      exact ⟨by rw [h4, ht], renamed_congr hsites h5⟩

theorem sameSeg_listed {s s' : SegBits} (h : SameSegBits s s') (key : TileFeature) (bus : ConfigBusType) :
    listed s key bus = listed s' key bus := by
  unfold listed
  cases hl : s.segmentBits.lookup bus with
  | none => rw [h.2.none_left hl]
  | some m =>
    obtain ⟨m', h1, h2⟩ := h.2.some_left hl
    rw [h1]
    exact h2.eq key

theorem sameTile_agree {t t' : Tile} (hn' : (t'.bits.map (·.1)).Nodup)
    (hs : SameTile t t') (h : AliasesAgree t) : AliasesAgree t' := by
  intro e he e' he' a a' ha ha'
  have key : ∀ (e : ConfigBusType × BitsBlock) (a : BitsBlockAlias), e ∈ t'.bits → e.2.alias? = some a →
      ∃ e0 ∈ t.bits, ∃ a0, e0.2.alias? = some a0 ∧ a0.type = a.type ∧ ∀ s, a0.sites.lookup s = a.sites.lookup s := by
    intro e a he ha
    obtain ⟨b0, h1, h2⟩ := hs.2.some_right (lookup_of_mem hn' (show (e.1, e.2) ∈ t'.bits from he))
    refine ⟨(e.1, b0), mem_of_lookup h1, ?_⟩
    have h3 := h2.2.2.2.2
    rw [ha] at h3
    cases h4 : b0.alias? with
    | none => rw [h4] at h3; exact h3.elim
    | some a0 => rw [h4] at h3; exact ⟨a0, rfl, h3.1, h3.2.2.eq⟩
  obtain ⟨e0, h1, a0, h2, h3, h4⟩ := key e a he ha
  obtain ⟨e1, h5, a1, h6, h7, h8⟩ := key e' a' he' ha'
  obtain ⟨h9, h10⟩ := h e0 h1 e1 h5 a0 a1 h2 h6
  exact ⟨by rw [← h3, ← h7]; exact h9, fun s => by rw [← h4, ← h8]; exact h10 s⟩

/-- The order of the maps matters only through the name under which the feature is looked up. -/
theorem featureBits_reading {T T' : Tiles} (hT : TilesOk T) (hT' : TilesOk T') (h : SameTiles T T') {tile feature : Bytes}
    (hread : ∀ t t' ty f, T.grid.lookup tile = some t → T'.grid.lookup tile = some t' → KnownAs t feature ty f → KnownAs t' feature ty f)
    {addr : Nat} {bits : List BitCall} (hf : FeatureBits T tile feature addr bits) :
    ∃ bits', FeatureBits T' tile feature addr bits' ∧ bits'.Perm bits := by
  obtain ⟨t, ty, f, sb, hg, hk, hb, hcase⟩ := hf
  obtain ⟨t', hg', hst⟩ := h.1.some_left hg
  have hn := hT _ _ hg
  have hn' := hT' _ _ hg'
  have hk' := hread t t' ty f hg hg' hk
  have hb' : ∃ sb', T'.bits ty = .ok (some sb') ∧ SameSegBits sb sb' := by
    have := h.2 ty
    rw [hb] at this
    cases hh : T'.bits ty with
    | ok r =>
      cases r with
      | none => rw [hh] at this; exact this.elim
      | some s' => rw [hh] at this; exact ⟨s', rfl, this⟩
    | err => rw [hh] at this; exact this.elim
    | abort => rw [hh] at this; exact this.elim
    | ub => rw [hh] at this; exact this.elim
  obtain ⟨sb', hb', hss⟩ := hb'
  have hpip : IsPip sb tile ty f ↔ IsPip sb' tile ty f := by
    unfold IsPip
    simp only [hss.1.eq]
  rcases hcase with ⟨hp, rfl⟩ | ⟨hp, ⟨e, he, hl⟩, rfl⟩
  · exact ⟨[], ⟨t', ty, f, sb', hg', hk', hb', Or.inl ⟨hpip.1 hp, rfl⟩⟩, List.Perm.refl _⟩
  · refine ⟨_, ⟨t', ty, f, sb', hg', hk', hb', Or.inr ⟨fun hh => hp (hpip.2 hh), ?_, rfl⟩⟩, ?_⟩
    · obtain ⟨v', hv', _⟩ := hst.2.some_left (lookup_of_mem hn (show (e.1, e.2) ∈ t.bits from he))
      exact ⟨(e.1, v'), mem_of_lookup hv', by rw [← sameSeg_listed hss]; exact hl⟩
    · refine List.Perm.symm ?_
      unfold tileBits
      simp only [sameSeg_listed hss]
      refine sameMap_flatMap hn hn' hst.2 _ ?_
      intro k v v' hv
      apply List.map_congr_left
      intro s _
      have : bitFrame v s = bitFrame v' s := by unfold bitFrame; rw [hv.1]
      rw [this, sameBlock_pos hv]

theorem featureBits_same {T T' : Tiles} (hT : TilesOk T) (hT' : TilesOk T') (h : SameTiles T T') {tile feature : Bytes}
    (hag : ∀ t, T.grid.lookup tile = some t → AliasesAgree t) {addr : Nat} {bits : List BitCall} (hf : FeatureBits T tile feature addr bits) :
    ∃ bits', FeatureBits T' tile feature addr bits' ∧ bits'.Perm bits := by
  refine featureBits_reading hT hT' h (fun t t' ty f hg hg' hk => ?_) hf
  obtain ⟨t'', hg'', hst⟩ := h.1.some_left hg
  rw [hg'] at hg''; cases hg''
  have hn := hT _ _ hg
  have hn' := hT' _ _ hg'
  exact (unanimous_iff (sameTile_agree hn' hst (hag t hg))).1 (sameTile_unanimous hn' hn hst ((unanimous_iff (hag t hg)).2 hk))

end Verif.Db
