import Verif.Spec.Database
import Verif.Proofs.Text
/-! # Part database: proofs -/
namespace Verif.Db
open Verif.Text Verif.Spec

/-! ## Banks -/

theorem lookup_pushTo {κ α : Type} [BEq κ] [LawfulBEq κ] (m : List (κ × List α)) (k : κ) (x : α) (j : κ) :
    ((pushTo m k x).lookup j).getD [] = (m.lookup j).getD [] ++ if j == k then [x] else [] := by
  unfold pushTo
  rw [lookup_assign]
  cases h : j == k with
  | true => rw [eq_of_beq h]; simp
  | false => simp

theorem mem_setInsert {α : Type} [BEq α] [LawfulBEq α] (s : List α) (x y : α) : y ∈ setInsert s x ↔ y ∈ s ∨ y = x := by
  unfold setInsert
  split
  · rename_i h
    constructor
    · exact Or.inl
    · rintro (h' | rfl)
      · exact h'
      · exact List.contains_iff_mem.1 h
  · simp

theorem nodup_setInsert {α : Type} [BEq α] [LawfulBEq α] (s : List α) (x : α) (h : s.Nodup) : (setInsert s x).Nodup := by
  unfold setInsert
  split
  · exact h
  · rename_i hx
    rw [List.nodup_append]
    refine ⟨h, by simp, ?_⟩
    intro a ha b hb e
    rw [List.mem_singleton.1 hb] at e
    subst e
    exact hx (List.contains_iff_mem.2 ha)

/-- What the registry maps contain for a list of bank/tile pairs. -/
theorem registry_fold (ps : List (Nat × Bytes)) (s : List (Bytes × List Nat) × List (Nat × List Bytes)) :
    let r := ps.foldl (fun s e => registryAdd s e.1 e.2) s
    (∀ tile, (r.1.lookup tile).getD [] = (s.1.lookup tile).getD [] ++ (ps.filter fun e => e.2 == tile).map (·.1)) ∧
    (∀ bank, r.2.lookup bank = none ↔ s.2.lookup bank = none ∧ ∀ e ∈ ps, e.1 ≠ bank) ∧
    (∀ bank tile, tile ∈ (r.2.lookup bank).getD [] ↔ tile ∈ (s.2.lookup bank).getD [] ∨ (bank, tile) ∈ ps) ∧
    ((∀ bank, ((s.2.lookup bank).getD []).Nodup) → ∀ bank, ((r.2.lookup bank).getD []).Nodup) := by
  induction ps generalizing s with
  | nil => simp
  | cons p ps ih =>
    dsimp only
    rw [List.foldl_cons]
    obtain ⟨h1, h2, h3, h4⟩ := ih (registryAdd s p.1 p.2)
    have hl : ∀ bank, (registryAdd s p.1 p.2).2.lookup bank =
        if bank == p.1 then some (setInsert ((s.2.lookup p.1).getD []) p.2) else s.2.lookup bank := by
      intro bank
      unfold registryAdd addToSet
      rw [lookup_assign]
    refine ⟨?_, ?_, ?_, ?_⟩
    · intro tile
      rw [h1 tile]
      unfold registryAdd
      rw [lookup_pushTo, List.append_assoc]
      congr 1
      rw [List.filter_cons, BEq.comm (a := p.2)]
      cases tile == p.2 <;> simp
    · intro bank
      rw [h2 bank, hl bank]
      cases hb : bank == p.1 with
      | true =>
        have := eq_of_beq hb
        simp [this]
      | false =>
        have hne : p.1 ≠ bank := by
          intro e; rw [e] at hb; simp at hb
        simp [hne]
    · intro bank tile
      rw [h3 bank tile, hl bank]
      cases hb : bank == p.1 with
      | true =>
        have := eq_of_beq hb
        subst this
        simp only [if_true, Option.getD_some, mem_setInsert, List.mem_cons]
        rw [or_assoc]
        refine or_congr_right (or_congr_left ?_)
        constructor
        · rintro rfl; rfl
        · intro e; rw [← e]
      | false =>
        simp only [Bool.false_eq_true, if_false, List.mem_cons]
        refine or_congr_right ?_
        constructor
        · exact Or.inr
        · rintro (e | e)
          · rw [← e] at hb; simp at hb
          · exact e
    · intro hn
      apply h4
      intro bank
      rw [hl bank]
      split
      · exact nodup_setInsert _ _ (hn _)
      · exact hn bank

/-- The pairs `Create` goes through. -/
def bankPairs (part : Part) (pins : PackagePins) : List (Nat × Bytes) :=
  part.iobanks.map (fun e => (e.1, hclkPrefix ++ e.2)) ++ pins.map fun p => (p.bank, p.tile)

theorem create_eq (order : List Bytes → List Bytes) (part : Part) (pins : PackagePins) :
    Registry.create order part pins =
      let r := (bankPairs part pins).foldl (fun s e => registryAdd s e.1 e.2) ([], [])
      { tileToBanks := r.1, banksToTiles := r.2.map fun e => (e.1, order e.2) } := by
  unfold Registry.create bankPairs
  rw [List.foldl_append, List.foldl_map, List.foldl_map]

theorem mem_bankPairs (part : Part) (pins : PackagePins) (bank : Nat) (tile : Bytes) :
    (bank, tile) ∈ bankPairs part pins ↔ InBank part pins bank tile := by
  unfold bankPairs InBank
  rw [List.mem_append, List.mem_map, List.mem_map, or_comm]
  refine or_congr ?_ ?_
  · constructor
    · rintro ⟨p, hp, e⟩; cases e; exact ⟨p, hp, rfl, rfl⟩
    · rintro ⟨p, hp, rfl, rfl⟩; exact ⟨p, hp, rfl⟩
  · constructor
    · rintro ⟨⟨b, l⟩, hp, e⟩; cases e; exact ⟨l, hp, rfl⟩
    · rintro ⟨l, hl, rfl⟩; exact ⟨(bank, l), hl, rfl⟩

theorem lookup_map_snd {κ ν μ : Type} [BEq κ] (g : ν → μ) (m : List (κ × ν)) (k : κ) :
    (m.map fun e => (e.1, g e.2)).lookup k = (m.lookup k).map g := by
  induction m with
  | nil => rfl
  | cons e m ih =>
    obtain ⟨e1, e2⟩ := e
    simp only [List.map_cons, List.lookup_cons]
    cases h : k == e1
    · exact ih
    · rfl

/-! ## Aliases -/

theorem splitMax_one (c : UInt8) (s : Bytes) :
    (∃ a b, s = a ++ c :: b ∧ c ∉ a ∧ splitMax c 1 s = [a, b]) ∨ (c ∉ s ∧ splitMax c 1 s = [s]) := by
  induction s with
  | nil => exact Or.inr ⟨by simp, rfl⟩
  | cons x r ih =>
    by_cases hx : x = c
    · refine Or.inl ⟨[], r, by simp [hx], by simp, ?_⟩
      simp [splitMax, hx]
    · rcases ih with ⟨a, b, h1, h2, h3⟩ | ⟨h1, h2⟩
      · refine Or.inl ⟨x :: a, b, by simp [h1], ?_, ?_⟩
        · simp only [List.mem_cons, not_or]; exact ⟨fun e => hx e.symm, h2⟩
        · rw [splitMax, if_neg hx, h3]
      · refine Or.inr ⟨?_, ?_⟩
        · simp only [List.mem_cons, not_or]; exact ⟨fun e => hx e.symm, h1⟩
        · rw [splitMax, if_neg hx, h2]

theorem cut_unique {c : UInt8} {a b a' b' : Bytes} (h : a ++ c :: b = a' ++ c :: b') (ha : c ∉ a) (ha' : c ∉ a') :
    a = a' ∧ b = b' := by
  induction a generalizing a' with
  | nil =>
    cases a' with
    | nil => simpa using h
    | cons y a' =>
      simp only [List.nil_append, List.cons_append, List.cons.injEq] at h
      exact absurd (by simp [h.1]) ha'
  | cons x a ih =>
    cases a' with
    | nil =>
      simp only [List.nil_append, List.cons_append, List.cons.injEq] at h
      exact absurd (by simp [h.1]) ha
    | cons y a' =>
      simp only [List.cons_append, List.cons.injEq] at h
      obtain ⟨e1, e2⟩ := ih h.2 (fun hh => ha (by simp [hh])) (fun hh => ha' (by simp [hh]))
      exact ⟨by rw [h.1, e1], e2⟩

theorem renamed_aliasFeature (a : BitsBlockAlias) (feature : Bytes) : Renamed a.sites feature (aliasFeature a feature feature) := by
  unfold aliasFeature
  rcases splitMax_one 0x2e feature with ⟨h, s, e, hn, hs⟩ | ⟨hn, hs⟩
  · rw [hs]
    dsimp only
    cases hl : a.sites.lookup s with
    | some to => exact Or.inl ⟨h, s, to, e, hn, hl, rfl⟩
    | none =>
      refine Or.inr ⟨?_, by rw [e]; rfl⟩
      intro h' s' to e' hn' hl'
      rw [e] at e'
      obtain ⟨_, rfl⟩ := cut_unique e' hn hn'
      rw [hl] at hl'; cases hl'
  · rw [hs]
    refine Or.inr ⟨?_, rfl⟩
    intro h' s' to e' _ _
    exact hn (by rw [e']; simp)

theorem renamed_unique {sites sites' : List (Bytes × Bytes)} (hs : ∀ s, sites.lookup s = sites'.lookup s)
    {feature f f' : Bytes} (h : Renamed sites feature f) (h' : Renamed sites' feature f') : f = f' := by
  rcases h with ⟨a, s, t, e, hn, hl, rfl⟩ | ⟨hno, rfl⟩
  · rcases h' with ⟨a', s', t', e', hn', hl', rfl⟩ | ⟨hno', rfl⟩
    · rw [e] at e'
      obtain ⟨rfl, rfl⟩ := cut_unique e' hn hn'
      rw [hs, hl'] at hl; cases hl; rfl
    · exact absurd (by rw [← hs]; exact hl) (hno' a s t e hn)
  · rcases h' with ⟨a', s', t', e', hn', hl', rfl⟩ | ⟨hno', rfl⟩
    · exact absurd (by rw [hs]; exact hl') (hno a' s' t' e' hn')
    · rfl

/-- The block an entry turns into. -/
def resolved (b : BitsBlock) : BitsBlock :=
  match b.alias? with
  | none => b
  | some a => { b with alias? := none, offset := aliasOffset b.offset a.startOffset }

theorem aliasFold_blocks (feature : Bytes) (es : Bits) (s : AliasState) (h : ((s.blocks ++ es).map (·.1)).Nodup) :
    (es.foldl (aliasStep feature) s).blocks = s.blocks ++ es.map fun e => (e.1, resolved e.2) := by
  induction es generalizing s with
  | nil => simp
  | cons e es ih =>
    rw [List.foldl_cons]
    have hb : (aliasStep feature s e).blocks = s.blocks ++ [(e.1, resolved e.2)] := by
      have hnew : ∀ v, insertNew s.blocks e.1 v = s.blocks ++ [(e.1, v)] := by
        intro v
        unfold insertNew
        rw [if_neg]
        intro hs
        rw [lookup_isSome_iff] at hs
        rw [List.map_append, List.nodup_append] at h
        exact h.2.2 _ hs _ (by simp) rfl
      unfold aliasStep resolved
      cases e.2.alias? with
      | none => exact hnew _
      | some a => exact hnew _
    rw [ih]
    · rw [hb]; simp
    · rw [hb]
      simpa [List.map_append] using h

/-- The last alias decides type and name. -/
theorem aliasFold_names (feature : Bytes) (es : Bits) (s : AliasState) (hs : 0x2e ∉ feature → s.feature = feature) :
    let r := es.foldl (aliasStep feature) s
    ((∀ e ∈ es, e.2.alias? = none) ∧ r.tileType = s.tileType ∧ r.feature = s.feature) ∨
    ∃ pre bus block a post, es = pre ++ (bus, block) :: post ∧ block.alias? = some a ∧ (∀ e ∈ post, e.2.alias? = none) ∧
      r.tileType = a.type ∧ r.feature = aliasFeature a feature feature := by
  induction es generalizing s with
  | nil => exact Or.inl ⟨by simp, rfl, rfl⟩
  | cons e es ih =>
    dsimp only
    rw [List.foldl_cons]
    have hf : ∀ a, aliasFeature a feature s.feature = aliasFeature a feature feature := by
      intro a
      unfold aliasFeature
      rcases splitMax_one 0x2e feature with ⟨h, t, _, _, h3⟩ | ⟨hn, h3⟩
      · rw [h3]
      · rw [h3]; exact hs hn
    have hs' : 0x2e ∉ feature → (aliasStep feature s e).feature = feature := by
      intro hn
      unfold aliasStep
      cases e.2.alias? with
      | none => exact hs hn
      | some a =>
        dsimp only
        rcases splitMax_one 0x2e feature with ⟨h, t, h1, _, _⟩ | ⟨_, h3⟩
        · exact absurd (by rw [h1]; simp) hn
        · rw [hf a]; unfold aliasFeature; rw [h3]
    rcases ih (aliasStep feature s e) hs' with ⟨h1, h2, h3⟩ | ⟨pre, bus, block, a, post, hx, ha, hp, h2, h3⟩
    · cases he : e.2.alias? with
      | none =>
        refine Or.inl ⟨?_, ?_, ?_⟩
        · intro y hy
          rcases List.mem_cons.1 hy with rfl | hy
          · exact he
          · exact h1 y hy
        · rw [h2]; unfold aliasStep; rw [he]
        · rw [h3]; unfold aliasStep; rw [he]
      | some a =>
        refine Or.inr ⟨[], e.1, e.2, a, es, rfl, he, h1, ?_, ?_⟩
        · rw [h2]; unfold aliasStep; rw [he]
        · rw [h3]; unfold aliasStep; rw [he]; exact hf a
    · exact Or.inr ⟨e :: pre, bus, block, a, post, by rw [hx]; rfl, ha, hp, h2, h3⟩

/-- Two ways to cut a list at the last element with a property. -/
theorem cut_last_unique {α : Type} {P : α → Prop} {pre pre' post post' : List α} {x x' : α}
    (h : pre ++ x :: post = pre' ++ x' :: post') (hx : P x) (hx' : P x') (hp : ∀ y ∈ post, ¬ P y) (hp' : ∀ y ∈ post', ¬ P y) :
    x = x' := by
  induction pre generalizing pre' with
  | nil =>
    cases pre' with
    | nil => exact (List.cons.inj h).1
    | cons y ys =>
      have := (List.cons.inj h).2
      exact absurd hx' (hp x' (by rw [this]; simp))
  | cons y ys ih =>
    cases pre' with
    | nil =>
      have := (List.cons.inj h).2
      exact absurd hx (hp' x (by rw [← this]; simp))
    | cons z zs => exact ih (List.cons.inj h).2

theorem knownAs_fold {t : Tile} {feature ty f : Bytes} (h : KnownAs t feature ty f) :
    (t.bits.foldl (aliasStep feature) ⟨t.type, feature, []⟩).tileType = ty ∧
    (t.bits.foldl (aliasStep feature) ⟨t.type, feature, []⟩).feature = f := by
  rcases aliasFold_names feature t.bits ⟨t.type, feature, []⟩ (fun _ => rfl) with
    ⟨h1, h2, h3⟩ | ⟨pre, bus, block, a, post, he, ha, hp, h2, h3⟩
  · rcases h with ⟨_, rfl, rfl⟩ | ⟨pre, bus, block, a, post, he, ha, _, _, _⟩
    · exact ⟨h2, h3⟩
    · have := h1 (bus, block) (by rw [he]; simp)
      rw [show (bus, block).2.alias? = some a from ha] at this; cases this
  · rcases h with ⟨hn, _, _⟩ | ⟨pre', bus', block', a', post', he', ha', hp', rfl, hr⟩
    · have := hn (bus, block) (by rw [he]; simp)
      rw [show (bus, block).2.alias? = some a from ha] at this; cases this
    · have hx := cut_last_unique (P := fun e : ConfigBusType × BitsBlock => e.2.alias? ≠ none) (he.symm.trans he')
        (by rw [show (bus, block).2.alias? = some a from ha]; simp) (by rw [show (bus', block').2.alias? = some a' from ha']; simp)
        (fun y hy h => h (hp y hy)) (fun y hy h => h (hp' y hy))
      cases hx
      rw [ha] at ha'; cases ha'
      exact ⟨h2, by rw [h3]; exact renamed_unique (fun _ => rfl) (renamed_aliasFeature a feature) hr⟩

theorem knownAs_exists (t : Tile) (feature : Bytes) :
    KnownAs t feature (t.bits.foldl (aliasStep feature) ⟨t.type, feature, []⟩).tileType
      (t.bits.foldl (aliasStep feature) ⟨t.type, feature, []⟩).feature := by
  rcases aliasFold_names feature t.bits ⟨t.type, feature, []⟩ (fun _ => rfl) with
    ⟨h1, h2, h3⟩ | ⟨pre, bus, block, a, post, he, ha, hp, h2, h3⟩
  · exact Or.inl ⟨h1, h2, h3⟩
  · exact Or.inr ⟨pre, bus, block, a, post, he, ha, hp, h2, by rw [h3]; exact renamed_aliasFeature a feature⟩

/-- All aliased blocks name this type and this feature. -/
def Unanimous (t : Db.Tile) (feature ty f : Bytes) : Prop :=
  ((∀ e ∈ t.bits, e.2.alias? = none) ∧ ty = t.type ∧ f = feature) ∨
  ((∃ e ∈ t.bits, e.2.alias? ≠ none) ∧
    ∀ e ∈ t.bits, ∀ a, e.2.alias? = some a → ty = a.type ∧ Renamed a.sites feature f)

theorem last_aliased (es : Bits) (h : ∃ e ∈ es, e.2.alias? ≠ none) : ∃ pre bus block a post, es = pre ++ (bus, block) :: post ∧
    block.alias? = some a ∧ ∀ e ∈ post, e.2.alias? = none := by
  induction es with
  | nil => obtain ⟨e, he, _⟩ := h; cases he
  | cons x xs ih =>
    by_cases hx : ∃ e ∈ xs, e.2.alias? ≠ none
    · obtain ⟨pre, bus, block, a, post, h1, h2, h3⟩ := ih hx
      exact ⟨x :: pre, bus, block, a, post, by rw [h1]; rfl, h2, h3⟩
    · have hall : ∀ e ∈ xs, e.2.alias? = none := by
        intro e he
        cases hn : e.2.alias? with
        | none => rfl
        | some a => exact absurd ⟨e, he, by rw [hn]; simp⟩ hx
      obtain ⟨e, he, hne⟩ := h
      rcases List.mem_cons.1 he with rfl | he
      · cases ha : e.2.alias? with
        | none => exact absurd ha hne
        | some a => exact ⟨[], e.1, e.2, a, xs, rfl, ha, hall⟩
      · exact absurd (hall e he) hne

theorem unanimous_iff {t : Tile} (hag : AliasesAgree t) {feature ty f : Bytes} : Unanimous t feature ty f ↔ KnownAs t feature ty f := by
  constructor
  · rintro (h | ⟨h, hall⟩)
    · exact Or.inl h
    · obtain ⟨pre, bus, block, a, post, h1, h2, h3⟩ := last_aliased t.bits h
      obtain ⟨h4, h5⟩ := hall (bus, block) (by rw [h1]; simp) a h2
      exact Or.inr ⟨pre, bus, block, a, post, h1, h2, h3, h4, h5⟩
  · rintro (h | ⟨pre, bus, block, a, post, h1, h2, h3, h4, h5⟩)
    · exact Or.inl h
    · have hm : (bus, block) ∈ t.bits := by rw [h1]; simp
      refine Or.inr ⟨⟨(bus, block), hm, by rw [show (bus, block).2.alias? = some a from h2]; simp⟩, ?_⟩
      intro e' he' a' ha'
      obtain ⟨ht, hsites⟩ := hag _ hm e' he' a a' h2 ha'
      refine ⟨by rw [h4, ht], ?_⟩
      have hr := renamed_aliasFeature a' feature
      have h6 := renamed_unique hsites h5 hr
      rw [h6]; exact hr

/-! ## Bits -/

/-- The calls of one block. -/
def blockCalls (sb : SegBits) (key : TileFeature) (e : ConfigBusType × BitsBlock) : List BitCall :=
  ((listed sb key e.1).getD []).map fun s => ⟨e.1, bitFrame e.2 s, bitPos e.2 s / 32, bitPos e.2 s % 32, s.isSet⟩

theorem aliasOffset_pos (offset : Int) (start bit : Nat) :
    ((aliasOffset offset start % 2 ^ 32).toNat * 32 + bit) % 2 ^ 32 =
      (((offset - (start : Int)) * 32 + bit) % 2 ^ 32).toNat := by
  have h : aliasOffset offset start % 2 ^ 32 = (offset - start) % 2 ^ 32 := by
    unfold aliasOffset
    rw [BitVec.toInt_sub, BitVec.toInt_ofInt, BitVec.toInt_eq_toNat_bmod, BitVec.toNat_ofNat]
    simp only [Int.bmod_def]
    omega
  rw [h]
  omega

theorem resolved_pos (b : BitsBlock) (s : SegmentBit) :
    (((resolved b).offset % 2 ^ 32).toNat * 32 + s.wordBit) % 2 ^ 32 = bitPos b s := by
  unfold resolved bitPos firstWord
  cases h : b.alias? with
  | none => simp only [Option.elim_none]; omega
  | some a => simp only [Option.elim_some]; exact aliasOffset_pos _ _ _

theorem setBit_resolved {σ : Type} (setter : BitSetter σ) (bus : ConfigBusType) (b : BitsBlock) (s : σ) (x : SegmentBit) :
    setBit setter bus (resolved b) s x = setter s bus (bitFrame b x) (bitPos b x / 32) (bitPos b x % 32) x.isSet := by
  unfold setBit
  rw [resolved_pos]
  have : (resolved b).baseAddress = b.baseAddress := by unfold resolved; cases b.alias? <;> rfl
  simp only [this]
  congr 1
  unfold bitFrame
  omega

theorem busStep_resolved {σ : Type} (setter : BitSetter σ) (sb : SegBits) (many : Bool) (key : TileFeature)
    (m : Bool) (s : σ) (e : ConfigBusType × BitsBlock) :
    busStep setter sb many key (m, s) (e.1, resolved e.2) =
      match listed sb key e.1 with
      | some _ => (applyCalls setter s (blockCalls sb key e)) >>= fun s' => .ok (true, s')
      | none => if many = false ∧ (sb.segmentBits.lookup e.1).isSome then .abort else .ok (m, s) := by
  unfold busStep blockCalls applyCalls listed
  dsimp only
  cases sb.segmentBits.lookup e.1 with
  | none => simp
  | some tbl =>
    simp only [Option.bind_some]
    cases tbl.lookup key with
    | none => cases many <;> simp
    | some segs =>
      simp only [Option.getD_some, List.foldlM_map]
      congr 1
      congr 1
      funext s' x
      exact setBit_resolved setter e.1 e.2 s' x

/-- The bus loop over blocks in any order. -/
theorem busLoop {σ : Type} (setter : BitSetter σ) (sb : SegBits) (many : Bool) (key : TileFeature) (es : Bits)
    (m : Bool) (hone : many = false → es.length ≤ 1 ∧ m = false) (s : σ) :
    ((es.map fun e => (e.1, resolved e.2)).foldlM (busStep setter sb many key) (m, s) >>= fun r =>
      if r.1 then (.ok r.2 : Outcome σ) else .abort) =
    if m = true ∨ ∃ e ∈ es, (listed sb key e.1).isSome then applyCalls setter s (es.flatMap (blockCalls sb key)) else .abort := by
  cases many with
  | true =>
    clear hone
    induction es generalizing m s with
    | nil => cases m <;> simp [applyCalls]
    | cons e es ih =>
      rw [List.map_cons, List.foldlM_cons, busStep_resolved]
      cases hl : listed sb key e.1 with
      | none =>
        have hb : blockCalls sb key e = [] := by unfold blockCalls; rw [hl]; rfl
        rw [if_neg (by simp)]
        simp only [Outcome.bind_ok, List.flatMap_cons, hb, List.nil_append]
        rw [ih]
        have hiff : (m = true ∨ ∃ x ∈ e :: es, (listed sb key x.1).isSome = true) ↔
            (m = true ∨ ∃ x ∈ es, (listed sb key x.1).isSome = true) := by
          refine or_congr_right ⟨?_, ?_⟩
          · rintro ⟨x, hx, h⟩
            rcases List.mem_cons.1 hx with rfl | hx
            · rw [hl] at h; cases h
            · exact ⟨x, hx, h⟩
          · rintro ⟨x, hx, h⟩; exact ⟨x, by simp [hx], h⟩
        by_cases hc : m = true ∨ ∃ x ∈ es, (listed sb key x.1).isSome = true
        · rw [if_pos hc, if_pos (hiff.2 hc)]
        · rw [if_neg hc, if_neg (fun h => hc (hiff.1 h))]
      | some segs =>
        dsimp only
        rw [if_pos (Or.inr ⟨e, by simp, by simp [hl]⟩), List.flatMap_cons]
        unfold applyCalls
        rw [List.foldlM_append]
        cases (blockCalls sb key e).foldlM (fun s c => setter s c.bus c.frame c.word c.index c.value) s with
        | ok s' =>
          simp only [Outcome.bind_ok]
          rw [ih, if_pos (Or.inl rfl)]
          rfl
        | err => rfl
        | abort => rfl
        | ub => rfl
  | false =>
    obtain ⟨hlen, rfl⟩ := hone rfl
    match es, hlen with
    | [], _ => simp
    | [e], _ =>
      rw [List.map_cons, List.foldlM_cons, busStep_resolved]
      cases hl : listed sb key e.1 with
      | none =>
        have hb : blockCalls sb key e = [] := by unfold blockCalls; rw [hl]; rfl
        cases hs : (sb.segmentBits.lookup e.1).isSome
        · simp [hl]
        · simp [hl]
      | some segs =>
        dsimp only
        rw [if_pos (Or.inr ⟨e, by simp, by simp [hl]⟩)]
        simp only [List.flatMap_cons, List.flatMap_nil, List.append_nil, List.map_nil, List.foldlM_nil]
        cases applyCalls setter s (blockCalls sb key e) <;> rfl

end Verif.Db
