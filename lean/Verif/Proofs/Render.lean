import Verif.Spec.Render
import Verif.Proofs.DbGrid
/-! # Rendered parts and tile grids satisfy their descriptions -/
namespace Verif.Db
open Verif.Text Verif.Spec

theorem digit_value (d : Nat) (h : d < 16) : digitValue (digitsText.digit d) = some d := by
  have : ∀ i : Fin 16, digitValue (digitsText.digit i.1) = some i.1 := by decide
  exact this ⟨d, h⟩

theorem digit_dec (d : Nat) (h : d < 10) : 0x30 ≤ digitsText.digit d ∧ digitsText.digit d ≤ 0x39 ∧
    (digitsText.digit d).toNat - 0x30 = d := by
  have : ∀ i : Fin 10, 0x30 ≤ digitsText.digit i.1 ∧ digitsText.digit i.1 ≤ 0x39 ∧
    (digitsText.digit i.1).toNat - 0x30 = i.1 := by decide
  exact this ⟨d, h⟩

theorem decimal_digits (n : Nat) : Decimal (digitsText 10 n) n := by
  induction n using Nat.strongRecOn with
  | _ n ih =>
    rw [digitsText]
    split
    · rename_i h
      have h' : n < 10 := by omega
      obtain ⟨a, b, c⟩ := digit_dec n h'
      refine ⟨by simp, ?_, ?_⟩
      · intro x hx
        rw [List.mem_singleton.1 hx]; exact ⟨a, b⟩
      · simp only [List.foldl_cons, List.foldl_nil, c]; omega
    · rename_i h
      obtain ⟨h1, h2, h3⟩ := ih (n / 10) (by omega)
      obtain ⟨a, b, c⟩ := digit_dec (n % 10) (by omega)
      refine ⟨by simp, ?_, ?_⟩
      · intro x hx
        rcases List.mem_append.1 hx with hx | hx
        · exact h2 x hx
        · rw [List.mem_singleton.1 hx]; exact ⟨a, b⟩
      · rw [List.foldl_append, h3]
        simp only [List.foldl_cons, List.foldl_nil, c]; omega

theorem hex_digits (n : Nat) : ∃ ds : List Nat, (digitsText 16 n).map digitValue = ds.map some ∧
    ds.foldl (fun v x => v * 16 + x) 0 = n := by
  induction n using Nat.strongRecOn with
  | _ n ih =>
    rw [digitsText]
    split
    · rename_i h
      exact ⟨[n], by simp [digit_value n (by omega)], by simp⟩
    · obtain ⟨ds, h1, h2⟩ := ih (n / 16) (by omega)
      refine ⟨ds ++ [n % 16], ?_, ?_⟩
      · simp [h1, digit_value (n % 16) (by omega)]
      · rw [List.foldl_append, h2]
        simp only [List.foldl_cons, List.foldl_nil]; omega

theorem digits_ne_nil (b n : Nat) : digitsText b n ≠ [] := by
  rw [digitsText]; split <;> simp

theorem hexText_digits (n : Nat) (h : n < 2 ^ 63) : HexText (0x30 :: 0x78 :: digitsText 16 n) n := by
  obtain ⟨ds, h1, h2⟩ := hex_digits n
  exact ⟨⟨digitsText 16 n, ds, rfl, digits_ne_nil _ _, h1, h2⟩, h⟩

theorem untilNul_clean {s : Bytes} (h : (0 : UInt8) ∉ s) : untilNul s = s := by
  unfold untilNul
  induction s with
  | nil => rfl
  | cons c s ih =>
    have hc : c ≠ 0 := fun e => h (by simp [e])
    simp only [List.takeWhile_cons, decide_eq_true hc, if_true]
    rw [ih (fun e => h (by simp [e]))]

theorem decimal_clean {d : Bytes} {n : Nat} (h : Decimal d n) : (0 : UInt8) ∉ d := by
  intro h0
  have := (h.2.1 0 h0).1
  revert this; decide

theorem white_none : White [] := by intro c h; cases h

theorem intText_digits (n : Nat) (h : n < 2 ^ 31) : IntText (untilNul (digitsText 10 n)) n := by
  have hd := decimal_digits n
  rw [untilNul_clean (decimal_clean hd)]
  exact ⟨[], [], _, [], n, by simp, white_none, white_none, hd, Or.inl ⟨Or.inl rfl, rfl, h⟩⟩

theorem uintText_digits (n : Nat) (h : n < 2 ^ 32) : UIntText (untilNul (digitsText 10 n)) n := by
  have hd := decimal_digits n
  rw [untilNul_clean (decimal_clean hd)]
  exact ⟨[], [], _, [], by simp, white_none, white_none, Or.inl rfl, hd, h⟩

theorem untilNul_bus (t : ConfigBusType) : untilNul (busName t) = busName t := by cases t <;> decide

theorem firsts_nodup {κ ν : Type} [BEq κ] [LawfulBEq κ] (es : List (κ × ν)) (h : (es.map (·.1)).Nodup) :
    firsts es = es := by
  induction es with
  | nil => rfl
  | cons e es ih =>
    rw [List.map_cons, List.nodup_cons] at h
    rw [firsts, ih h.2]
    congr 1
    rw [List.filter_eq_self]
    intro x hx
    cases hb : x.1 == e.1 with
    | false => rfl
    | true =>
      exact absurd (by rw [← eq_of_beq hb]; exact List.mem_map_of_mem hx) h.1

theorem sequence_render {α : Type} (item : Json → α → Prop) (obj : α → Json) (l : List α) (hl : l.length ≤ 2 ^ 31)
    (h : ∀ a ∈ l, item (obj a) a) : SequenceJson item (sequenceObj obj l) l := by
  refine ⟨l.zipIdx.map fun e => ((digitsText 10 e.2, obj e.1), e.1), ?_, ?_, ?_⟩
  · unfold sequenceObj; rw [List.map_map]; rfl
  · rw [List.map_map]
    show l = l.zipIdx.map (fun e => e.1)
    rw [List.zipIdx_map_fst]
  · intro i e he
    rw [List.getElem?_map, List.getElem?_zipIdx] at he
    cases hi : l[i]? with
    | none => rw [hi] at he; cases he
    | some a =>
      rw [hi] at he
      simp only [Option.map_some, Option.some.injEq] at he
      subst he
      have hlt : i < l.length := (List.getElem?_eq_some_iff.1 hi).1
      refine ⟨?_, h a (List.mem_of_getElem? hi)⟩
      have := intText_digits (0 + i) (by omega)
      simpa using this

theorem busMap_render {α : Type} (item : Json → α → Prop) (obj : α → Json) (m : List (ConfigBusType × α))
    (hm : (m.map (·.1)).Nodup) (h : ∀ e ∈ m, item (obj e.2) e.2) : BusMapJson item (busObj obj m) m := by
  refine ⟨m.map fun e => ((busName e.1, obj e.2), e), ?_, ?_, ?_⟩
  · unfold busObj; rw [List.map_map]; rfl
  · rw [List.map_map, show ((fun x : (Bytes × Json) × ConfigBusType × α => x.2) ∘
      fun e : ConfigBusType × α => ((busName e.1, obj e.2), e)) = id from rfl, List.map_id, firsts_nodup m hm]
  · intro x hx
    obtain ⟨e, he, rfl⟩ := List.mem_map.1 hx
    exact ⟨untilNul_bus _, h e he⟩

theorem stringMap_render (m : List (Bytes × Bytes)) (hm : (m.map (·.1)).Nodup) : StringMapJson (stringObj m) m :=
  ⟨m, rfl, (firsts_nodup m hm).symm⟩

theorem part_render (p : Db.Part) (h : PartValid p) : PartJson (partObj p) p := by
  have half : ∀ half, half = p.bottomRows ∨ half = p.topRows → HalfJson (halfObj half) half := by
    intro hf hh
    obtain ⟨hl, hr⟩ := h.halves hf hh
    refine ⟨_, ⟨_, rfl, rfl⟩, sequence_render _ _ _ hl ?_⟩
    intro row hrow
    obtain ⟨hn, hb⟩ := hr row hrow
    refine ⟨_, ⟨_, rfl, rfl⟩, busMap_render _ _ _ hn ?_⟩
    intro bus hbus
    obtain ⟨hl2, hc⟩ := hb bus hbus
    refine ⟨_, ⟨_, rfl, rfl⟩, sequence_render _ _ _ hl2 ?_⟩
    intro n hn
    exact ⟨_, ⟨_, rfl, rfl⟩, rfl, hc n hn⟩
  refine ⟨⟨_, ⟨_, rfl, rfl⟩, rfl, p.idcode.isLt⟩, Or.inr ⟨_, ⟨_, rfl, rfl⟩, ?_⟩, _, ⟨_, rfl, rfl⟩,
    ⟨_, ⟨_, rfl, rfl⟩, half _ (Or.inl rfl)⟩, _, ⟨_, rfl, rfl⟩, half _ (Or.inr rfl)⟩
  refine ⟨p.iobanks.map fun e => ((digitsText 10 e.1, e.2), e.1), ?_, ?_, ?_⟩
  · rw [List.map_map]; rfl
  · intro x hx
    obtain ⟨e, he, rfl⟩ := List.mem_map.1 hx
    exact uintText_digits _ (h.banks.2 e he).1
  · rw [List.map_map]
    have : p.iobanks.map ((fun e : (Bytes × Bytes) × Nat => (e.2, untilNul e.1.2)) ∘
        fun e : Nat × Bytes => ((digitsText 10 e.1, e.2), e.1)) = p.iobanks := by
      conv => rhs; rw [← List.map_id p.iobanks]
      apply List.map_congr_left
      intro e he
      simp only [Function.comp_apply, untilNul_clean (h.banks.2 e he).2, id]
    rw [this, firsts_nodup _ h.banks.1]

theorem alias_render (a : BitsBlockAlias) (h1 : a.startOffset < 2 ^ 32) (h2 : (a.sites.map (·.1)).Nodup) :
    AliasJson (aliasObj a) a :=
  ⟨⟨_, ⟨_, rfl, rfl⟩, stringMap_render _ h2⟩, ⟨_, ⟨_, rfl, rfl⟩, rfl, h1⟩, ⟨_, rfl, rfl⟩⟩

theorem block_render (b : BitsBlock) (h : BlockValid b) : BlockJson HexText (blockObj b) b := by
  refine ⟨?_, ⟨_, ⟨_, rfl, rfl⟩, hexText_digits _ h.base⟩, ⟨_, ⟨_, rfl, rfl⟩, rfl, h.frames⟩,
    ⟨_, ⟨_, rfl, rfl⟩, rfl, h.offset⟩, ⟨_, ⟨_, rfl, rfl⟩, rfl, h.words⟩⟩
  cases ha : b.alias? with
  | none =>
    refine Or.inl ⟨⟨_, rfl, ?_⟩, rfl⟩
    rw [ha]; rfl
  | some a =>
    obtain ⟨h1, h2⟩ := h.alias a ha
    refine Or.inr ⟨_, a, ⟨_, rfl, ?_⟩, rfl, alias_render a h1 h2⟩
    rw [ha]; rfl

theorem tile_render (t : Db.Tile) (h : TileValid t) : TileJson HexText (tileObj t) t := by
  refine ⟨⟨_, rfl, rfl⟩, ⟨_, ⟨_, rfl, rfl⟩, rfl, h.x⟩, ⟨_, ⟨_, rfl, rfl⟩, rfl, h.y⟩, ?_,
    ⟨_, ⟨_, rfl, rfl⟩, busMap_render _ _ _ h.bits.1 fun e he => block_render _ (h.bits.2 e he)⟩,
    ⟨_, ⟨_, rfl, rfl⟩, stringMap_render _ h.pins⟩, ⟨_, ⟨_, rfl, rfl⟩, stringMap_render _ h.sites⟩,
    ⟨_, ⟨_, rfl, rfl⟩, t.prohibitedSites, rfl, ?_⟩⟩
  · cases hc : t.clockRegion with
    | none =>
      refine Or.inl ⟨⟨_, rfl, ?_⟩, rfl⟩
      rw [hc]; rfl
    | some s =>
      refine Or.inr ⟨s, ⟨_, rfl, ?_⟩, rfl⟩
      rw [hc]; rfl
  · conv => lhs; rw [← List.map_id t.prohibitedSites]
    apply List.map_congr_left
    intro s hs
    rw [untilNul_clean (h.prohibited s hs)]; rfl

theorem grid_render (g : TileGrid) (h : GridValid g) : GridJson HexText (gridObj g) g := by
  refine ⟨g.map fun e => ((e.1, tileObj e.2), e.2), ?_, ?_, ?_⟩
  · unfold gridObj; rw [List.map_map]; rfl
  · intro x hx
    obtain ⟨e, he, rfl⟩ := List.mem_map.1 hx
    exact tile_render _ (h.tiles e he)
  · rw [List.map_map]
    have : g.map ((fun e : (Bytes × Json) × Db.Tile => (untilNul e.1.1, e.2)) ∘
        fun e : Bytes × Db.Tile => ((e.1, tileObj e.2), e.2)) = g := by
      conv => rhs; rw [← List.map_id g]
      apply List.map_congr_left
      intro e he
      simp only [Function.comp_apply, untilNul_clean (h.names.2 e he), id]
    rw [this, firsts_nodup _ h.names.1]

end Verif.Db
