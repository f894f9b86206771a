import Verif.Proofs.DbJson
/-! # Tile grids: proofs -/
namespace Verif.Db
open Verif.Text Verif.Spec

/-- How the code reads base addresses. -/
def CodeAddress (s : Bytes) (n : Nat) : Prop := baseAddress s = .ok n

theorem asAlias_iff (j : Json) (a : BitsBlockAlias) : asAlias j = .ok a ↔ AliasJson j a := by
  unfold asAlias AliasJson
  have h1 : ∀ x, getMember asStringMap j kSites = .ok x ↔
      ∃ v, Member j bytes!"sites" v ∧ StringMapJson v x := by
    intro x; rw [getMember_iff]; simp only [asStringMap_iff]; rfl
  have h2 : ∀ x, getMember asU32 j kStartOffset = .ok x ↔
      ∃ v, Member j bytes!"start_offset" v ∧ U32Json v x := by
    intro x; rw [getMember_iff]; simp only [asU32_iff]; rfl
  have h3 : ∀ x, getMember asString j kType = .ok x ↔ Member j bytes!"type" (.str x) := by
    intro x; rw [getMember_iff]; simp only [asString_iff, exists_eq_right]; rfl
  constructor
  · intro h
    obtain ⟨s, hs, h⟩ := Outcome.bind_eq_ok.1 h
    obtain ⟨o, ho, h⟩ := Outcome.bind_eq_ok.1 h
    obtain ⟨t, ht, h⟩ := Outcome.bind_eq_ok.1 h
    cases h
    exact ⟨(h1 _).1 hs, (h2 _).1 ho, (h3 _).1 ht⟩
  · rintro ⟨e1, e2, e3⟩
    rw [(h1 _).2 e1, (h2 _).2 e2, (h3 _).2 e3]
    rfl

theorem asBitsBlock_iff (j : Json) (b : BitsBlock) : asBitsBlock j = .ok b ↔ BlockJson CodeAddress j b := by
  unfold asBitsBlock BlockJson
  have h1 : ∀ x, optGetMember asAlias j kAlias = .ok x ↔
      ((NoMember j bytes!"alias" ∧ x = none) ∨
        ∃ v a, Member j bytes!"alias" v ∧ x = some a ∧ AliasJson v a) := by
    intro x; rw [optGetMember_iff]; simp only [asAlias_iff]; rfl
  have h2 : ∀ x, getMember asString j kBaseaddr = .ok x ↔
      Member j bytes!"baseaddr" (.str x) := by
    intro x; rw [getMember_iff]; simp only [asString_iff, exists_eq_right]; rfl
  have h3 : ∀ x, getMember asU32 j kFrames = .ok x ↔
      ∃ v, Member j bytes!"frames" v ∧ U32Json v x := by
    intro x; rw [getMember_iff]; simp only [asU32_iff]; rfl
  have h4 : ∀ x, getMember asI32 j kOffset = .ok x ↔
      ∃ v, Member j bytes!"offset" v ∧ I32Json v x := by
    intro x; rw [getMember_iff]; simp only [asI32_iff]; rfl
  have h5 : ∀ x, getMember asU32 j kWords = .ok x ↔
      ∃ v, Member j bytes!"words" v ∧ U32Json v x := by
    intro x; rw [getMember_iff]; simp only [asU32_iff]; rfl
  constructor
  · intro h
    obtain ⟨al, hal, h⟩ := Outcome.bind_eq_ok.1 h
    obtain ⟨s, hs, h⟩ := Outcome.bind_eq_ok.1 h
    obtain ⟨n, hn, h⟩ := Outcome.bind_eq_ok.1 h
    obtain ⟨f, hf, h⟩ := Outcome.bind_eq_ok.1 h
    obtain ⟨o, ho, h⟩ := Outcome.bind_eq_ok.1 h
    obtain ⟨w, hw, h⟩ := Outcome.bind_eq_ok.1 h
    cases h
    exact ⟨(h1 _).1 hal, ⟨s, (h2 _).1 hs, hn⟩, (h3 _).1 hf, (h4 _).1 ho, (h5 _).1 hw⟩
  · rintro ⟨e1, ⟨s, e2, e2'⟩, e3, e4, e5⟩
    rw [(h1 _).2 e1, (h2 _).2 e2, (h3 _).2 e3, (h4 _).2 e4, (h5 _).2 e5]
    simp only [Outcome.bind_ok]
    rw [show baseAddress s = .ok b.baseAddress from e2']
    rfl

theorem asBits_iff (j : Json) (b : Bits) : asBits j = .ok b ↔ BusMapJson (BlockJson CodeAddress) j b := by
  cases j with
  | obj ms => exact busMap_iff _ _ asBitsBlock_iff ms b
  | _ =>
    constructor
    · intro h; cases h
    · rintro ⟨es, e, _⟩; cases e

theorem asTile_iff (j : Json) (t : Db.Tile) : asTile j = .ok t ↔ TileJson CodeAddress j t := by
  unfold asTile TileJson
  have h1 : ∀ x, getMember asString j kType = .ok x ↔ Member j bytes!"type" (.str x) := by
    intro x; rw [getMember_iff]; simp only [asString_iff, exists_eq_right]; rfl
  have h2 : ∀ x, getMember asU32 j kGridX = .ok x ↔ ∃ v, Member j bytes!"grid_x" v ∧ U32Json v x := by
    intro x; rw [getMember_iff]; simp only [asU32_iff]; rfl
  have h3 : ∀ x, getMember asU32 j kGridY = .ok x ↔ ∃ v, Member j bytes!"grid_y" v ∧ U32Json v x := by
    intro x; rw [getMember_iff]; simp only [asU32_iff]; rfl
  have h4 : ∀ x, optGetMember asString j kClockRegion = .ok x ↔
      ((NoMember j bytes!"clock_region" ∧ x = none) ∨
        ∃ s, Member j bytes!"clock_region" (.str s) ∧ x = some s) := by
    intro x; rw [optGetMember_iff]; simp only [asString_iff]
    constructor
    · rintro (h | ⟨v, a, hm, rfl, rfl⟩)
      · exact Or.inl h
      · exact Or.inr ⟨a, hm, rfl⟩
    · rintro (h | ⟨a, hm, rfl⟩)
      · exact Or.inl h
      · exact Or.inr ⟨_, a, hm, rfl, rfl⟩
  have h5 : ∀ x, getMember asBits j kBits = .ok x ↔
      ∃ v, Member j bytes!"bits" v ∧ BusMapJson (BlockJson CodeAddress) v x := by
    intro x; rw [getMember_iff]; simp only [asBits_iff]; rfl
  have h6 : ∀ x, getMember asStringMap j kPinFunctions = .ok x ↔
      ∃ v, Member j bytes!"pin_functions" v ∧ StringMapJson v x := by
    intro x; rw [getMember_iff]; simp only [asStringMap_iff]; rfl
  have h7 : ∀ x, getMember asStringMap j kSites = .ok x ↔
      ∃ v, Member j bytes!"sites" v ∧ StringMapJson v x := by
    intro x; rw [getMember_iff]; simp only [asStringMap_iff]; rfl
  have h8 : ∀ x, getMember asStrings j kProhibitedSites = .ok x ↔
      ∃ v, Member j bytes!"prohibited_sites" v ∧
        StringsJson v x := by
    intro x; rw [getMember_iff]; simp only [asStrings_iff]; rfl
  constructor
  · intro h
    obtain ⟨x1, e1, h⟩ := Outcome.bind_eq_ok.1 h
    obtain ⟨x2, e2, h⟩ := Outcome.bind_eq_ok.1 h
    obtain ⟨x3, e3, h⟩ := Outcome.bind_eq_ok.1 h
    obtain ⟨x4, e4, h⟩ := Outcome.bind_eq_ok.1 h
    obtain ⟨x5, e5, h⟩ := Outcome.bind_eq_ok.1 h
    obtain ⟨x6, e6, h⟩ := Outcome.bind_eq_ok.1 h
    obtain ⟨x7, e7, h⟩ := Outcome.bind_eq_ok.1 h
    obtain ⟨x8, e8, h⟩ := Outcome.bind_eq_ok.1 h
    cases h
    exact ⟨(h1 _).1 e1, (h2 _).1 e2, (h3 _).1 e3, (h4 _).1 e4, (h5 _).1 e5, (h6 _).1 e6, (h7 _).1 e7, (h8 _).1 e8⟩
  · rintro ⟨e1, e2, e3, e4, e5, e6, e7, e8⟩
    rw [(h1 _).2 e1, (h2 _).2 e2, (h3 _).2 e3, (h4 _).2 e4, (h5 _).2 e5, (h6 _).2 e6, (h7 _).2 e7, (h8 _).2 e8]
    rfl

theorem parseTileGrid_iff (j : Json) (g : TileGrid) : parseTileGrid j = .ok g ↔ GridJson CodeAddress j g := by
  unfold GridJson
  cases j with
  | obj ms =>
    have e : parseTileGrid (.obj ms) = ms.foldlM (fun m e => (do
        let t ← asTile e.2
        pure (cstr e.1, t) : Outcome (Bytes × Db.Tile)) >>= fun kv => pure (insertNew m kv.1 kv.2)) [] := by
      unfold parseTileGrid
      dsimp only
      congr 1
      funext m e
      cases asTile e.2 <;> rfl
    rw [e, foldInsert_iff]
    have hone : ∀ (x : Bytes × Json) (y : Bytes × Db.Tile), (do
        let t ← asTile x.2
        pure (cstr x.1, t) : Outcome (Bytes × Db.Tile)) = .ok y ↔ y.1 = untilNul x.1 ∧ TileJson CodeAddress x.2 y.2 := by
      intro x y
      rw [← asTile_iff]
      constructor
      · intro h
        obtain ⟨t, ht, h⟩ := Outcome.bind_eq_ok.1 h
        cases h
        exact ⟨rfl, ht⟩
      · rintro ⟨h1, h2⟩
        rw [h2]
        obtain ⟨y1, y2⟩ := y
        cases h1
        rfl
    constructor
    · rintro ⟨es, rfl, h2, rfl⟩
      refine ⟨es.map fun e => (e.1, e.2.2), by simp [List.map_map, Function.comp_def], ?_, ?_⟩
      · intro x hx
        obtain ⟨e, he, rfl⟩ := List.mem_map.1 hx
        exact ((hone _ _).1 (h2 e he)).2
      · rw [insertAll_nil_firsts, List.map_map]
        congr 1
        apply List.map_congr_left
        intro e he
        have := ((hone _ _).1 (h2 e he)).1
        simp only [Function.comp_apply, ← this]
    · rintro ⟨es, h1, h2, rfl⟩
      cases h1
      refine ⟨es.map fun e => (e.1, (untilNul e.1.1, e.2)), by simp [List.map_map, Function.comp_def], ?_, ?_⟩
      · intro x hx
        obtain ⟨e, he, rfl⟩ := List.mem_map.1 hx
        exact (hone _ _).2 ⟨rfl, h2 e he⟩
      · rw [insertAll_nil_firsts, List.map_map]
        rfl
  | _ =>
    constructor
    · intro h; cases h
    · rintro ⟨es, e, _⟩; cases e

theorem BlockJson.mono {A B : Bytes → Nat → Prop} (h : ∀ s n, A s n → B s n) {j : Json} {b : BitsBlock} :
    BlockJson A j b → BlockJson B j b := by
  rintro ⟨h1, ⟨s, h2, h2'⟩, h3⟩
  exact ⟨h1, ⟨s, h2, h _ _ h2'⟩, h3⟩

theorem GridJson.mono {A B : Bytes → Nat → Prop} (h : ∀ s n, A s n → B s n) {j : Json} {g : TileGrid} :
    GridJson A j g → GridJson B j g := by
  rintro ⟨es, h1, h2, h3⟩
  refine ⟨es, h1, fun e he => ?_, h3⟩
  obtain ⟨a1, a2, a3, a4, ⟨v, a5, es', b1, b2, b3⟩, a6⟩ := h2 e he
  exact ⟨a1, a2, a3, a4, ⟨v, a5, es', b1, b2, fun e he => ⟨(b3 e he).1, BlockJson.mono h (b3 e he).2⟩⟩, a6⟩

/-! ## Addresses -/

theorem digitPrefix_hex (d : Bytes) (ds : List Nat) (h : d.map digitValue = ds.map some) (v : Nat) :
    digitPrefix 16 v d = ds.foldl (fun v x => v * 16 + x) v := by
  induction d generalizing ds v with
  | nil =>
    cases ds with
    | nil => rfl
    | cons => simp at h
  | cons c d ih =>
    cases ds with
    | nil => simp at h
    | cons x ds =>
      simp only [List.map_cons, List.cons.injEq] at h
      have hc : hexDigit c = some x := h.1
      have hx : x < 16 := by
        have := hc
        unfold hexDigit at this
        split at this
        · rename_i hh
          have h1 := UInt8.le_iff_toNat_le.1 hh.1
          have h2 := UInt8.le_iff_toNat_le.1 hh.2
          simp at h1 h2 this
          omega
        · split at this
          · rename_i hh
            have h1 := UInt8.le_iff_toNat_le.1 hh.1
            have h2 := UInt8.le_iff_toNat_le.1 hh.2
            simp at h1 h2 this
            omega
          · split at this
            · rename_i hh
              have h1 := UInt8.le_iff_toNat_le.1 hh.1
              have h2 := UInt8.le_iff_toNat_le.1 hh.2
              simp at h1 h2 this
              omega
            · cases this
      unfold digitPrefix
      rw [hc]
      simp only [if_pos hx, List.foldl_cons]
      exact ih ds h.2 _

theorem hexNumber_address {s : Bytes} {n : Nat} (h : HexNumber s n) :
    baseAddress s = if n < 2 ^ 63 then .ok n else .err := by
  obtain ⟨d, ds, rfl, hd, hm, hn⟩ := h
  have hnz : ∀ c ∈ d, c ≠ 0 := by
    rintro c hc rfl
    have : digitValue 0 ∈ d.map digitValue := List.mem_map_of_mem hc
    rw [hm] at this
    obtain ⟨x, _, hx⟩ := List.mem_map.1 this
    have h0 : digitValue 0 = none := by decide
    rw [h0] at hx; cases hx
  have hc : cstr (0x30 :: 0x78 :: d) = 0x30 :: 0x78 :: d := by
    have : d.takeWhile (fun x => decide (x ≠ 0)) = d := by
      clear hm hd
      induction d with
      | nil => rfl
      | cons c d ih =>
        have hc0 := hnz c (by simp)
        simp only [List.takeWhile_cons, decide_eq_true hc0, if_true]
        rw [ih (fun c hc => hnz c (by simp [hc]))]
    unfold cstr
    simp only [List.takeWhile_cons, this]
    rfl
  have hs : stripLeading (0x30 :: 0x78 :: d) = 0x30 :: 0x78 :: d := by
    unfold stripLeading
    rw [List.dropWhile_cons_of_neg (by decide)]
  have hmag : magnitude (0x30 :: 0x78 :: d) = n := by
    cases d with
    | nil => exact absurd rfl hd
    | cons c r =>
      cases ds with
      | nil => simp at hm
      | cons x ds =>
        have hc' : hexDigit c = some x := by
          simp only [List.map_cons, List.cons.injEq] at hm; exact hm.1
        unfold magnitude
        simp only [hc', Option.isSome_some, and_true, true_or, if_true]
        rw [digitPrefix_hex _ _ hm]; exact hn
  have hst : strtol0 (0x30 :: 0x78 :: d) = if n < 2 ^ 63 then some (n : Int) else none := by
    unfold strtol0
    rw [hc, hs, show signSplit (0x30 :: 0x78 :: d) = (false, 0x30 :: 0x78 :: d) from rfl]
    dsimp only
    rw [hmag, if_neg (by simp)]
    by_cases hlt : n < 2 ^ 63
    · rw [if_neg (by omega), if_pos hlt]
    · rw [if_pos (by omega), if_neg hlt]
  unfold baseAddress
  rw [hst]
  by_cases hlt : n < 2 ^ 63
  · rw [if_pos hlt, if_pos hlt]
    dsimp only
    congr 1
    omega
  · rw [if_neg hlt, if_neg hlt]

theorem hexText_address {s : Bytes} {n : Nat} (h : HexText s n) : baseAddress s = .ok n := by
  rw [hexNumber_address h.1, if_pos h.2]

end Verif.Db
