import Verif.Spec.DbJson
import Verif.Proofs.DbText
/-! # JSON database parsers: proofs -/
namespace Verif.Db
open Verif.Text Verif.Spec

/-! ## Members -/

theorem getMember_iff {α : Type} (f : Json → Outcome α) (j : Json) (name : Bytes) (a : α) :
    getMember f j name = .ok a ↔ ∃ v, Member j name v ∧ f v = .ok a := by
  unfold getMember Member findMember
  cases j with
  | obj ms =>
    dsimp only
    cases h : List.lookup name ms with
    | none =>
      constructor
      · intro h; cases h
      · rintro ⟨v, ⟨ms', e, h'⟩, _⟩; cases e; rw [h] at h'; cases h'
    | some v =>
      constructor
      · intro h'; exact ⟨v, ⟨ms, rfl, h⟩, h'⟩
      · rintro ⟨v', ⟨ms', e, h'⟩, hf⟩; cases e; rw [h] at h'; cases h'; exact hf
  | _ =>
    constructor
    · intro h; cases h
    · rintro ⟨v, ⟨ms, e, _⟩, _⟩; cases e

theorem optGetMember_iff {α : Type} (f : Json → Outcome α) (j : Json) (name : Bytes) (o : Option α) :
    optGetMember f j name = .ok o ↔
      (NoMember j name ∧ o = none) ∨ ∃ v a, Member j name v ∧ o = some a ∧ f v = .ok a := by
  unfold optGetMember Member NoMember findMember
  cases j with
  | obj ms =>
    dsimp only
    cases h : List.lookup name ms with
    | none =>
      constructor
      · intro h'; cases h'; exact Or.inl ⟨⟨ms, rfl, h⟩, rfl⟩
      · rintro (⟨_, rfl⟩ | ⟨v, a, ⟨ms', e, h'⟩, _⟩)
        · rfl
        · cases e; rw [h] at h'; cases h'
    | some v =>
      constructor
      · intro h'
        obtain ⟨a, ha, h'⟩ := Outcome.bind_eq_ok.1 h'
        cases h'
        exact Or.inr ⟨v, a, ⟨ms, rfl, h⟩, rfl, ha⟩
      · rintro (⟨⟨ms', e, h'⟩, rfl⟩ | ⟨v', a, ⟨ms', e, h'⟩, rfl, hf⟩)
        · cases e; rw [h] at h'; cases h'
        · cases e; rw [h] at h'; cases h'
          dsimp only
          rw [hf]; rfl
  | _ =>
    constructor
    · intro h; cases h
    · rintro (⟨⟨ms, e, _⟩, _⟩ | ⟨v, a, ⟨ms, e, _⟩, _⟩) <;> cases e

theorem asU32_iff (j : Json) (n : Nat) : asU32 j = .ok n ↔ U32Json j n := by
  unfold asU32 U32Json
  cases j with
  | int i =>
    dsimp only
    constructor
    · intro h
      split at h
      · rename_i hi; cases h
        refine ⟨?_, ?_⟩
        · congr 1; omega
        · omega
      · cases h
    · rintro ⟨e, h⟩
      cases e
      rw [if_pos (by omega)]
      rfl
  | _ =>
    constructor
    · intro h; cases h
    · rintro ⟨e, _⟩; cases e

theorem asI32_iff (j : Json) (i : Int) : asI32 j = .ok i ↔ I32Json j i := by
  unfold asI32 I32Json
  cases j with
  | int i =>
    dsimp only
    constructor
    · intro h
      split at h
      · rename_i hi; cases h; exact ⟨rfl, hi⟩
      · cases h
    · rintro ⟨e, h⟩; cases e; rw [if_pos h]
  | _ =>
    constructor
    · intro h; cases h
    · rintro ⟨e, _⟩; cases e

theorem asString_iff (j : Json) (s : Bytes) : asString j = .ok s ↔ j = .str s := by
  unfold asString
  cases j with
  | str t => constructor
             · intro h; cases h; rfl
             · intro h; cases h; rfl
  | _ => constructor <;> intro h <;> cases h

/-! ## Maps -/

theorem firsts_filter {κ ν : Type} [BEq κ] [LawfulBEq κ] (p : κ → Bool) (es : List (κ × ν)) :
    firsts (es.filter fun x => p x.1) = (firsts es).filter fun x => p x.1 := by
  induction es with
  | nil => rfl
  | cons e es ih =>
    simp only [List.filter_cons, firsts]
    cases he : p e.1 with
    | true =>
      simp only [if_true, firsts, ih]
      rw [List.filter_filter, List.filter_filter]
      congr 2
      funext x
      rw [Bool.and_comm]
    | false =>
      simp only [Bool.false_eq_true, if_false, ih, List.filter_filter]
      congr 1
      funext x
      cases hx : x.1 == e.1 with
      | true => rw [eq_of_beq hx, he]; rfl
      | false => simp

theorem insertAll_firsts {κ ν : Type} [BEq κ] [LawfulBEq κ] (es m : List (κ × ν)) :
    insertAll m es = m ++ (firsts es).filter fun x => !(m.lookup x.1).isSome := by
  induction es generalizing m with
  | nil => simp [insertAll, firsts]
  | cons e es ih =>
    show insertAll (insertNew m e.1 e.2) es = _
    rw [ih, firsts, List.filter_cons]
    cases he : (m.lookup e.1).isSome with
    | true =>
      rw [show insertNew m e.1 e.2 = m by unfold insertNew; rw [if_pos he]]
      simp only [Bool.not_true, Bool.false_eq_true, if_false, List.filter_filter]
      congr 2
      funext x
      cases hx : x.1 == e.1 with
      | true => rw [eq_of_beq hx, he]; rfl
      | false => simp
    | false =>
      rw [show insertNew m e.1 e.2 = m ++ [e] by unfold insertNew; rw [if_neg (by simp [he])]]
      simp only [Bool.not_false, if_true, List.append_assoc, List.singleton_append, List.filter_filter]
      congr 3
      funext x
      have := lookup_append_single m e.1 e.2 x.1
      rw [show (m ++ [e]).lookup x.1 = _ from this]
      cases m.lookup x.1 <;> cases x.1 == e.1 <;> rfl

theorem insertAll_nil_firsts {κ ν : Type} [BEq κ] [LawfulBEq κ] (es : List (κ × ν)) : insertAll [] es = firsts es := by
  rw [insertAll_firsts]
  simp

theorem foldInsert_iff {α κ ν : Type} [BEq κ] (f : α → Outcome (κ × ν)) (ms : List α) (m r : List (κ × ν)) :
    ms.foldlM (fun m e => f e >>= fun kv => pure (insertNew m kv.1 kv.2)) m = .ok r ↔
      ∃ es : List (α × (κ × ν)), ms = es.map (·.1) ∧ (∀ e ∈ es, f e.1 = .ok e.2) ∧ r = insertAll m (es.map (·.2)) := by
  induction ms generalizing m with
  | nil =>
    constructor
    · intro h; cases h; exact ⟨[], rfl, by simp, rfl⟩
    · rintro ⟨es, h1, _, rfl⟩
      cases es with
      | nil => rfl
      | cons => simp at h1
  | cons a ms ih =>
    rw [List.foldlM_cons]
    constructor
    · intro h
      obtain ⟨m1, h1, h2⟩ := Outcome.bind_eq_ok.1 h
      obtain ⟨kv, hkv, h1⟩ := Outcome.bind_eq_ok.1 h1
      cases h1
      obtain ⟨es, e1, e2, e3⟩ := (ih _).1 h2
      refine ⟨(a, kv) :: es, by simp [e1], ?_, by rw [e3]; rfl⟩
      intro e he
      rcases List.mem_cons.1 he with rfl | he
      · exact hkv
      · exact e2 e he
    · rintro ⟨es, h1, h2, rfl⟩
      cases es with
      | nil => simp at h1
      | cons e es =>
        simp only [List.map_cons, List.cons.injEq] at h1
        rw [h1.1, h2 e (by simp)]
        simp only [Outcome.bind_ok, Outcome.pure_eq]
        exact (ih _).2 ⟨es, h1.2, fun x hx => h2 x (by simp [hx]), rfl⟩

theorem asStringMap_iff (j : Json) (m : List (Bytes × Bytes)) : asStringMap j = .ok m ↔ StringMapJson j m := by
  unfold StringMapJson
  cases j with
  | obj ms =>
    unfold asStringMap
    have e : (fun (m : List (Bytes × Bytes)) (e : Bytes × Json) => (do
        let v ← asString e.2
        pure (insertNew m e.1 v) : Outcome _)) =
      (fun m e => (do let v ← asString e.2; pure (e.1, v) : Outcome (Bytes × Bytes)) >>= fun kv => pure (insertNew m kv.1 kv.2)) := by
      funext m e
      cases asString e.2 <;> rfl
    rw [e, foldInsert_iff]
    constructor
    · rintro ⟨es, rfl, h2, rfl⟩
      refine ⟨es.map (·.2), ?_, insertAll_nil_firsts _⟩
      congr 1
      rw [List.map_map]
      apply List.map_congr_left
      intro x hx
      obtain ⟨v, hv, h⟩ := Outcome.bind_eq_ok.1 (h2 x hx)
      have hv' := (asString_iff _ _).1 hv
      have h' : (x.1.1, v) = x.2 := Outcome.ok.inj h
      simp only [Function.comp_apply, ← h', ← hv']
    · rintro ⟨es, h1, rfl⟩
      cases h1
      refine ⟨es.map fun e => ((e.1, .str e.2), e), by simp [List.map_map], ?_, ?_⟩
      · intro x hx
        obtain ⟨e, _, rfl⟩ := List.mem_map.1 hx
        rfl
      · rw [List.map_map, show ((fun x : (Bytes × Json) × Bytes × Bytes => x.2) ∘ fun e : Bytes × Bytes => ((e.1, Json.str e.2), e)) = id from rfl,
          List.map_id, insertAll_nil_firsts]
  | _ =>
    constructor
    · intro h; cases h
    · rintro ⟨es, e, _⟩; cases e

theorem asStrings_iff (j : Json) (l : List Bytes) : asStrings j = .ok l ↔ StringsJson j l := by
  unfold StringsJson
  cases j with
  | arr items =>
    unfold asStrings
    rw [mapM_ok_iff]
    constructor
    · rintro ⟨ps, rfl, rfl, h⟩
      have hs : ∀ p ∈ ps, ∃ s, p.1 = .str s ∧ p.2 = untilNul s := by
        intro p hp
        have := h p hp
        cases hp1 : p.1 with
        | str s => rw [hp1] at this; exact ⟨s, rfl, (Outcome.ok.inj this).symm⟩
        | _ => rw [hp1] at this; cases this
      clear h
      induction ps with
      | nil => exact ⟨[], rfl, rfl⟩
      | cons p ps ih =>
        obtain ⟨s, h1, h2⟩ := hs p (by simp)
        obtain ⟨ss, e1, e2⟩ := ih (fun p hp => hs p (by simp [hp]))
        refine ⟨s :: ss, ?_, by simp [h2, e2]⟩
        simp only [Json.arr.injEq] at e1 ⊢
        simp [h1, e1]
    · rintro ⟨ss, e, rfl⟩
      cases e
      refine ⟨ss.map fun s => (.str s, untilNul s), by simp [List.map_map], by simp [List.map_map], ?_⟩
      intro p hp
      obtain ⟨s, _, rfl⟩ := List.mem_map.1 hp
      rfl
  | _ =>
    constructor
    · intro h; cases h
    · rintro ⟨es, e, _⟩; cases e

theorem busType_iff (s : Bytes) (t : ConfigBusType) : busType s = some t ↔ s = busName t := by
  unfold busType
  constructor
  · intro h
    split at h
    · rename_i e; cases h; exact e
    · split at h
      · rename_i e; cases h; exact e
      · split at h
        · rename_i e; cases h; exact e
        · cases h
  · rintro rfl
    cases t <;> decide

/-- The loop shared by `Bits` and `ClockRegionRow`. -/
theorem busMap_iff {α : Type} (f : Json → Outcome α) (item : Json → α → Prop) (hf : ∀ j a, f j = .ok a ↔ item j a)
    (ms : List (Bytes × Json)) (m : List (ConfigBusType × α)) :
    ms.foldlM (fun (m : List (ConfigBusType × α)) e => match busType (cstr e.1) with
      | none => Outcome.err
      | some t => do
        let b ← f e.2
        pure (insertNew m t b)) [] = Outcome.ok m ↔ BusMapJson item (.obj ms) m := by
  have e : (fun (m : List (ConfigBusType × α)) (e : Bytes × Json) => (match busType (cstr e.1) with
      | none => .err
      | some t => do
        let b ← f e.2
        pure (insertNew m t b) : Outcome _)) =
      (fun m e => (match busType (cstr e.1) with
        | none => .err
        | some t => do let b ← f e.2; pure (t, b) : Outcome (ConfigBusType × α)) >>= fun kv => pure (insertNew m kv.1 kv.2)) := by
    funext m e
    cases busType (cstr e.1) with
    | none => rfl
    | some t => dsimp only; cases f e.2 <;> rfl
  rw [e, foldInsert_iff]
  unfold BusMapJson
  have hone : ∀ (x : Bytes × Json) (y : ConfigBusType × α), (match busType (cstr x.1) with
        | none => .err
        | some t => do let b ← f x.2; pure (t, b) : Outcome (ConfigBusType × α)) = .ok y ↔
      untilNul x.1 = busName y.1 ∧ item x.2 y.2 := by
    intro x y
    rw [← busType_iff, ← hf]
    show _ ↔ busType (cstr x.1) = _ ∧ _
    cases busType (cstr x.1) with
    | none => simp
    | some t =>
      dsimp only
      constructor
      · intro h
        obtain ⟨b, hb, h⟩ := Outcome.bind_eq_ok.1 h
        cases h; exact ⟨rfl, hb⟩
      · rintro ⟨h1, h2⟩
        cases h1
        rw [h2]; rfl
  constructor
  · rintro ⟨es, rfl, h2, rfl⟩
    exact ⟨es, rfl, insertAll_nil_firsts _, fun e he => (hone _ _).1 (h2 e he)⟩
  · rintro ⟨es, h1, rfl, h2⟩
    cases h1
    exact ⟨es, rfl, fun e he => (hone _ _).2 (h2 e he), (insertAll_nil_firsts _).symm⟩

/-! ## Sequences -/

theorem nextKey_iff (prev : Int) (hprev : -1 ≤ prev) (name : Bytes) (key : Int) :
    nextKey prev name = .ok key ↔ IntText (untilNul name) key ∧ key = prev + 1 := by
  unfold nextKey
  rw [← atoiI32_iff]
  show _ ↔ atoiI32 (cstr name) = _ ∧ _
  cases h : atoiI32 (cstr name) with
  | none => simp
  | some k =>
    dsimp only
    constructor
    · intro h
      split at h
      · cases h
      · split at h
        · cases h; exact ⟨rfl, by omega⟩
        · cases h
    · rintro ⟨e, hk⟩
      cases e
      rw [if_neg (by omega), if_pos (by omega)]

theorem foldSeq_iff {α : Type} (f : Json → Outcome α) (item : Json → α → Prop) (hf : ∀ j a, f j = .ok a ↔ item j a)
    (ms : List (Bytes × Json)) (k0 : Int) (hk : -1 ≤ k0) (acc r : List α) :
    (∃ k, ms.foldlM (fun (s : Int × List α) e => do
      let key ← nextKey s.1 e.1
      let n ← f e.2
      pure (key, s.2 ++ [n])) (k0, acc) = .ok (k, r)) ↔
    ∃ es : List ((Bytes × Json) × α), ms = es.map (·.1) ∧ r = acc ++ es.map (·.2) ∧
      ∀ (i : Nat) e, es[i]? = some e → IntText (untilNul e.1.1) (k0 + 1 + i) ∧ item e.1.2 e.2 := by
  induction ms generalizing k0 acc with
  | nil =>
    constructor
    · rintro ⟨k, h⟩
      cases h
      exact ⟨[], rfl, by simp, by simp⟩
    · rintro ⟨es, h1, rfl, _⟩
      cases es with
      | nil => exact ⟨k0, by simp⟩
      | cons => simp at h1
  | cons a ms ih =>
    simp only [List.foldlM_cons]
    constructor
    · rintro ⟨k, h⟩
      obtain ⟨s, h1, h2⟩ := Outcome.bind_eq_ok.1 h
      obtain ⟨key, hkey, h1⟩ := Outcome.bind_eq_ok.1 h1
      obtain ⟨n, hn, h1⟩ := Outcome.bind_eq_ok.1 h1
      cases h1
      obtain ⟨ht, rfl⟩ := (nextKey_iff k0 hk _ _).1 hkey
      obtain ⟨es, e1, e2, e3⟩ := (ih (k0 + 1) (by omega) (acc ++ [n])).1 ⟨k, h2⟩
      refine ⟨(a, n) :: es, by simp [e1], by simp [e2], ?_⟩
      intro i e he
      cases i with
      | zero =>
        simp only [List.getElem?_cons_zero, Option.some.injEq] at he
        subst he
        exact ⟨by simpa using ht, (hf _ _).1 hn⟩
      | succ i =>
        rw [List.getElem?_cons_succ] at he
        have := e3 i e he
        refine ⟨?_, this.2⟩
        rw [show k0 + 1 + ((i + 1 : Nat) : Int) = k0 + 1 + 1 + (i : Int) by omega]
        exact this.1
    · rintro ⟨es, h1, rfl, h3⟩
      cases es with
      | nil => simp at h1
      | cons e es =>
        simp only [List.map_cons, List.cons.injEq] at h1
        obtain ⟨rfl, rfl⟩ := h1
        have h0 := h3 0 e rfl
        rw [(nextKey_iff k0 hk _ (k0 + 1)).2 ⟨by simpa using h0.1, rfl⟩, (hf _ _).2 h0.2]
        simp only [Outcome.bind_ok, Outcome.pure_eq]
        refine (ih (k0 + 1) (by omega) _).2 ⟨es, rfl, by simp, ?_⟩
        intro i x hx
        have := h3 (i + 1) x (by rw [List.getElem?_cons_succ]; exact hx)
        refine ⟨?_, this.2⟩
        rw [show k0 + 1 + 1 + (i : Int) = k0 + 1 + ((i + 1 : Nat) : Int) by omega]
        exact this.1

theorem sequence_iff {α : Type} (f : Json → Outcome α) (item : Json → α → Prop) (hf : ∀ j a, f j = .ok a ↔ item j a)
    (ms : List (Bytes × Json)) (l : List α) :
    (do
      let s ← ms.foldlM (fun (s : Int × List α) e => do
        let key ← nextKey s.1 e.1
        let n ← f e.2
        pure (key, s.2 ++ [n])) (-1, [])
      pure s.2) = Outcome.ok l ↔ SequenceJson item (.obj ms) l := by
  have h := foldSeq_iff f item hf ms (-1) (by omega) [] l
  constructor
  · intro h1
    obtain ⟨s, hs, h1⟩ := Outcome.bind_eq_ok.1 h1
    cases h1
    obtain ⟨es, e1, e2, e3⟩ := h.1 ⟨s.1, hs⟩
    refine ⟨es, by rw [e1], by simpa using e2, ?_⟩
    intro i e he
    have := e3 i e he
    simpa using this
  · rintro ⟨es, e1, e2, e3⟩
    cases e1
    obtain ⟨k, hk⟩ := h.2 ⟨es, rfl, by simpa using e2, by intro i e he; simpa using e3 i e he⟩
    rw [hk]; rfl

/-! ## Parts -/

theorem column_iff (j : Json) (n : Nat) : getMember asU32 j kFrameCount = .ok n ↔ ColumnJson j n := by
  rw [getMember_iff]
  unfold ColumnJson
  simp only [asU32_iff]
  rfl

theorem asColumns_iff (j : Json) (l : List Nat) : asColumns j = .ok l ↔ SequenceJson ColumnJson j l := by
  cases j with
  | obj ms => exact sequence_iff _ _ column_iff ms l
  | _ =>
    constructor
    · intro h; cases h
    · rintro ⟨es, e, _⟩; cases e

theorem bus_iff (j : Json) (l : List Nat) : getMember asColumns j kConfigurationColumns = .ok l ↔ BusJson j l := by
  rw [getMember_iff]
  unfold BusJson
  simp only [asColumns_iff]
  rfl

theorem asRow_iff (j : Json) (r : ClockRegionRow) : asRow j = .ok r ↔ BusMapJson BusJson j r := by
  cases j with
  | obj ms => exact busMap_iff _ _ bus_iff ms r
  | _ =>
    constructor
    · intro h; cases h
    · rintro ⟨es, e, _⟩; cases e

theorem row_iff (j : Json) (r : ClockRegionRow) : getMember asRow j kConfigurationBuses = .ok r ↔ RowJson j r := by
  rw [getMember_iff]
  unfold RowJson
  simp only [asRow_iff]
  rfl

theorem asHalf_iff (j : Json) (h : ClockRegionHalf) : asHalf j = .ok h ↔ SequenceJson RowJson j h := by
  cases j with
  | obj ms => exact sequence_iff _ _ row_iff ms h
  | _ =>
    constructor
    · intro h; cases h
    · rintro ⟨es, e, _⟩; cases e

theorem pointer2_iff (a b : Bytes) (j v : Json) :
    pointer2 a b j = some v ↔ ∃ x, Member j a x ∧ Member x b v := by
  unfold pointer2 Member findMember
  cases j with
  | obj ms =>
    dsimp only
    constructor
    · intro h
      split at h
      · rename_i ms' hm; exact ⟨.obj ms', ⟨ms, rfl, hm⟩, ms', rfl, h⟩
      · cases h
    · rintro ⟨x, ⟨ms', e, h1⟩, ms'', rfl, h2⟩
      cases e
      rw [h1]
      exact h2
  | _ =>
    constructor
    · intro h; cases h
    · rintro ⟨x, ⟨ms', e, h1⟩, _⟩; cases e

theorem asRegions_iff (j : Json) (r : ClockRegionHalf × ClockRegionHalf) :
    asRegions j = .ok r ↔ RegionsJson j r.1 r.2 := by
  unfold asRegions RegionsJson
  have half : ∀ name h, (∃ v, Member j name v ∧ HalfJson v h) ↔ ∃ v, pointer2 name kRows j = some v ∧ asHalf v = .ok h := by
    intro name h
    simp only [pointer2_iff, asHalf_iff]
    unfold HalfJson
    constructor
    · rintro ⟨x, hx, v, hv, hs⟩; exact ⟨v, ⟨x, hx, hv⟩, hs⟩
    · rintro ⟨v, ⟨x, hx, hv⟩, hs⟩; exact ⟨x, hx, v, hv, hs⟩
  have hb := half kBottom r.1
  have ht := half kTop r.2
  unfold kBottom at hb
  unfold kTop at ht
  rw [hb, ht]
  show (match pointer2 bytes!"bottom" kRows j with
    | none => .err
    | some b => do
      let bottom ← asHalf b
      match pointer2 bytes!"top" kRows j with
      | none => .err
      | some t => do
        let top ← asHalf t
        pure (bottom, top)) = Outcome.ok r ↔ _
  cases pointer2 bytes!"bottom" kRows j with
  | none => simp
  | some b =>
    dsimp only
    cases pointer2 bytes!"top" kRows j with
    | none => cases asHalf b <;> simp
    | some t =>
      dsimp only
      constructor
      · intro h
        obtain ⟨x, hx, h⟩ := Outcome.bind_eq_ok.1 h
        obtain ⟨y, hy, h⟩ := Outcome.bind_eq_ok.1 h
        cases h
        exact ⟨⟨b, rfl, hx⟩, t, rfl, hy⟩
      · rintro ⟨⟨b', e1, h1⟩, t', e2, h2⟩
        cases e1; cases e2
        rw [h1, h2]; rfl

theorem asBanks_iff (j : Json) (m : List (Nat × Bytes)) : asBanks j = .ok m ↔ BanksJson j m := by
  unfold BanksJson
  cases j with
  | obj ms =>
    have e : asBanks (.obj ms) = ms.foldlM (fun m e => (match atoiU32 (cstr e.1) with
        | none => .err
        | some k => do let s ← rawString e.2; pure (k, s) : Outcome (Nat × Bytes)) >>=
          fun kv => pure (insertNew m kv.1 kv.2)) [] := by
      unfold asBanks
      dsimp only
      congr 1
      funext m e
      cases atoiU32 (cstr e.1) with
      | none => rfl
      | some t => dsimp only; cases rawString e.2 <;> rfl
    rw [e, foldInsert_iff]
    have hone : ∀ (x : Bytes × Json) (y : Nat × Bytes), (match atoiU32 (cstr x.1) with
        | none => .err
        | some k => do let s ← rawString x.2; pure (k, s) : Outcome (Nat × Bytes)) = .ok y ↔
        ∃ s, x.2 = .str s ∧ UIntText (untilNul x.1) y.1 ∧ y.2 = untilNul s := by
      intro x y
      rw [← atoiU32_iff]
      show _ ↔ ∃ s, _ ∧ atoiU32 (cstr x.1) = _ ∧ _
      cases atoiU32 (cstr x.1) with
      | none => simp
      | some k =>
        dsimp only
        cases hx : x.2 with
        | str s =>
          simp only [rawString, Outcome.bind_ok, Outcome.pure_eq, Outcome.ok.injEq]
          constructor
          · rintro rfl; exact ⟨s, rfl, rfl, rfl⟩
          · rintro ⟨s', e, h1, h2⟩
            cases e
            obtain ⟨y1, y2⟩ := y
            cases h1
            simp only at h2
            rw [h2]; rfl
        | _ => simp [rawString]
    constructor
    · rintro ⟨es, rfl, h2, rfl⟩
      have : ∃ es' : List ((Bytes × Bytes) × Nat), es.map (·.1) = es'.map (fun e => (e.1.1, Json.str e.1.2)) ∧
          (∀ e ∈ es', UIntText (untilNul e.1.1) e.2) ∧ es.map (·.2) = es'.map fun e => (e.2, untilNul e.1.2) := by
        clear e
        induction es with
        | nil => exact ⟨[], rfl, by simp, rfl⟩
        | cons e es ih =>
          obtain ⟨es', a1, a2, a3⟩ := ih (fun e he => h2 e (by simp [he]))
          obtain ⟨s, b1, b2, b3⟩ := (hone _ _).1 (h2 e (by simp))
          refine ⟨((e.1.1, s), e.2.1) :: es', ?_, ?_, ?_⟩
          · simp only [List.map_cons, a1, ← b1]
          · intro x hx
            rcases List.mem_cons.1 hx with rfl | hx
            · exact b2
            · exact a2 x hx
          · simp only [List.map_cons, a3, ← b3]
      obtain ⟨es', a1, a2, a3⟩ := this
      exact ⟨es', by rw [a1], a2, by rw [insertAll_nil_firsts, a3]⟩
    · rintro ⟨es', e1, h2, rfl⟩
      cases e1
      refine ⟨es'.map fun e => ((e.1.1, .str e.1.2), (e.2, untilNul e.1.2)), by simp [List.map_map], ?_, ?_⟩
      · intro x hx
        obtain ⟨e, he, rfl⟩ := List.mem_map.1 hx
        exact (hone _ _).2 ⟨e.1.2, rfl, h2 e he, rfl⟩
      · rw [insertAll_nil_firsts]
        simp [List.map_map, Function.comp_def]
  | _ =>
    constructor
    · intro h; cases h
    · rintro ⟨es, e, _⟩; cases e

theorem parsePart_iff (j : Json) (p : Db.Part) : parsePart j = .ok p ↔ PartJson j p := by
  have hmain : ∀ ms, parsePart (.obj ms) = .ok p ↔ PartJson (.obj ms) p := by
    intro ms
    unfold parsePart PartJson
    have hid : ∀ n, getMember asU32 (.obj ms) kIdcode = .ok n ↔
        ∃ v, Member (.obj ms) bytes!"idcode" v ∧ U32Json v n := by
      intro n; rw [getMember_iff]; simp only [asU32_iff]; rfl
    have hio : ∀ o, optGetMember asBanks (.obj ms) kIobanks = .ok o ↔
        (NoMember (.obj ms) bytes!"iobanks" ∧ o = none) ∨
        ∃ v a, Member (.obj ms) bytes!"iobanks" v ∧ o = some a ∧ BanksJson v a := by
      intro o; rw [optGetMember_iff]; simp only [asBanks_iff]; rfl
    have hre : ∀ r, getMember asRegions (.obj ms) kGlobalClockRegions = .ok r ↔
        ∃ v, Member (.obj ms) bytes!"global_clock_regions" v ∧ RegionsJson v r.1 r.2 := by
      intro r; rw [getMember_iff]; simp only [asRegions_iff]; rfl
    constructor
    · intro h
      obtain ⟨n, hn, h⟩ := Outcome.bind_eq_ok.1 h
      obtain ⟨o, ho, h⟩ := Outcome.bind_eq_ok.1 h
      obtain ⟨r, hr, h⟩ := Outcome.bind_eq_ok.1 h
      cases h
      rw [hid] at hn
      rw [hio] at ho
      rw [hre] at hr
      refine ⟨?_, ?_, hr⟩
      · obtain ⟨v, hv, hu⟩ := hn
        refine ⟨v, hv, ?_⟩
        have hlt := hu.2
        simp only [BitVec.toNat_ofNat]
        rw [Nat.mod_eq_of_lt hlt]
        exact hu
      · rcases ho with ⟨h1, rfl⟩ | ⟨v, a, h1, rfl, h2⟩
        · exact Or.inl ⟨h1, rfl⟩
        · exact Or.inr ⟨v, h1, h2⟩
    · rintro ⟨h1, h2, h3⟩
      dsimp only
      rw [(hid p.idcode.toNat).2 h1, (hre (p.bottomRows, p.topRows)).2 h3]
      rcases h2 with ⟨h2, h4⟩ | ⟨v, h2, h4⟩
      · rw [(hio none).2 (Or.inl ⟨h2, rfl⟩)]
        simp only [Outcome.bind_ok, Outcome.pure_eq, Option.getD_none, BitVec.ofNat_toNat, BitVec.setWidth_eq]
        rw [← h4]
      · rw [(hio (some p.iobanks)).2 (Or.inr ⟨v, _, h2, rfl, h4⟩)]
        simp only [Outcome.bind_ok, Outcome.pure_eq, Option.getD_some, BitVec.ofNat_toNat, BitVec.setWidth_eq]
  cases j with
  | obj ms => exact hmain ms
  | _ =>
    constructor
    · intro h; cases h
    · rintro ⟨⟨v, ⟨ms, e, _⟩, _⟩, _⟩; cases e

end Verif.Db
