import Verif.Model.JsonText
import Verif.Spec.JsonText
/-! # JSON texts: the parser and the grammar -/
namespace Verif.Db.JsonText
open Verif.Db Verif.Spec.JsonGrammar

theorem isWs_iff (c : UInt8) : isWs c = true ↔ c = 0x20 ∨ c = 0x09 ∨ c = 0x0a ∨ c = 0x0d := by
  unfold isWs
  simp only [Bool.or_eq_true, decide_eq_true_eq]
  constructor
  · rintro (((h | h) | h) | h) <;> simp [h]
  · rintro (h | h | h | h) <;> simp [h]

theorem skipWs_split (s : Bytes) : ∃ w, White w ∧ s = w ++ skipWs s := by
  refine ⟨s.takeWhile isWs, ?_, (List.takeWhile_append_dropWhile).symm⟩
  intro c hc
  exact (isWs_iff c).1 (List.all_eq_true.1 List.all_takeWhile c hc)

/-- White space, then something else. -/
theorem skipWs_white (w s : Bytes) (hw : White w) (hs : ∀ c, s.head? = some c → isWs c = false) : skipWs (w ++ s) = s := by
  unfold skipWs
  induction w with
  | nil =>
    rw [List.nil_append]
    cases s with
    | nil => rfl
    | cons c r => rw [List.dropWhile_cons, hs c rfl]; rfl
  | cons c w ih =>
    rw [List.cons_append, List.dropWhile_cons, (isWs_iff c).2 (hw c List.mem_cons_self)]
    exact ih fun d hd => hw d (List.mem_cons_of_mem _ hd)

theorem consume_iff (b : UInt8) (s r : Bytes) : consume b s = some r ↔ s = b :: r := by
  unfold consume
  cases s with
  | nil => simp
  | cons c t =>
    dsimp only
    by_cases h : c = b
    · rw [if_pos h, h]; simp
    · rw [if_neg h]
      simp only [reduceCtorEq, List.cons.injEq, false_iff, not_and]
      exact fun h' => absurd h' h

theorem consume_self (b : UInt8) (r : Bytes) : consume b (b :: r) = some r := (consume_iff b _ r).2 rfl

theorem word_iff (w : Bytes) (v v' : Json) (s r : Bytes) : word w v s = some (v', r) ↔ v' = v ∧ s = w ++ r := by
  unfold word
  rw [Option.map_eq_some_iff]
  have key : ∀ s r', w.foldlM (fun s b => consume b s) s = some r' ↔ s = w ++ r' := by
    induction w with
    | nil => intro s r'; simp [eq_comm]
    | cons b w ih =>
      intro s r'
      rw [List.foldlM_cons]
      constructor
      · intro h
        obtain ⟨s', h1, h2⟩ := Option.bind_eq_some_iff.1 h
        rw [(consume_iff _ _ _).1 h1, (ih _ _).1 h2]; rfl
      · intro h
        subst h
        refine Option.bind_eq_some_iff.2 ⟨w ++ r', consume_self _ _, (ih _ _).2 rfl⟩
  constructor
  · rintro ⟨r', h, he⟩
    obtain ⟨rfl, rfl⟩ := Prod.mk.inj he
    exact ⟨rfl, (key _ _).1 h⟩
  · rintro ⟨rfl, h⟩
    exact ⟨r, (key _ _).2 h, rfl⟩

theorem hexDigit_iff (c : UInt8) (n : Nat) : hexDigit c = some n ↔ Hex c n := by
  unfold hexDigit Hex
  by_cases h1 : 0x30 ≤ c.toNat ∧ c.toNat ≤ 0x39
  · rw [if_pos h1, Option.some.injEq]; omega
  rw [if_neg h1]
  by_cases h2 : 0x41 ≤ c.toNat ∧ c.toNat ≤ 0x46
  · rw [if_pos h2, Option.some.injEq]; omega
  rw [if_neg h2]
  by_cases h3 : 0x61 ≤ c.toNat ∧ c.toNat ≤ 0x66
  · rw [if_pos h3, Option.some.injEq]; omega
  rw [if_neg h3]
  simp only [reduceCtorEq, false_iff]
  omega

theorem Hex.lt {c : UInt8} {n : Nat} (h : Hex c n) : n < 16 := by unfold Hex at h; omega

theorem Hex4.lt {t : Bytes} {n : Nat} (h : Hex4 t n) : n < 65536 := by
  obtain ⟨_, _, _, _, _, _, _, _, _, h1, h2, h3, h4, rfl⟩ := h
  have := Hex.lt h1
  have := Hex.lt h2
  have := Hex.lt h3
  have := Hex.lt h4
  omega

theorem hex4_iff (s r : Bytes) (n : Nat) : hex4 s = some (n, r) ↔ ∃ h, s = h ++ r ∧ Hex4 h n := by
  constructor
  · intro h
    unfold hex4 at h
    split at h
    · rename_i a b c d r'
      obtain ⟨x, h1, h⟩ := Option.bind_eq_some_iff.1 h
      obtain ⟨y, h2, h⟩ := Option.bind_eq_some_iff.1 h
      obtain ⟨z, h3, h⟩ := Option.bind_eq_some_iff.1 h
      obtain ⟨u, h4, h⟩ := Option.bind_eq_some_iff.1 h
      obtain ⟨rfl, rfl⟩ := Prod.mk.inj (Option.some.inj h)
      refine ⟨[a, b, c, d], rfl, a, b, c, d, x, y, z, u, rfl, (hexDigit_iff _ _).1 h1, (hexDigit_iff _ _).1 h2, (hexDigit_iff _ _).1 h3,
        (hexDigit_iff _ _).1 h4, ?_⟩
      omega
    · cases h
  · rintro ⟨h, rfl, a, b, c, d, x, y, z, u, rfl, h1, h2, h3, h4, rfl⟩
    show hex4 (a :: b :: c :: d :: r) = _
    rw [show hex4 (a :: b :: c :: d :: r) = (hexDigit a >>= fun a => hexDigit b >>= fun b => hexDigit c >>= fun c => hexDigit d >>= fun d =>
      pure (((a * 16 + b) * 16 + c) * 16 + d, r)) from rfl]
    rw [(hexDigit_iff _ _).2 h1, (hexDigit_iff _ _).2 h2, (hexDigit_iff _ _).2 h3, (hexDigit_iff _ _).2 h4]
    show some (((x * 16 + y) * 16 + z) * 16 + u, r) = _
    congr 2
    omega

theorem map_toNat_inj {a b : Bytes} (h : a.map UInt8.toNat = b.map UInt8.toNat) : a = b :=
  List.map_inj_right (fun _ _ h => UInt8.toNat_inj.1 h) |>.1 h

theorem utf8_spec (cp : Nat) (h : cp < 0x110000) : Utf8 cp (utf8 cp) := by
  unfold Utf8 utf8
  by_cases h1 : cp ≤ 0x7f
  · rw [if_pos h1]
    refine Or.inl ⟨by omega, ?_⟩
    simp only [List.map_cons, List.map_nil, Nat.toUInt8, UInt8.toNat_ofNat']
    congr 1; omega
  rw [if_neg h1]
  by_cases h2 : cp ≤ 0x7ff
  · rw [if_pos h2]
    refine Or.inr (Or.inl ⟨by omega, by omega, ?_⟩)
    simp only [List.map_cons, List.map_nil, Nat.toUInt8, UInt8.toNat_ofNat', List.cons.injEq, and_true]
    omega
  rw [if_neg h2]
  by_cases h3 : cp ≤ 0xffff
  · rw [if_pos h3]
    refine Or.inr (Or.inr (Or.inl ⟨by omega, by omega, ?_⟩))
    simp only [List.map_cons, List.map_nil, Nat.toUInt8, UInt8.toNat_ofNat', List.cons.injEq, and_true]
    omega
  · rw [if_neg h3]
    refine Or.inr (Or.inr (Or.inr ⟨by omega, by omega, ?_⟩))
    simp only [List.map_cons, List.map_nil, Nat.toUInt8, UInt8.toNat_ofNat', List.cons.injEq, and_true]
    omega

theorem utf8_unique {cp : Nat} {u u' : Bytes} (h : Utf8 cp u) (h' : Utf8 cp u') : u = u' := by
  unfold Utf8 at h h'
  apply map_toNat_inj
  rcases h with ⟨h1, h⟩ | ⟨h1, h2, h⟩ | ⟨h1, h2, h⟩ | ⟨h1, h2, h⟩ <;>
    rcases h' with ⟨h3, h'⟩ | ⟨h3, h4, h'⟩ | ⟨h3, h4, h'⟩ | ⟨h3, h4, h'⟩ <;>
    first | omega | rw [h, h']

theorem escape_iff (c b : UInt8) : escape c = some b ↔ (c, b) ∈ escapes := by
  have key : ∀ c : Fin 256, escape (UInt8.ofNat c.val) = (escapes.lookup (UInt8.ofNat c.val)) := by decide +kernel
  have h := key ⟨c.toNat, c.toNat_lt⟩
  rw [show UInt8.ofNat (⟨c.toNat, c.toNat_lt⟩ : Fin 256).val = c by simp] at h
  rw [h]
  unfold escapes
  simp only [List.lookup_cons, List.lookup_nil, List.mem_cons, List.not_mem_nil, or_false, Prod.mk.injEq]
  constructor
  · intro h
    repeat' split at h
    all_goals first | cases h | skip
    all_goals simp_all
  · rintro (⟨rfl, rfl⟩ | ⟨rfl, rfl⟩ | ⟨rfl, rfl⟩ | ⟨rfl, rfl⟩ | ⟨rfl, rfl⟩ | ⟨rfl, rfl⟩ | ⟨rfl, rfl⟩ | ⟨rfl, rfl⟩) <;> rfl

/-- What follows `\u`. -/
theorem codePoint_iff (s r : Bytes) (cp : Nat) : codePoint s = some (cp, r) ↔
    (∃ h, s = h ++ r ∧ Hex4 h cp ∧ (cp < 0xd800 ∨ 0xdfff < cp)) ∨
    ∃ h l hi lo, s = h ++ 0x5c :: 0x75 :: (l ++ r) ∧ Hex4 h hi ∧ Hex4 l lo ∧ (0xd800 ≤ hi ∧ hi < 0xdc00) ∧ (0xdc00 ≤ lo ∧ lo < 0xe000) ∧
      cp = 0x10000 + (hi - 0xd800) * 0x400 + (lo - 0xdc00) := by
  unfold codePoint
  constructor
  · intro h
    cases h1 : hex4 s with
    | none => rw [h1] at h; cases h
    | some p =>
      obtain ⟨n, r1⟩ := p
      rw [h1] at h
      dsimp only at h
      obtain ⟨t, rfl, ht⟩ := (hex4_iff _ _ _).1 h1
      by_cases h2 : 0xd800 ≤ n ∧ n ≤ 0xdfff
      · rw [if_pos h2] at h
        by_cases h3 : n ≤ 0xdbff
        · rw [if_pos h3] at h
          cases h4 : (consume 0x5c r1 >>= consume 0x75 >>= hex4) with
          | none => rw [h4] at h; cases h
          | some p =>
            obtain ⟨m, r2⟩ := p
            rw [h4] at h
            dsimp only at h
            obtain ⟨r3, h5, h6⟩ := Option.bind_eq_some_iff.1 h4
            obtain ⟨r4, h7, h8⟩ := Option.bind_eq_some_iff.1 h5
            obtain ⟨l, rfl, hl⟩ := (hex4_iff _ _ _).1 h6
            have h7 := (consume_iff _ _ _).1 h7
            have h8 := (consume_iff _ _ _).1 h8
            by_cases h9 : m < 0xdc00 ∨ m > 0xdfff
            · rw [if_pos h9] at h; cases h
            · rw [if_neg h9] at h
              obtain ⟨rfl, rfl⟩ := Prod.mk.inj (Option.some.inj h)
              refine Or.inr ⟨t, l, n, m, by rw [h7, h8], ht, hl, by omega, by omega, by omega⟩
        · rw [if_neg h3] at h; cases h
      · rw [if_neg h2] at h
        obtain ⟨rfl, rfl⟩ := Prod.mk.inj (Option.some.inj h)
        exact Or.inl ⟨t, rfl, ht, by omega⟩
  · rintro (⟨h, rfl, hh, hc⟩ | ⟨h, l, hi, lo, rfl, hh, hl, h1, h2, hcp⟩)
    · rw [(hex4_iff _ _ _).2 ⟨h, rfl, hh⟩]
      dsimp only
      rw [if_neg (by omega)]
    · rw [(hex4_iff _ _ _).2 ⟨h, rfl, hh⟩]
      dsimp only
      rw [if_pos (by omega), if_pos (by omega)]
      have h4 : (consume 0x5c (0x5c :: 0x75 :: (l ++ r)) >>= consume 0x75 >>= hex4) = some (lo, r) := by
        rw [consume_self]
        show (consume 0x75 (0x75 :: (l ++ r)) >>= hex4) = _
        rw [consume_self]
        exact (hex4_iff _ _ _).2 ⟨l, rfl, hl⟩
      rw [h4]
      dsimp only
      rw [if_neg (by omega)]
      congr 2
      rw [hcp]
      omega

theorem codePoint_lt {s r : Bytes} {cp : Nat} (h : codePoint s = some (cp, r)) : cp < 0x110000 := by
  rcases (codePoint_iff _ _ _).1 h with ⟨_, _, h, _⟩ | ⟨_, _, hi, lo, _, h1, h2, h3, h4, hcp⟩
  · have := Hex4.lt h; omega
  · omega

theorem stringBody_cons (fuel : Nat) (c : UInt8) (r : Bytes) : stringBody (fuel + 1) (c :: r) =
    if c = 0x5c then
      match r with
      | [] => none
      | e :: r' => match escape e with
        | some b => (stringBody fuel r').map fun p => (b :: p.1, p.2)
        | none =>
          if e = 0x75 then
            match codePoint r' with
            | none => none
            | some (cp, r'') => (stringBody fuel r'').map fun p => (utf8 cp ++ p.1, p.2)
          else none
    else if c = 0x22 then some ([], r)
    else if c.toNat < 0x20 then none
    else (stringBody fuel r).map fun p => (c :: p.1, p.2) := rfl

theorem stringBody_sound (fuel : Nat) : ∀ s v r, stringBody fuel s = some (v, r) → ∃ t, s = t ++ 0x22 :: r ∧ Chars t v := by
  induction fuel with
  | zero => intro s v r h; cases s <;> cases h
  | succ fuel ih =>
    intro s v r h
    cases s with
    | nil => cases h
    | cons c s =>
      rw [stringBody_cons] at h
      by_cases h1 : c = 0x5c
      · rw [if_pos h1] at h
        subst h1
        cases s with
        | nil => cases h
        | cons e s =>
          dsimp only at h
          cases h2 : escape e with
          | some b =>
            rw [h2] at h
            obtain ⟨p, h3, h4⟩ := Option.map_eq_some_iff.1 h
            obtain ⟨rfl, rfl⟩ := Prod.mk.inj h4
            obtain ⟨t, rfl, ht⟩ := ih _ _ _ h3
            exact ⟨0x5c :: e :: t, rfl, .esc e b ((escape_iff _ _).1 h2) ht⟩
          | none =>
            rw [h2] at h
            dsimp only at h
            by_cases h3 : e = 0x75
            · rw [if_pos h3] at h
              subst h3
              cases h4 : codePoint s with
              | none => rw [h4] at h; cases h
              | some q =>
                obtain ⟨cp, r'⟩ := q
                rw [h4] at h
                obtain ⟨p, h5, h6⟩ := Option.map_eq_some_iff.1 h
                obtain ⟨rfl, rfl⟩ := Prod.mk.inj h6
                obtain ⟨t, rfl, ht⟩ := ih _ _ _ h5
                have hu := utf8_spec cp (codePoint_lt h4)
                rcases (codePoint_iff _ _ _).1 h4 with ⟨hh, rfl, h7, h8⟩ | ⟨hh, l, hi, lo, rfl, h7, h8, h9, h10, hcp⟩
                · exact ⟨0x5c :: 0x75 :: (hh ++ t), by simp, .code hh cp _ h7 h8 hu ht⟩
                · exact ⟨0x5c :: 0x75 :: (hh ++ 0x5c :: 0x75 :: (l ++ t)), by simp, .pair hh l hi lo _ h7 h8 h9 h10 (hcp ▸ hu) ht⟩
            · rw [if_neg h3] at h; cases h
      · rw [if_neg h1] at h
        by_cases h2 : c = 0x22
        · rw [if_pos h2] at h
          obtain ⟨rfl, rfl⟩ := Prod.mk.inj (Option.some.inj h)
          exact ⟨[], by rw [h2]; rfl, .nil⟩
        · rw [if_neg h2] at h
          by_cases h3 : c.toNat < 0x20
          · rw [if_pos h3] at h; cases h
          · rw [if_neg h3] at h
            obtain ⟨p, h3', h4⟩ := Option.map_eq_some_iff.1 h
            obtain ⟨rfl, rfl⟩ := Prod.mk.inj h4
            obtain ⟨t, rfl, ht⟩ := ih _ _ _ h3'
            exact ⟨c :: t, rfl, .plain c (by omega) h2 h1 ht⟩

theorem stringBody_complete {t v : Bytes} (h : Chars t v) : ∀ fuel r, t.length < fuel → stringBody fuel (t ++ 0x22 :: r) = some (v, r) := by
  induction h with
  | nil =>
    intro fuel r hf
    obtain ⟨f, rfl⟩ : ∃ f, fuel = f + 1 := ⟨fuel - 1, by simp at hf; omega⟩
    rw [List.nil_append, stringBody_cons, if_neg (by decide), if_pos rfl]
  | plain c h1 h2 h3 _ ih =>
    intro fuel r hf
    obtain ⟨f, rfl⟩ : ∃ f, fuel = f + 1 := ⟨fuel - 1, by omega⟩
    rw [List.cons_append, stringBody_cons, if_neg h3, if_neg h2, if_neg (by omega), ih f r (by simp at hf; omega)]
    rfl
  | esc c b h1 _ ih =>
    intro fuel r hf
    obtain ⟨f, rfl⟩ : ∃ f, fuel = f + 1 := ⟨fuel - 1, by omega⟩
    rw [List.cons_append, stringBody_cons, if_pos rfl, List.cons_append]
    dsimp only
    rw [(escape_iff _ _).2 h1]
    dsimp only
    rw [ih f r (by simp at hf; omega)]
    rfl
  | @code h cp u t v h1 h2 h3 _ ih =>
    intro fuel r hf
    obtain ⟨f, rfl⟩ : ∃ f, fuel = f + 1 := ⟨fuel - 1, by omega⟩
    rw [List.cons_append, stringBody_cons, if_pos rfl, List.cons_append]
    dsimp only
    rw [show escape 0x75 = none from rfl]
    dsimp only
    rw [if_pos rfl, (codePoint_iff _ _ _).2 (Or.inl ⟨h, List.append_assoc _ _ _, h1, h2⟩)]
    dsimp only
    rw [ih f r (by simp at hf; omega), utf8_unique h3 (utf8_spec cp (by have := Hex4.lt h1; omega))]
    rfl
  | @pair h l hi lo u t v h1 h2 h3 h4 h5 _ ih =>
    intro fuel r hf
    obtain ⟨f, rfl⟩ : ∃ f, fuel = f + 1 := ⟨fuel - 1, by omega⟩
    rw [List.cons_append, stringBody_cons, if_pos rfl, List.cons_append]
    dsimp only
    rw [show escape 0x75 = none from rfl]
    dsimp only
    rw [if_pos rfl, (codePoint_iff _ (t ++ 0x22 :: r) _).2 (Or.inr ⟨h, l, hi, lo, by simp, h1, h2, h3, h4, rfl⟩)]
    dsimp only
    rw [ih f r (by simp at hf; omega), utf8_unique h5 (utf8_spec _ (by omega))]
    rfl

theorem string_sound {s v r : Bytes} (h : string s = some (v, r)) : ∃ t, s = t ++ r ∧ Str t v := by
  unfold string at h
  cases h1 : consume 0x22 s with
  | none => rw [h1] at h; cases h
  | some r1 =>
    rw [h1] at h
    obtain ⟨t, rfl, ht⟩ := stringBody_sound _ _ _ _ h
    rw [(consume_iff _ _ _).1 h1]
    exact ⟨0x22 :: (t ++ bytes!"\""), by simp, t, rfl, ht⟩

theorem string_complete {t v : Bytes} (h : Str t v) (r : Bytes) : string (t ++ r) = some (v, r) := by
  obtain ⟨body, rfl, hb⟩ := h
  unfold string
  rw [show (0x22 :: (body ++ bytes!"\"")) ++ r = 0x22 :: (body ++ 0x22 :: r) by simp, consume_self]
  dsimp only
  exact stringBody_complete hb _ r (by simp; omega)

theorem isDigit_iff (c : UInt8) : isDigit c = true ↔ Digit c := by
  unfold isDigit Digit
  rw [Bool.and_eq_true, decide_eq_true_eq, decide_eq_true_eq]

/-- What follows does not start with a digit. -/
def NoDigit (s : Bytes) : Prop := ∀ c, s.head? = some c → isDigit c = false

theorem digits1_sound {s ds r : Bytes} (h : digits1 s = some (ds, r)) : s = ds ++ r ∧ Digits ds := by
  unfold digits1 at h
  split at h
  · cases h
  · rename_i d ds' hd
    obtain ⟨rfl, rfl⟩ := Prod.mk.inj (Option.some.inj h)
    rw [← hd]
    refine ⟨(List.takeWhile_append_dropWhile).symm, by rw [hd]; simp, fun c hc => ?_⟩
    exact (isDigit_iff c).1 (List.all_eq_true.1 List.all_takeWhile c hc)

theorem digits1_complete {ds : Bytes} (h : Digits ds) (r : Bytes) (hr : NoDigit r) : digits1 (ds ++ r) = some (ds, r) := by
  have key : ∀ l : Bytes, (∀ c ∈ l, Digit c) → (l ++ r).takeWhile isDigit = l ∧ (l ++ r).dropWhile isDigit = r := by
    intro l hl
    induction l with
    | nil =>
      rw [List.nil_append]
      cases r with
      | nil => exact ⟨rfl, rfl⟩
      | cons c r => rw [List.takeWhile_cons, List.dropWhile_cons, hr c rfl]; exact ⟨rfl, rfl⟩
    | cons c l ih =>
      obtain ⟨h1, h2⟩ := ih fun d hd => hl d (List.mem_cons_of_mem _ hd)
      rw [List.cons_append, List.takeWhile_cons, List.dropWhile_cons, (isDigit_iff c).2 (hl c List.mem_cons_self)]
      rw [if_pos rfl, if_pos rfl, h1]
      exact ⟨rfl, h2⟩
  obtain ⟨h1, h2⟩ := key ds h.2
  unfold digits1
  rw [h1, h2]
  cases ds with
  | nil => exact absurd rfl h.1
  | cons d ds => rfl

theorem intPart_sound {s i r : Bytes} (h : intPart s = some (i, r)) : s = i ++ r ∧ IntText i := by
  unfold intPart at h
  cases s with
  | nil => cases h
  | cons c s =>
    dsimp only at h
    by_cases h1 : c = 0x30
    · rw [if_pos h1] at h
      obtain ⟨rfl, rfl⟩ := Prod.mk.inj (Option.some.inj h)
      subst h1
      exact ⟨rfl, ⟨by simp, by simp [Digit]⟩, fun _ => rfl⟩
    · rw [if_neg h1] at h
      obtain ⟨h2, h3⟩ := digits1_sound h
      refine ⟨h2, h3, fun h4 => ?_⟩
      cases i with
      | nil => cases h4
      | cons d i =>
        obtain ⟨rfl, _⟩ := List.cons.inj h2
        exact absurd (Option.some.inj h4) h1

theorem intPart_complete {i : Bytes} (h : IntText i) (r : Bytes) (hr : NoDigit r) : intPart (i ++ r) = some (i, r) := by
  obtain ⟨h1, h2⟩ := h
  cases i with
  | nil => exact absurd rfl h1.1
  | cons c i =>
    unfold intPart
    rw [List.cons_append]
    dsimp only
    by_cases h3 : c = 0x30
    · rw [if_pos h3]
      have := h2 (by rw [h3]; rfl)
      obtain ⟨rfl, rfl⟩ := List.cons.inj this
      rfl
    · rw [if_neg h3]
      exact digits1_complete h1 r hr

theorem fracPart_sound {s f r : Bytes} (h : fracPart s = some (f, r)) : s = f ++ r ∧ FracText f := by
  unfold fracPart at h
  cases s with
  | nil =>
    obtain ⟨rfl, rfl⟩ := Prod.mk.inj (Option.some.inj h)
    exact ⟨rfl, Or.inl rfl⟩
  | cons c s =>
    dsimp only at h
    by_cases h1 : c = 0x2e
    · rw [if_pos h1] at h
      obtain ⟨⟨d, r'⟩, h2, h3⟩ := Option.map_eq_some_iff.1 h
      obtain ⟨rfl, rfl⟩ := Prod.mk.inj h3
      obtain ⟨rfl, h4⟩ := digits1_sound h2
      subst h1
      exact ⟨rfl, Or.inr ⟨d, h4, rfl⟩⟩
    · rw [if_neg h1] at h
      obtain ⟨rfl, rfl⟩ := Prod.mk.inj (Option.some.inj h)
      exact ⟨rfl, Or.inl rfl⟩

theorem fracPart_complete {f : Bytes} (h : FracText f) (r : Bytes) (hr : NoDigit r) (hdot : r.head? ≠ some 0x2e) :
    fracPart (f ++ r) = some (f, r) := by
  rcases h with rfl | ⟨d, h, rfl⟩
  · rw [List.nil_append]
    cases r with
    | nil => rfl
    | cons c r =>
      unfold fracPart
      dsimp only
      rw [if_neg (by intro h; exact hdot (by rw [h]; rfl))]
  · rw [List.cons_append]
    unfold fracPart
    dsimp only
    rw [if_pos rfl, digits1_complete h r hr]
    rfl

theorem expSign_split (s : Bytes) : s = (expSign s).1 ++ (expSign s).2 ∧
    ((expSign s).1 = [] ∨ (expSign s).1 = bytes!"+" ∨ (expSign s).1 = bytes!"-") := by
  unfold expSign
  cases s with
  | nil => exact ⟨rfl, Or.inl rfl⟩
  | cons c s =>
    dsimp only
    by_cases h : c = 0x2b ∨ c = 0x2d
    · rw [if_pos h]
      refine ⟨rfl, Or.inr ?_⟩
      rcases h with rfl | rfl
      · exact Or.inl rfl
      · exact Or.inr rfl
    · rw [if_neg h]
      exact ⟨rfl, Or.inl rfl⟩

theorem expPart_sound {s e r : Bytes} (h : expPart s = some (e, r)) : s = e ++ r ∧ ExpText e := by
  unfold expPart at h
  cases s with
  | nil =>
    obtain ⟨rfl, rfl⟩ := Prod.mk.inj (Option.some.inj h)
    exact ⟨rfl, Or.inl rfl⟩
  | cons c s =>
    dsimp only at h
    by_cases h1 : c = 0x65 ∨ c = 0x45
    · rw [if_pos h1] at h
      obtain ⟨⟨d, r'⟩, h2, h3⟩ := Option.map_eq_some_iff.1 h
      obtain ⟨rfl, rfl⟩ := Prod.mk.inj h3
      obtain ⟨h4, h5⟩ := digits1_sound h2
      obtain ⟨h6, h7⟩ := expSign_split s
      refine ⟨?_, Or.inr ⟨c, _, d, h1, h7, h5, rfl⟩⟩
      dsimp only
      rw [List.cons_append, List.append_assoc, ← h4, ← h6]
    · rw [if_neg h1] at h
      obtain ⟨rfl, rfl⟩ := Prod.mk.inj (Option.some.inj h)
      exact ⟨rfl, Or.inl rfl⟩

theorem expPart_complete {e : Bytes} (h : ExpText e) (r : Bytes) (hr : NoDigit r) (he : r.head? ≠ some 0x65) (hE : r.head? ≠ some 0x45) :
    expPart (e ++ r) = some (e, r) := by
  rcases h with rfl | ⟨c, sign, d, h1, h2, h3, rfl⟩
  · rw [List.nil_append]
    cases r with
    | nil => rfl
    | cons c r =>
      unfold expPart
      dsimp only
      rw [if_neg]
      rintro (rfl | rfl)
      · exact he rfl
      · exact hE rfl
  · rw [List.cons_append]
    unfold expPart
    dsimp only
    rw [if_pos h1]
    have hs : expSign ((sign ++ d) ++ r) = (sign, d ++ r) := by
      rw [List.append_assoc]
      rcases h2 with rfl | rfl | rfl
      · rw [List.nil_append]
        cases d with
        | nil => exact absurd rfl h3.1
        | cons x d =>
          have hx := h3.2 x List.mem_cons_self
          unfold expSign
          rw [List.cons_append]
          dsimp only
          rw [if_neg]
          rintro (rfl | rfl) <;> revert hx <;> unfold Digit <;> decide
      · rfl
      · rfl
    rw [hs, digits1_complete h3 r hr]
    rfl

theorem minusSign_split (s : Bytes) : s = (minusSign s).1 ++ (minusSign s).2 ∧ ((minusSign s).1 = [] ∨ (minusSign s).1 = bytes!"-") := by
  unfold minusSign
  cases s with
  | nil => exact ⟨rfl, Or.inl rfl⟩
  | cons c s =>
    dsimp only
    by_cases h : c = 0x2d
    · rw [if_pos h, h]
      exact ⟨rfl, Or.inr rfl⟩
    · rw [if_neg h]
      exact ⟨rfl, Or.inl rfl⟩

theorem numberValue_iff (big : Bytes → Bool) (sign i f e : Bytes) (v : Json) : numberValue big sign i f e = some v ↔
    ((f = [] ∧ e = [] ∧ ∃ n : Int, n = (if sign = [] then (decimal i : Int) else -(decimal i : Int)) ∧ -(2 ^ 63) ≤ n ∧ n < 2 ^ 64 ∧ v = .int n) ∨
     (¬ (f = [] ∧ e = [] ∧ -(2 ^ 63) ≤ (if sign = [] then (decimal i : Int) else -(decimal i : Int)) ∧
          (if sign = [] then (decimal i : Int) else -(decimal i : Int)) < 2 ^ 64) ∧ big (sign ++ i ++ f ++ e) = false ∧ v = .dbl)) := by
  unfold numberValue
  dsimp only
  rw [show digitsValue i = decimal i from rfl]
  obtain ⟨n, hn⟩ : ∃ n : Int, (if sign = [] then (decimal i : Int) else -(decimal i : Int)) = n := ⟨_, rfl⟩
  simp only [hn]
  by_cases h : f = [] ∧ e = [] ∧ -(2 ^ 63) ≤ n ∧ n < 2 ^ 64
  · rw [if_pos h]
    constructor
    · intro h'
      exact Or.inl ⟨h.1, h.2.1, n, rfl, h.2.2.1, h.2.2.2, (Option.some.inj h').symm⟩
    · rintro (⟨_, _, m, rfl, _, _, rfl⟩ | ⟨h', _⟩)
      · rfl
      · exact absurd h h'
  · rw [if_neg h]
    by_cases hb : big (sign ++ i ++ f ++ e) = true
    · rw [if_pos hb]
      constructor
      · intro h'; cases h'
      · rintro (⟨h1, h2, m, rfl, h3, h4, rfl⟩ | ⟨_, h', _⟩)
        · exact absurd ⟨h1, h2, h3, h4⟩ h
        · rw [hb] at h'; cases h'
    · rw [if_neg hb]
      constructor
      · intro h'
        exact Or.inr ⟨h, by simpa using hb, (Option.some.inj h').symm⟩
      · rintro (⟨h1, h2, m, rfl, h3, h4, rfl⟩ | ⟨_, _, rfl⟩)
        · exact absurd ⟨h1, h2, h3, h4⟩ h
        · rfl

theorem number_sound {big : Bytes → Bool} {s r : Bytes} {v : Json} (h : number big s = some (v, r)) : ∃ t, s = t ++ r ∧ Num big t v := by
  unfold number at h
  cases h1 : intPart (minusSign s).2 with
  | none => rw [h1] at h; cases h
  | some p =>
    obtain ⟨i, s1⟩ := p
    rw [h1] at h
    dsimp only at h
    cases h2 : fracPart s1 with
    | none => rw [h2] at h; cases h
    | some p =>
      obtain ⟨f, s2⟩ := p
      rw [h2] at h
      dsimp only at h
      cases h3 : expPart s2 with
      | none => rw [h3] at h; cases h
      | some p =>
        obtain ⟨e, s3⟩ := p
        rw [h3] at h
        dsimp only at h
        obtain ⟨v', h4, h5⟩ := Option.map_eq_some_iff.1 h
        obtain ⟨rfl, rfl⟩ := Prod.mk.inj h5
        obtain ⟨h6, h7⟩ := minusSign_split s
        obtain ⟨h8, h9⟩ := intPart_sound h1
        obtain ⟨h10, h11⟩ := fracPart_sound h2
        obtain ⟨h12, h13⟩ := expPart_sound h3
        refine ⟨(minusSign s).1 ++ i ++ f ++ e, ?_, _, i, f, e, rfl, h7, h9, h11, h13, (numberValue_iff _ _ _ _ _ _).1 h4⟩
        conv => lhs; rw [h6, h8, h10, h12]
        simp only [List.append_assoc]

/-- What follows cannot continue a number. -/
def Stop (s : Bytes) : Prop := NoDigit s ∧ s.head? ≠ some 0x2e ∧ s.head? ≠ some 0x65 ∧ s.head? ≠ some 0x45

theorem noDigit_cons {c : UInt8} {r : Bytes} (h : isDigit c = false) : NoDigit (c :: r) := by
  intro d hd
  rw [List.head?_cons, Option.some.injEq] at hd
  rw [← hd]; exact h

theorem exp_stop {e r : Bytes} (h : ExpText e) (hr : Stop r) : NoDigit (e ++ r) ∧ (e ++ r).head? ≠ some 0x2e := by
  rcases h with rfl | ⟨c, sign, d, h1, _, _, rfl⟩
  · exact ⟨hr.1, hr.2.1⟩
  · rcases h1 with rfl | rfl
    · exact ⟨noDigit_cons (by decide), by simp⟩
    · exact ⟨noDigit_cons (by decide), by simp⟩

theorem number_complete {big : Bytes → Bool} {t : Bytes} {v : Json} (h : Num big t v) (r : Bytes) (hr : Stop r) :
    number big (t ++ r) = some (v, r) := by
  obtain ⟨sign, i, f, e, rfl, h1, h2, h3, h4, h5⟩ := h
  have hm : minusSign (sign ++ (i ++ (f ++ (e ++ r)))) = (sign, i ++ (f ++ (e ++ r))) := by
    rcases h1 with rfl | rfl
    · rw [List.nil_append]
      cases i with
      | nil => exact absurd rfl h2.1.1
      | cons x i =>
        have hx := h2.1.2 x List.mem_cons_self
        unfold minusSign
        rw [List.cons_append]
        dsimp only
        rw [if_neg]
        rintro rfl
        revert hx; unfold Digit; decide
    · rfl
  obtain ⟨h6, h7⟩ := exp_stop h4 hr
  have h8 : NoDigit (f ++ (e ++ r)) := by
    rcases h3 with rfl | ⟨d, _, rfl⟩
    · exact h6
    · exact noDigit_cons (by decide)
  unfold number
  rw [show sign ++ i ++ f ++ e ++ r = sign ++ (i ++ (f ++ (e ++ r))) by simp only [List.append_assoc], hm]
  dsimp only
  rw [intPart_complete h2 _ h8]
  dsimp only
  rw [fracPart_complete h3 _ h6 h7]
  dsimp only
  rw [expPart_complete h4 r hr.1 hr.2.2.1 hr.2.2.2]
  dsimp only
  rw [(numberValue_iff big sign i f e v).2 h5]
  rfl

theorem white_nil : White [] := fun _ h => by cases h

/-- The parser reads what the grammar allows. -/
theorem sound (big : Bytes → Bool) (fuel : Nat) :
    (∀ s v r, value big fuel s = some (v, r) → ∃ t, s = t ++ r ∧ Value big t v) ∧
    (∀ s ms r, members big fuel s = some (ms, r) → ∃ t, s = t ++ 0x7d :: r ∧ Members big t ms) ∧
    (∀ s vs r, elements big fuel s = some (vs, r) → ∃ t, s = t ++ 0x5d :: r ∧ Elements big t vs) := by
  induction fuel with
  | zero =>
    refine ⟨fun s v r h => ?_, fun s ms r h => ?_, fun s vs r h => ?_⟩
    · rw [value] at h; cases h
    · rw [members] at h; cases h
    · rw [elements] at h; cases h
  | succ fuel ih =>
    obtain ⟨ih1, ih2, ih3⟩ := ih
    refine ⟨fun s v r h => ?_, fun s ms r h => ?_, fun s vs r h => ?_⟩
    · cases s with
      | nil => rw [value] at h; cases h; simp
      | cons c s =>
        rw [value] at h
        by_cases h1 : c = 0x6e
        · rw [if_pos h1] at h
          obtain ⟨rfl, rfl⟩ := (word_iff _ _ _ _ _).1 h
          exact ⟨bytes!"null", by rw [h1]; rfl, .null⟩
        rw [if_neg h1] at h
        by_cases h2 : c = 0x74
        · rw [if_pos h2] at h
          obtain ⟨rfl, rfl⟩ := (word_iff _ _ _ _ _).1 h
          exact ⟨bytes!"true", by rw [h2]; rfl, .true⟩
        rw [if_neg h2] at h
        by_cases h3 : c = 0x66
        · rw [if_pos h3] at h
          obtain ⟨rfl, rfl⟩ := (word_iff _ _ _ _ _).1 h
          exact ⟨bytes!"false", by rw [h3]; rfl, .false⟩
        rw [if_neg h3] at h
        by_cases h4 : c = 0x22
        · rw [if_pos h4] at h
          obtain ⟨⟨x, y⟩, h5, h6⟩ := Option.map_eq_some_iff.1 h
          obtain ⟨rfl, rfl⟩ := Prod.mk.inj h6
          obtain ⟨t, h7, h8⟩ := string_sound h5
          exact ⟨t, h7, .str h8⟩
        rw [if_neg h4] at h
        by_cases h5 : c = 0x7b
        · rw [if_pos h5] at h
          obtain ⟨w, hw, hs⟩ := skipWs_split s
          subst h5
          cases h6 : consume 0x7d (skipWs s) with
          | some r' =>
            rw [h6] at h
            obtain ⟨rfl, rfl⟩ := Prod.mk.inj (Option.some.inj h)
            rw [(consume_iff _ _ _).1 h6] at hs
            exact ⟨0x7b :: (w ++ bytes!"}"), by rw [hs]; simp, .emptyObj w hw⟩
          | none =>
            rw [h6] at h
            obtain ⟨⟨x, y⟩, h7, h8⟩ := Option.map_eq_some_iff.1 h
            obtain ⟨rfl, rfl⟩ := Prod.mk.inj h8
            obtain ⟨t, h9, h10⟩ := ih2 _ _ _ h7
            rw [h9] at hs
            exact ⟨0x7b :: (w ++ (t ++ bytes!"}")), by rw [hs]; simp, .obj w hw h10⟩
        rw [if_neg h5] at h
        by_cases h6 : c = 0x5b
        · rw [if_pos h6] at h
          obtain ⟨w, hw, hs⟩ := skipWs_split s
          subst h6
          cases h6 : consume 0x5d (skipWs s) with
          | some r' =>
            rw [h6] at h
            obtain ⟨rfl, rfl⟩ := Prod.mk.inj (Option.some.inj h)
            rw [(consume_iff _ _ _).1 h6] at hs
            exact ⟨0x5b :: (w ++ bytes!"]"), by rw [hs]; simp, .emptyArr w hw⟩
          | none =>
            rw [h6] at h
            obtain ⟨⟨x, y⟩, h7, h8⟩ := Option.map_eq_some_iff.1 h
            obtain ⟨rfl, rfl⟩ := Prod.mk.inj h8
            obtain ⟨t, h9, h10⟩ := ih3 _ _ _ h7
            rw [h9] at hs
            exact ⟨0x5b :: (w ++ (t ++ bytes!"]")), by rw [hs]; simp, .arr w hw h10⟩
        rw [if_neg h6] at h
        obtain ⟨t, h7, h8⟩ := number_sound h
        exact ⟨t, h7, .num h8⟩
    · rw [members] at h
      cases h1 : string s with
      | none => rw [h1] at h; cases h
      | some p =>
        obtain ⟨name, s1⟩ := p
        rw [h1] at h
        dsimp only at h
        obtain ⟨n, rfl, hn⟩ := string_sound h1
        cases h2 : consume 0x3a (skipWs s1) with
        | none => rw [h2] at h; cases h
        | some s2 =>
          rw [h2] at h
          dsimp only at h
          obtain ⟨w1, hw1, hs1⟩ := skipWs_split s1
          rw [(consume_iff _ _ _).1 h2] at hs1
          cases h3 : value big fuel (skipWs s2) with
          | none => rw [h3] at h; cases h
          | some p =>
            obtain ⟨v, s3⟩ := p
            rw [h3] at h
            dsimp only at h
            obtain ⟨w2, hw2, hs2⟩ := skipWs_split s2
            obtain ⟨t, ht, hv⟩ := ih1 _ _ _ h3
            rw [ht] at hs2
            obtain ⟨w3, hw3, hs3⟩ := skipWs_split s3
            cases h4 : skipWs s3 with
            | nil => rw [h4] at h; cases h
            | cons c s4 =>
              rw [h4] at h hs3
              dsimp only at h
              by_cases h5 : c = 0x2c
              · rw [if_pos h5] at h
                obtain ⟨⟨x, y⟩, h7, h8⟩ := Option.map_eq_some_iff.1 h
                obtain ⟨rfl, rfl⟩ := Prod.mk.inj h8
                obtain ⟨w4, hw4, hs4⟩ := skipWs_split s4
                obtain ⟨t', ht', hms⟩ := ih2 _ _ _ h7
                rw [ht'] at hs4
                refine ⟨n ++ (w1 ++ 0x3a :: (w2 ++ (t ++ (w3 ++ 0x2c :: (w4 ++ t'))))), ?_, .cons hn hw1 hw2 hv hw3 hw4 hms⟩
                rw [hs1, hs2, hs3, hs4, h5]
                simp only [List.append_assoc, List.cons_append]
              · rw [if_neg h5] at h
                by_cases h6 : c = 0x7d
                · rw [if_pos h6] at h
                  obtain ⟨rfl, rfl⟩ := Prod.mk.inj (Option.some.inj h)
                  refine ⟨n ++ (w1 ++ 0x3a :: (w2 ++ (t ++ w3))), ?_, .last hn hw1 hw2 hv hw3⟩
                  rw [hs1, hs2, hs3, h6]
                  simp only [List.append_assoc, List.cons_append]
                · rw [if_neg h6] at h; cases h
    · rw [elements] at h
      cases h3 : value big fuel s with
      | none => rw [h3] at h; cases h
      | some p =>
        obtain ⟨v, s3⟩ := p
        rw [h3] at h
        dsimp only at h
        obtain ⟨t, rfl, hv⟩ := ih1 _ _ _ h3
        obtain ⟨w3, hw3, hs3⟩ := skipWs_split s3
        cases h4 : skipWs s3 with
        | nil => rw [h4] at h; cases h
        | cons c s4 =>
          rw [h4] at h hs3
          dsimp only at h
          by_cases h5 : c = 0x2c
          · rw [if_pos h5] at h
            obtain ⟨⟨x, y⟩, h7, h8⟩ := Option.map_eq_some_iff.1 h
            obtain ⟨rfl, rfl⟩ := Prod.mk.inj h8
            obtain ⟨w4, hw4, hs4⟩ := skipWs_split s4
            obtain ⟨t', ht', hms⟩ := ih3 _ _ _ h7
            rw [ht'] at hs4
            refine ⟨t ++ (w3 ++ 0x2c :: (w4 ++ t')), ?_, .cons hv hw3 hw4 hms⟩
            rw [hs3, hs4, h5]
            simp only [List.append_assoc, List.cons_append]
          · rw [if_neg h5] at h
            by_cases h6 : c = 0x5d
            · rw [if_pos h6] at h
              obtain ⟨rfl, rfl⟩ := Prod.mk.inj (Option.some.inj h)
              refine ⟨t ++ w3, ?_, .last hv hw3⟩
              rw [hs3, h6]
              simp only [List.append_assoc]
            · rw [if_neg h6] at h; cases h

/-- The first byte of a string is a quote. -/
theorem str_head {t v : Bytes} (h : Str t v) : ∃ r, t = 0x22 :: r := by
  obtain ⟨b, rfl, _⟩ := h
  exact ⟨_, rfl⟩

theorem num_head {big : Bytes → Bool} {t : Bytes} {v : Json} (h : Num big t v) : ∃ c r, t = c :: r ∧ (c = 0x2d ∨ Digit c) := by
  obtain ⟨sign, i, f, e, rfl, h1, h2, _⟩ := h
  rcases h1 with rfl | rfl
  · cases i with
    | nil => exact absurd rfl h2.1.1
    | cons x i => exact ⟨x, _, rfl, Or.inr (h2.1.2 x List.mem_cons_self)⟩
  · exact ⟨0x2d, _, rfl, Or.inl rfl⟩

theorem digit_not {c d : UInt8} (h : c = 0x2d ∨ Digit c) (hd : ¬ (d = 0x2d ∨ (0x30 ≤ d.toNat ∧ d.toNat ≤ 0x39))) : c ≠ d := by
  rintro rfl
  exact hd h

/-- No value begins with white space or a closing bracket. -/
theorem value_head {big : Bytes → Bool} {t : Bytes} {v : Json} (h : Value big t v) : ∃ c r, t = c :: r ∧ isWs c = false ∧ c ≠ 0x5d := by
  cases h with
  | null => exact ⟨_, _, rfl, by decide, by decide⟩
  | true => exact ⟨_, _, rfl, by decide, by decide⟩
  | false => exact ⟨_, _, rfl, by decide, by decide⟩
  | str h => obtain ⟨r, rfl⟩ := str_head h; exact ⟨_, _, rfl, by decide, by decide⟩
  | num h =>
    obtain ⟨c, r, rfl, hc⟩ := num_head h
    refine ⟨c, r, rfl, ?_, digit_not hc (by decide)⟩
    cases hw : isWs c with
    | false => rfl
    | true =>
      rcases (isWs_iff c).1 hw with rfl | rfl | rfl | rfl <;> revert hc <;> unfold Digit <;> decide
  | emptyObj => exact ⟨_, _, rfl, by decide, by decide⟩
  | obj => exact ⟨_, _, rfl, by decide, by decide⟩
  | emptyArr => exact ⟨_, _, rfl, by decide, by decide⟩
  | arr => exact ⟨_, _, rfl, by decide, by decide⟩

theorem members_head {big : Bytes → Bool} {t : Bytes} {ms : List (Bytes × Json)} (h : Members big t ms) : ∃ r, t = 0x22 :: r := by
  cases h with
  | last h => obtain ⟨r, rfl⟩ := str_head h; exact ⟨_, rfl⟩
  | cons h => obtain ⟨r, rfl⟩ := str_head h; exact ⟨_, rfl⟩

theorem elements_head {big : Bytes → Bool} {t : Bytes} {vs : List Json} (h : Elements big t vs) :
    ∃ c r, t = c :: r ∧ isWs c = false ∧ c ≠ 0x5d := by
  cases h with
  | last h => obtain ⟨c, r, rfl, h'⟩ := value_head h; exact ⟨c, _, rfl, h'⟩
  | cons h => obtain ⟨c, r, rfl, h'⟩ := value_head h; exact ⟨c, _, rfl, h'⟩

/-- What may follow a value. -/
theorem stop_of {w s : Bytes} (hw : White w) (hs : s = [] ∨ ∃ c r, s = c :: r ∧ (c = 0x2c ∨ c = 0x5d ∨ c = 0x7d ∨ c = 0)) : Stop (w ++ s) := by
  have key : ∀ c r, w ++ s = c :: r → c = 0x20 ∨ c = 0x09 ∨ c = 0x0a ∨ c = 0x0d ∨ c = 0x2c ∨ c = 0x5d ∨ c = 0x7d ∨ c = 0 := by
    intro c r h
    cases w with
    | nil =>
      rw [List.nil_append] at h
      rcases hs with rfl | ⟨c', r', rfl, h'⟩
      · cases h
      · obtain ⟨rfl, rfl⟩ := List.cons.inj h
        exact Or.inr (Or.inr (Or.inr (Or.inr h')))
    | cons d w =>
      obtain ⟨rfl, _⟩ := List.cons.inj h
      rcases hw d List.mem_cons_self with h | h | h | h
      · exact Or.inl h
      · exact Or.inr (Or.inl h)
      · exact Or.inr (Or.inr (Or.inl h))
      · exact Or.inr (Or.inr (Or.inr (Or.inl h)))
  cases h : w ++ s with
  | nil => exact ⟨(fun _ h => by cases h), (by simp), (by simp), (by simp)⟩
  | cons c r =>
    rcases key c r h with rfl | rfl | rfl | rfl | rfl | rfl | rfl | rfl <;>
      exact ⟨noDigit_cons (by decide), by simp, by simp, by simp⟩

theorem not_ws_of {c : UInt8} {r : Bytes} (h : isWs c = false) : ∀ d, (c :: r).head? = some d → isWs d = false := by
  intro d hd
  rw [List.head?_cons, Option.some.injEq] at hd
  rw [← hd]; exact h

theorem value_cons (big : Bytes → Bool) (fuel : Nat) (c : UInt8) (r : Bytes) : value big (fuel + 1) (c :: r) =
    if c = 0x6e then word bytes!"ull" .null r
    else if c = 0x74 then word bytes!"rue" (.bool true) r
    else if c = 0x66 then word bytes!"alse" (.bool false) r
    else if c = 0x22 then (string (c :: r)).map fun p => (.str p.1, p.2)
    else if c = 0x7b then
      match consume 0x7d (skipWs r) with
      | some r' => some (.obj [], r')
      | none => (members big fuel (skipWs r)).map fun p => (.obj p.1, p.2)
    else if c = 0x5b then
      match consume 0x5d (skipWs r) with
      | some r' => some (.arr [], r')
      | none => (elements big fuel (skipWs r)).map fun p => (.arr p.1, p.2)
    else number big (c :: r) := by
  rw [value]
  rfl

theorem consume_other {b c : UInt8} {r : Bytes} (h : c ≠ b) : consume b (c :: r) = none := by
  unfold consume
  dsimp only
  rw [if_neg h]

/-- What the grammar allows is read. -/
theorem complete (big : Bytes → Bool) (fuel : Nat) :
    (∀ t v, Value big t v → t.length ≤ fuel → ∀ r, Stop r → value big fuel (t ++ r) = some (v, r)) ∧
    (∀ t ms, Members big t ms → t.length < fuel → ∀ r, members big fuel (t ++ 0x7d :: r) = some (ms, r)) ∧
    (∀ t vs, Elements big t vs → t.length < fuel → ∀ r, elements big fuel (t ++ 0x5d :: r) = some (vs, r)) := by
  induction fuel with
  | zero =>
    refine ⟨fun t v h hl => ?_, fun t v h hl => by omega, fun t v h hl => by omega⟩
    obtain ⟨c, r, rfl, _⟩ := value_head h
    simp at hl
  | succ fuel ih =>
    obtain ⟨ih1, ih2, ih3⟩ := ih
    refine ⟨fun t v h hl r hr => ?_, fun t ms h hl r => ?_, fun t vs h hl r => ?_⟩
    · cases h with
      | null =>
        rw [List.cons_append, value_cons, if_pos rfl]
        exact (word_iff _ _ _ _ _).2 ⟨rfl, rfl⟩
      | true =>
        rw [List.cons_append, value_cons, if_neg (by decide), if_pos rfl]
        exact (word_iff _ _ _ _ _).2 ⟨rfl, rfl⟩
      | false =>
        rw [List.cons_append, value_cons, if_neg (by decide), if_neg (by decide), if_pos rfl]
        exact (word_iff _ _ _ _ _).2 ⟨rfl, rfl⟩
      | str h =>
        have hs := string_complete h r
        obtain ⟨t', rfl⟩ := str_head h
        rw [List.cons_append] at hs ⊢
        rw [value_cons, if_neg (by decide), if_neg (by decide), if_neg (by decide), if_pos rfl, hs]
        rfl
      | num h =>
        have hs := number_complete h r hr
        obtain ⟨c, t', rfl, hc⟩ := num_head h
        rw [List.cons_append] at hs ⊢
        rw [value_cons, if_neg (digit_not hc (by decide)), if_neg (digit_not hc (by decide)), if_neg (digit_not hc (by decide)),
          if_neg (digit_not hc (by decide)), if_neg (digit_not hc (by decide)), if_neg (digit_not hc (by decide)), hs]
      | emptyObj w hw =>
        rw [List.cons_append, value_cons, if_neg (by decide), if_neg (by decide), if_neg (by decide), if_neg (by decide), if_pos rfl,
          List.append_assoc, List.singleton_append, skipWs_white w _ hw (not_ws_of (by decide)), consume_self]
      | @obj w t ms hw h =>
        rw [List.cons_append, value_cons, if_neg (by decide), if_neg (by decide), if_neg (by decide), if_neg (by decide), if_pos rfl]
        have hsk : skipWs (w ++ (t ++ bytes!"}") ++ r) = t ++ 0x7d :: r := by
          rw [List.append_assoc, skipWs_white w _ hw]
          · simp
          · obtain ⟨t', rfl⟩ := members_head h
            exact not_ws_of (by decide)
        rw [hsk]
        have hc : consume 0x7d (t ++ 0x7d :: r) = none := by
          obtain ⟨t', rfl⟩ := members_head h
          exact consume_other (by decide)
        rw [hc]
        dsimp only
        rw [ih2 t ms h (by simp at hl; omega) r]
        rfl
      | emptyArr w hw =>
        rw [List.cons_append, value_cons, if_neg (by decide), if_neg (by decide), if_neg (by decide), if_neg (by decide), if_neg (by decide), if_pos rfl,
          List.append_assoc, List.singleton_append, skipWs_white w _ hw (not_ws_of (by decide)), consume_self]
      | @arr w t vs hw h =>
        rw [List.cons_append, value_cons, if_neg (by decide), if_neg (by decide), if_neg (by decide), if_neg (by decide), if_neg (by decide), if_pos rfl]
        have hsk : skipWs (w ++ (t ++ bytes!"]") ++ r) = t ++ 0x5d :: r := by
          rw [List.append_assoc, skipWs_white w _ hw]
          · simp
          · obtain ⟨c, t', rfl, h1, _⟩ := elements_head h
            exact not_ws_of h1
        rw [hsk]
        have hc : consume 0x5d (t ++ 0x5d :: r) = none := by
          obtain ⟨c, t', rfl, _, h1⟩ := elements_head h
          exact consume_other h1
        rw [hc]
        dsimp only
        rw [ih3 t vs h (by simp at hl; omega) r]
        rfl
    · rw [members]
      cases h with
      | @last n name w1 w2 t w3 v hn hw1 hw2 hv hw3 =>
        rw [show n ++ (w1 ++ 0x3a :: (w2 ++ (t ++ w3))) ++ 0x7d :: r = n ++ (w1 ++ 0x3a :: (w2 ++ (t ++ (w3 ++ 0x7d :: r)))) by
          simp only [List.append_assoc, List.cons_append]]
        rw [string_complete hn]
        dsimp only
        rw [skipWs_white w1 _ hw1 (not_ws_of (by decide)), consume_self]
        dsimp only
        obtain ⟨c, t', ht', h1, _⟩ := value_head hv
        rw [skipWs_white w2 _ hw2 (by rw [ht']; exact not_ws_of h1),
          ih1 t v hv (by simp at hl; omega) _ (stop_of hw3 (Or.inr ⟨_, _, rfl, by decide⟩))]
        dsimp only
        rw [skipWs_white w3 _ hw3 (not_ws_of (by decide))]
        dsimp only
        rw [if_neg (by decide), if_pos rfl]
      | @cons n name w1 w2 t w3 w4 t'' v ms hn hw1 hw2 hv hw3 hw4 hms =>
        rw [show n ++ (w1 ++ 0x3a :: (w2 ++ (t ++ (w3 ++ 0x2c :: (w4 ++ t''))))) ++ 0x7d :: r =
            n ++ (w1 ++ 0x3a :: (w2 ++ (t ++ (w3 ++ 0x2c :: (w4 ++ (t'' ++ 0x7d :: r)))))) by
          simp only [List.append_assoc, List.cons_append]]
        rw [string_complete hn]
        dsimp only
        rw [skipWs_white w1 _ hw1 (not_ws_of (by decide)), consume_self]
        dsimp only
        obtain ⟨c, t', ht', h1, _⟩ := value_head hv
        rw [skipWs_white w2 _ hw2 (by rw [ht']; exact not_ws_of h1),
          ih1 t v hv (by simp at hl; omega) _ (stop_of hw3 (Or.inr ⟨_, _, rfl, by decide⟩))]
        dsimp only
        rw [skipWs_white w3 _ hw3 (not_ws_of (by decide))]
        dsimp only
        obtain ⟨t3, ht3⟩ := members_head hms
        rw [if_pos rfl, skipWs_white w4 _ hw4 (by rw [ht3]; exact not_ws_of (by decide)), ih2 t'' ms hms (by simp at hl; omega) r]
        rfl
    · rw [elements]
      cases h with
      | @last t w v hv hw =>
        rw [List.append_assoc, ih1 t v hv (by simp at hl; omega) _ (stop_of hw (Or.inr ⟨_, _, rfl, by decide⟩))]
        dsimp only
        rw [skipWs_white w _ hw (not_ws_of (by decide))]
        dsimp only
        rw [if_neg (by decide), if_pos rfl]
      | @cons t w1 w2 t' v vs hv hw1 hw2 hvs =>
        rw [show t ++ (w1 ++ 0x2c :: (w2 ++ t')) ++ 0x5d :: r = t ++ (w1 ++ 0x2c :: (w2 ++ (t' ++ 0x5d :: r))) by
          simp only [List.append_assoc, List.cons_append]]
        rw [ih1 t v hv (by simp at hl; omega) _ (stop_of hw1 (Or.inr ⟨_, _, rfl, by decide⟩))]
        dsimp only
        rw [skipWs_white w1 _ hw1 (not_ws_of (by decide))]
        dsimp only
        obtain ⟨c, t3, ht3, h1, _⟩ := elements_head hvs
        rw [if_pos rfl, skipWs_white w2 _ hw2 (by rw [ht3]; exact not_ws_of h1), ih3 t' vs hvs (by simp at hl; omega) r]
        rfl

/-- **The parser accepts exactly the JSON texts**, up to a NUL byte, behind a byte order mark. -/
theorem parseJson_iff (big : Bytes → Bool) (s : Bytes) (v : Json) :
    parseJson big s = some v ↔ ∃ text junk, skipBom s = text ++ junk ∧ Text big text v ∧ (junk = [] ∨ junk.head? = some 0) := by
  unfold parseJson
  constructor
  · intro h
    cases h1 : value big (s.length + 1) (skipWs (skipBom s)) with
    | none => rw [h1] at h; cases h
    | some p =>
      obtain ⟨v', r⟩ := p
      rw [h1] at h
      dsimp only at h
      obtain ⟨t, ht, hv⟩ := (sound big _).1 _ _ _ h1
      obtain ⟨w, hw, hs⟩ := skipWs_split (skipBom s)
      obtain ⟨w', hw', hs'⟩ := skipWs_split r
      have : v' = v ∧ (skipWs r = [] ∨ (skipWs r).head? = some 0) := by
        cases h2 : skipWs r with
        | nil => rw [h2] at h; exact ⟨Option.some.inj h, Or.inl rfl⟩
        | cons c r' =>
          rw [h2] at h
          dsimp only at h
          by_cases h3 : c = 0
          · rw [if_pos h3] at h
            exact ⟨Option.some.inj h, Or.inr (by rw [h3]; rfl)⟩
          · rw [if_neg h3] at h; cases h
      obtain ⟨rfl, hj⟩ := this
      refine ⟨w ++ (t ++ w'), skipWs r, ?_, ⟨w, t, w', rfl, hw, hv, hw'⟩, hj⟩
      rw [List.append_assoc, List.append_assoc, ← hs', ← ht, ← hs]
  · rintro ⟨text, junk, hs, ⟨w, t, w', rfl, hw, hv, hw'⟩, hj⟩
    have hlen : (skipBom s).length ≤ s.length := by
      unfold skipBom
      have key : ∀ (b : UInt8) (s : Bytes), (dropByte b s).length ≤ s.length := by
        intro b s
        unfold dropByte
        cases s with
        | nil => exact Nat.le_refl _
        | cons c r =>
          dsimp only
          by_cases h : c = b
          · rw [if_pos h]; simp
          · rw [if_neg h]; exact Nat.le_refl _
      exact Nat.le_trans (key _ _) (Nat.le_trans (key _ _) (key _ _))
    have hj' : junk = [] ∨ ∃ c r, junk = c :: r ∧ (c = 0x2c ∨ c = 0x5d ∨ c = 0x7d ∨ c = 0) := by
      rcases hj with rfl | hj
      · exact Or.inl rfl
      · cases junk with
        | nil => exact Or.inl rfl
        | cons c r => exact Or.inr ⟨c, r, rfl, Or.inr (Or.inr (Or.inr (Option.some.inj hj)))⟩
    have hl : t.length ≤ s.length + 1 := by
      rw [hs] at hlen
      simp at hlen
      omega
    obtain ⟨c, r, hc, h1, _⟩ := value_head hv
    rw [hs, List.append_assoc, List.append_assoc, skipWs_white w _ hw (by rw [hc]; exact not_ws_of h1),
      (complete big _).1 t v hv hl _ (stop_of hw' hj')]
    dsimp only
    rw [skipWs_white w' junk hw' (by
      intro d hd
      rcases hj with rfl | hj
      · cases hd
      · rw [hj] at hd; rw [← Option.some.inj hd]; rfl)]
    rcases hj with rfl | hj
    · rfl
    · cases junk with
      | nil => rfl
      | cons d junk =>
        dsimp only
        rw [if_pos (Option.some.inj hj)]

end Verif.Db.JsonText
