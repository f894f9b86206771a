import Verif.Proofs.Frames
import Verif.Proofs.AssembleLines
/-! # Lines, added features and assembly -/
namespace Verif.Asm
open Verif.Db Verif.Spec Verif.Xc7 Verif.Text

/-! ## Strings -/

theorem contains_iff (sub s : Bytes) : contains sub s = true ↔ Occurs sub s := by
  induction s with
  | nil =>
    unfold contains Occurs
    rw [List.isEmpty_iff]
    constructor
    · rintro rfl; exact ⟨[], [], rfl⟩
    · rintro ⟨a, b, h⟩
      have h' := h.symm
      simp only [List.append_eq_nil_iff] at h'
      exact h'.1.2
  | cons c r ih =>
    unfold contains
    rw [Bool.or_eq_true, ih, List.isPrefixOf_iff_prefix]
    constructor
    · rintro (⟨b, h⟩ | ⟨a, b, h⟩)
      · exact ⟨[], b, h.symm⟩
      · exact ⟨c :: a, b, by rw [h]; rfl⟩
    · rintro ⟨a, b, h⟩
      cases a with
      | nil => exact Or.inl ⟨b, h.symm⟩
      | cons x a =>
        rw [List.cons_append, List.cons_append, List.cons.injEq] at h
        exact Or.inr ⟨a, b, h.2⟩

theorem splitMax_succ (c : UInt8) (n : Nat) (s : Bytes) :
    (∃ a b, s = a ++ c :: b ∧ c ∉ a ∧ splitMax c (n + 1) s = a :: splitMax c n b) ∨ (c ∉ s ∧ splitMax c (n + 1) s = [s]) := by
  induction s with
  | nil => exact Or.inr ⟨by simp, rfl⟩
  | cons x r ih =>
    by_cases hx : x = c
    · refine Or.inl ⟨[], r, by simp [hx], by simp, ?_⟩
      simp [splitMax, hx]
    · rcases ih with ⟨a, b, h1, h2, h3⟩ | ⟨h1, h2⟩
      · refine Or.inl ⟨x :: a, b, by simp [h1], ?_, ?_⟩
        · simp only [List.mem_cons, not_or]; exact ⟨fun e => hx e.symm, h2⟩
        · rw [splitMax, if_neg hx, h3]
      · refine Or.inr ⟨?_, ?_⟩
        · simp only [List.mem_cons, not_or]; exact ⟨fun e => hx e.symm, h1⟩
        · rw [splitMax, if_neg hx, h2]

/-- The name has the three leading parts. -/
def Parts (name tile site tag : Bytes) : Prop :=
  0x2e ∉ tile ∧ 0x2e ∉ site ∧ 0x2e ∉ tag ∧
  (name = tile ++ 0x2e :: (site ++ 0x2e :: tag) ∨ ∃ rest, name = tile ++ 0x2e :: (site ++ 0x2e :: (tag ++ 0x2e :: rest)))

theorem parts_unique {name a b c a' b' c' : Bytes} (h : Parts name a b c) (h' : Parts name a' b' c') : a = a' ∧ b = b' ∧ c = c' := by
  obtain ⟨h1, h2, h3, h4⟩ := h
  obtain ⟨h1', h2', h3', h4'⟩ := h'
  have key : ∀ r r' : Bytes, a ++ 0x2e :: (b ++ 0x2e :: r) = a' ++ 0x2e :: (b' ++ 0x2e :: r') → a = a' ∧ b = b' ∧ r = r' := by
    intro r r' h
    obtain ⟨ea, h⟩ := cut_unique h h1 h1'
    obtain ⟨eb, h⟩ := cut_unique h h2 h2'
    exact ⟨ea, eb, h⟩
  rcases h4 with rfl | ⟨r, rfl⟩ <;> rcases h4' with e | ⟨r', e⟩ <;> obtain ⟨e1, e2, e3⟩ := key _ _ e
  · exact ⟨e1, e2, e3⟩
  · exact absurd (by rw [e3]; simp) h3
  · exact absurd (by rw [← e3]; simp) h3'
  · exact ⟨e1, e2, (cut_unique e3 h3 h3').1⟩

theorem splitMax_three (name : Bytes) :
    (∃ tile site tag rest, splitMax 0x2e 3 name = tile :: site :: tag :: rest ∧ Parts name tile site tag) ∨
    ((∀ tile site tag, ¬ Parts name tile site tag) ∧ ∀ tile site tag rest, splitMax 0x2e 3 name ≠ tile :: site :: tag :: rest) := by
  rcases splitMax_succ 0x2e 2 name with ⟨a, b, e, ha, hs⟩ | ⟨hn, hs⟩
  · rcases splitMax_succ 0x2e 1 b with ⟨a2, b2, e2, ha2, hs2⟩ | ⟨hn2, hs2⟩
    · rcases splitMax_succ 0x2e 0 b2 with ⟨a3, b3, e3, ha3, hs3⟩ | ⟨hn3, hs3⟩
      · refine Or.inl ⟨a, a2, a3, splitMax 0x2e 0 b3, by rw [hs, hs2, hs3], ha, ha2, ha3, Or.inr ⟨b3, by rw [e, e2, e3]⟩⟩
      · refine Or.inl ⟨a, a2, b2, [], by rw [hs, hs2, hs3], ha, ha2, hn3, Or.inl (by rw [e, e2])⟩
    · refine Or.inr ⟨?_, by intro t s g r h; rw [hs, hs2] at h; simp at h⟩
      rintro t s g ⟨h1, h2, h3, h4⟩
      have : ∃ r, name = t ++ 0x2e :: (s ++ 0x2e :: r) := by
        rcases h4 with h | ⟨r, h⟩
        · exact ⟨_, h⟩
        · exact ⟨_, h⟩
      obtain ⟨r, h⟩ := this
      rw [e] at h
      obtain ⟨_, h⟩ := cut_unique h ha h1
      exact hn2 (by rw [h]; simp)
  · refine Or.inr ⟨?_, by intro t s g r h; rw [hs] at h; simp at h⟩
    rintro t s g ⟨h1, h2, h3, h4⟩
    rcases h4 with h | ⟨r, h⟩ <;> exact hn (by rw [h]; simp)

/-! ## Lines -/

theorem getlines_cut (body rest : Bytes) (h : 0x0a ∉ body) : getlines (body ++ 0x0a :: rest) = (body ++ [0x0a]) :: getlines rest := by
  induction body with
  | nil => simp [getlines]
  | cons c b ih =>
    have hc : c ≠ 0x0a := fun e => h (by simp [e])
    have hb : 0x0a ∉ b := fun e => h (List.mem_cons_of_mem _ e)
    rw [List.cons_append, getlines, if_neg hc, ih hb]
    rfl

theorem getlines_last (l : Bytes) (h0 : l ≠ []) (h : 0x0a ∉ l) : getlines l = [l] := by
  induction l with
  | nil => exact absurd rfl h0
  | cons c b ih =>
    have hc : c ≠ 0x0a := fun e => h (by simp [e])
    have hb : 0x0a ∉ b := fun e => h (List.mem_cons_of_mem _ e)
    rw [getlines, if_neg hc]
    cases b with
    | nil => rfl
    | cons d b => rw [ih (by simp) hb]

theorem newline_cases (s : Bytes) : 0x0a ∉ s ∨ ∃ body rest, s = body ++ 0x0a :: rest ∧ 0x0a ∉ body := by
  by_cases h : 0x0a ∈ s
  · rcases splitMax_one 0x0a s with ⟨a, b, h1, h2, _⟩ | ⟨h1, _⟩
    · exact Or.inr ⟨a, b, h1, h2⟩
    · exact absurd h h1
  · exact Or.inl h

theorem getlines_append (p s : Bytes) : getlines (p ++ 0x0a :: s) = getlines (p ++ [0x0a]) ++ getlines s := by
  obtain ⟨n, hlen⟩ : ∃ n, p.length = n := ⟨_, rfl⟩
  induction n using Nat.strongRecOn generalizing p with
  | _ n ih =>
    rcases newline_cases p with h | ⟨body, rest, rfl, h⟩
    · rw [getlines_cut p s h, getlines_cut p [] h]; rfl
    · rw [List.append_assoc, List.cons_append, getlines_cut _ _ h, List.append_assoc, List.cons_append, getlines_cut _ _ h,
        ih rest.length (by rw [← hlen]; simp; omega) rest rfl]
      rfl

/-- `getline` yields the lines of the text. -/
theorem mem_getlines (text line : Bytes) : line ∈ getlines text ↔ IsLine text line := by
  constructor
  · obtain ⟨n, hlen⟩ : ∃ n, text.length = n := ⟨_, rfl⟩
    induction n using Nat.strongRecOn generalizing text with
    | _ n ih =>
      intro hm
      rcases newline_cases text with h | ⟨body, rest, rfl, h⟩
      · cases text with
        | nil => cases hm
        | cons c t =>
          rw [getlines_last _ (by simp) h, List.mem_singleton] at hm
          subst hm
          exact ⟨[], [], by simp, Or.inl rfl, Or.inr ⟨rfl, by simp, h⟩⟩
      · rw [getlines_cut _ _ h] at hm
        rcases List.mem_cons.1 hm with rfl | hm
        · exact ⟨[], rest, by simp, Or.inl rfl, Or.inl ⟨body, rfl, h⟩⟩
        · obtain ⟨pre, post, e, hp, hl⟩ := ih rest.length (by rw [← hlen]; simp; omega) rest rfl hm
          refine ⟨body ++ 0x0a :: pre, post, by rw [e]; simp, Or.inr ?_, hl⟩
          rcases hp with rfl | ⟨p, rfl⟩
          · exact ⟨body, rfl⟩
          · exact ⟨body ++ 0x0a :: p, by simp⟩
  · rintro ⟨pre, post, rfl, hp, hl⟩
    have hmem : line ∈ getlines (line ++ post) := by
      rcases hl with ⟨body, rfl, h⟩ | ⟨rfl, h0, h⟩
      · rw [List.append_assoc, List.singleton_append, getlines_cut _ _ h]; simp
      · rw [List.append_nil, getlines_last _ h0 h]; simp
    rcases hp with rfl | ⟨p, rfl⟩
    · exact hmem
    · rw [List.append_assoc, List.append_assoc, List.singleton_append, getlines_append]
      exact List.mem_append.2 (Or.inr hmem)

/-! ## Loops -/

theorem mapM_ok {α β : Type} (f : α → Outcome β) (l : List α) (h : ∀ a ∈ l, ∃ b, f a = .ok b) : ∃ r, l.mapM f = .ok r := by
  induction l with
  | nil => exact ⟨[], rfl⟩
  | cons a l ih =>
    obtain ⟨b, hb⟩ := h a (by simp)
    obtain ⟨r, hr⟩ := ih fun a ha => h a (List.mem_cons_of_mem _ ha)
    exact ⟨b :: r, by rw [List.mapM_cons, hb, Outcome.bind_ok, hr]; rfl⟩

theorem mapM_inv {α β : Type} (f : α → Outcome β) (l : List α) (r : List β) (h : l.mapM f = .ok r) :
    (∀ a ∈ l, ∃ b, f a = .ok b) ∧ ∀ b, b ∈ r ↔ ∃ a ∈ l, f a = .ok b := by
  obtain ⟨ps, rfl, rfl, hp⟩ := (mapM_ok_iff f l r).1 h
  constructor
  · intro a ha
    obtain ⟨p, hm, rfl⟩ := List.mem_map.1 ha
    exact ⟨p.2, hp p hm⟩
  · intro b
    constructor
    · intro hb
      obtain ⟨p, hm, rfl⟩ := List.mem_map.1 hb
      exact ⟨p.1, List.mem_map.2 ⟨p, hm, rfl⟩, hp p hm⟩
    · rintro ⟨a, ha, e⟩
      obtain ⟨p, hm, rfl⟩ := List.mem_map.1 ha
      rw [hp p hm] at e
      cases e
      exact List.mem_map.2 ⟨p, hm, rfl⟩

/-! ## Parsing -/

theorem getlines_like (text : Bytes) : ∀ l ∈ getlines text, LineLike l := by
  intro l hl
  obtain ⟨pre, post, _, _, ⟨body, h, hn⟩ | ⟨_, _, hn⟩⟩ := (mem_getlines _ _).1 hl
  · exact Or.inl ⟨body, h, hn⟩
  · exact Or.inr hn

/-- Only defined lines are accepted, and these do not depend on the buffer. -/
theorem lines_plain (text : Bytes) (r : List (List FasmFeature)) :
    assembleLines [] (getlines text) = .ok r ↔ (getlines text).mapM plainLine = .ok r :=
  assembleLines_ok _ (getlines_like text) [] r

theorem lines_err (text : Bytes) (h : (getlines text).mapM plainLine = .err) : assembleLines [] (getlines text) = .err :=
  assembleLines_err _ (getlines_like text) [] h

theorem plainLine_ok (line : Bytes) (fs : List FasmFeature) (h : plainLine line = .ok fs) :
    ∃ st, Fasm.parse true (fun _ => true) line = .ok st ∧ (st.result ≠ .userAbort ∧ st.result ≠ .error) ∧
      fs = st.trace.filterMap toFeature := by
  unfold plainLine at h
  cases hp : Fasm.parse true (fun _ => true) line with
  | oob => rw [hp] at h; cases h
  | shift => rw [hp] at h; cases h
  | ok st =>
    rw [hp] at h
    dsimp only at h
    by_cases hr : st.result = .userAbort ∨ st.result = .error
    · rw [if_pos hr] at h; cases h
    · rw [if_neg hr] at h
      exact ⟨st, rfl, not_or.1 hr, (Outcome.ok.inj h).symm⟩

theorem mem_toFeature (tr : List Fasm.Event) (F : FasmFeature) :
    F ∈ tr.filterMap toFeature ↔ ∃ n, Fasm.Event.feature n F.name F.start F.width F.bits ∈ tr ∧ F.line = n := by
  rw [List.mem_filterMap]
  constructor
  · rintro ⟨e, he, h⟩
    cases e with
    | feature n name start width bits => cases h; exact ⟨n, he, rfl⟩
    | annotation => cases h
  · rintro ⟨n, h, e⟩
    refine ⟨_, h, ?_⟩
    cases F
    dsimp only at e
    subst e
    rfl

theorem parsed_ok (text : Bytes) (h : LinesOk text) : ∃ r, (getlines text).mapM plainLine = .ok r := by
  refine mapM_ok _ _ ?_
  intro line hl
  obtain ⟨st, h1, h2, h3⟩ := h line ((mem_getlines _ _).1 hl)
  refine ⟨st.trace.filterMap toFeature, ?_⟩
  unfold plainLine
  rw [h1]
  dsimp only
  rw [if_neg (not_or.2 ⟨h2, h3⟩)]

theorem parsed_inv (text : Bytes) (r : List (List FasmFeature)) (h : (getlines text).mapM plainLine = .ok r) :
    LinesOk text ∧ ∀ F, F ∈ r.flatten ↔ Written text F := by
  obtain ⟨h1, h2⟩ := mapM_inv _ _ _ h
  constructor
  · intro line hl
    obtain ⟨fs, hf⟩ := h1 line ((mem_getlines _ _).2 hl)
    obtain ⟨st, h3, h4, _⟩ := plainLine_ok line fs hf
    exact ⟨st, h3, h4⟩
  · intro F
    rw [List.mem_flatten]
    constructor
    · rintro ⟨fs, hfs, hF⟩
      obtain ⟨line, hl, hf⟩ := (h2 fs).1 hfs
      obtain ⟨st, h3, h4, rfl⟩ := plainLine_ok line fs hf
      obtain ⟨n, h5, h6⟩ := (mem_toFeature _ _).1 hF
      exact ⟨line, st, n, (mem_getlines _ _).1 hl, h3, h5, h6⟩
    · rintro ⟨line, st, n, hl, h3, h5, h6⟩
      have hl' := (mem_getlines _ _).2 hl
      obtain ⟨fs, hf⟩ := h1 line hl'
      obtain ⟨st', h3', _, rfl⟩ := plainLine_ok line fs hf
      rw [h3] at h3'
      cases h3'
      exact ⟨_, (h2 _).2 ⟨line, hl', hf⟩, (mem_toFeature _ _).2 ⟨n, h5, h6⟩⟩

/-! ## Sites -/

theorem lastCode_iff (site : Bytes) (y : Int) : lastCode site = .ok y ↔
    ∃ pre c, site = pre ++ [c] ∧ y = if c.toNat < 128 then (c.toNat : Int) else (c.toNat : Int) - 256 := by
  unfold lastCode
  cases h : site.getLast? with
  | none =>
    rw [List.getLast?_eq_none_iff] at h
    subst h
    simp
  | some c =>
    obtain ⟨pre, rfl⟩ := List.getLast?_eq_some_iff.1 h
    dsimp only
    constructor
    · intro e; exact ⟨pre, c, rfl, (Outcome.ok.inj e).symm⟩
    · rintro ⟨pre', c', e, rfl⟩
      obtain ⟨_, e⟩ := List.append_inj' e rfl
      cases e; rfl

theorem iobSite_iff (pin site : Bytes) : iobSite pin = .ok site ↔ IobName pin site := by
  unfold iobSite
  rw [Outcome.bind_eq_ok]
  constructor
  · rintro ⟨y, h1, h2⟩
    obtain ⟨pre, c, rfl, hy⟩ := (lastCode_iff _ _).1 h1
    by_cases hn : y < 0
    · rw [if_pos hn] at h2; cases h2
    rw [if_neg hn] at h2
    have hc := c.toNat_lt
    have hc' : c.toNat < 128 := by
      by_cases hc' : c.toNat < 128
      · exact hc'
      · rw [if_neg hc'] at hy; omega
    rw [if_pos hc'] at hy
    subst hy
    refine ⟨pre, c, rfl, hc', ?_⟩
    rw [← Outcome.ok.inj h2]
    unfold iobY kIobY
    congr 1
    by_cases hp : c.toNat % 2 = 0
    · rw [if_pos hp, if_pos (by omega)]
    · rw [if_neg hp, if_neg (by omega), if_pos (by omega)]
  · rintro ⟨pre, c, rfl, hc, rfl⟩
    refine ⟨(c.toNat : Int), (lastCode_iff _ _).2 ⟨pre, c, rfl, by rw [if_pos hc]⟩, ?_⟩
    rw [if_neg (by omega)]
    congr 1
    unfold iobY kIobY
    congr 1
    by_cases hp : c.toNat % 2 = 0
    · rw [if_pos hp, if_pos (by omega)]
    · rw [if_neg hp, if_neg (by omega), if_pos (by omega)]

/-! ## PUDC_B -/

/-- Tile and pin of the first PUDC_B function. -/
def firstPin : TileGrid → Option (Bytes × Bytes)
  | [] => none
  | (tile, info) :: rest => match info.pinFunctions.find? fun e => contains kPudcB e.2 with
    | some e => some (tile, e.1)
    | none => firstPin rest

theorem findPUDCB_eq (grid : TileGrid) : findPUDCB grid = match firstPin grid with
    | none => .ok none
    | some (tile, pin) => (lastCode pin) >>= fun y => .ok (some (tile, iobY (y.tmod 2))) := by
  induction grid with
  | nil => rfl
  | cons e g ih =>
    obtain ⟨tile, info⟩ := e
    unfold findPUDCB firstPin
    cases info.pinFunctions.find? fun e => contains kPudcB e.2 with
    | some e => rfl
    | none => exact ih

theorem find_iff {α : Type} (p : α → Bool) (l : List α) (x : α) :
    l.find? p = some x ↔ ∃ a b, l = a ++ x :: b ∧ p x = true ∧ ∀ e ∈ a, p e = false := by
  rw [List.find?_eq_some_iff_append]
  constructor
  · rintro ⟨h1, a, b, h2, h3⟩
    exact ⟨a, b, h2, h1, fun e he => by simpa using h3 e he⟩
  · rintro ⟨a, b, h1, h2, h3⟩
    exact ⟨h2, a, b, h1, fun e he => by simpa using h3 e he⟩

theorem firstPin_iff (grid : TileGrid) (tile pin : Bytes) : firstPin grid = some (tile, pin) ↔ FirstPudcB grid tile pin := by
  induction grid with
  | nil =>
    constructor
    · intro h; cases h
    · rintro ⟨g1, info, g2, p1, fn, p2, h, _⟩
      simp at h
  | cons e g ih =>
    obtain ⟨tl, info⟩ := e
    unfold firstPin
    cases hf : info.pinFunctions.find? fun e => contains kPudcB e.2 with
    | some e =>
      obtain ⟨pin', fn⟩ := e
      obtain ⟨a, b, h1, h2, h3⟩ := (find_iff _ _ _).1 hf
      have h2' : Occurs kPudcB fn := (contains_iff _ _).1 h2
      dsimp only
      constructor
      · intro h
        cases h
        refine ⟨[], info, g, a, fn, b, rfl, h1, h2', ?_, by simp⟩
        intro e he ho
        have := h3 e he
        rw [show contains kPudcB e.2 = true from (contains_iff _ _).2 ho] at this; cases this
      · rintro ⟨g1, info', g2, p1, fn', p2, h, hp, ho, hp1, hg1⟩
        cases g1 with
        | nil =>
          rw [List.nil_append, List.cons.injEq, Prod.mk.injEq] at h
          obtain ⟨⟨rfl, rfl⟩, rfl⟩ := h
          have : info.pinFunctions.find? (fun e => contains kPudcB e.2) = some (pin, fn') := by
            rw [find_iff]
            refine ⟨p1, p2, hp, (contains_iff _ _).2 ho, ?_⟩
            intro e he
            have := hp1 e he
            rw [← contains_iff] at this
            exact Bool.not_eq_true _ ▸ this
          rw [hf] at this
          cases this
          rfl
        | cons x g1 =>
          rw [List.cons_append, List.cons.injEq] at h
          obtain ⟨rfl, rfl⟩ := h
          exact absurd h2' (hg1 (tl, info) (by simp) (pin', fn) (by rw [h1]; simp))
    | none =>
      have hnone : ∀ p ∈ info.pinFunctions, ¬ Occurs kPudcB p.2 := by
        intro p hp ho
        have := List.find?_eq_none.1 hf p hp
        rw [(contains_iff _ _).2 ho] at this
        exact this rfl
      dsimp only
      rw [ih]
      constructor
      · rintro ⟨g1, info', g2, p1, fn', p2, h, hp, ho, hp1, hg1⟩
        refine ⟨(tl, info) :: g1, info', g2, p1, fn', p2, by rw [h]; rfl, hp, ho, hp1, ?_⟩
        intro e he
        rcases List.mem_cons.1 he with rfl | he
        · exact hnone
        · exact hg1 e he
      · rintro ⟨g1, info', g2, p1, fn', p2, h, hp, ho, hp1, hg1⟩
        cases g1 with
        | nil =>
          rw [List.nil_append, List.cons.injEq, Prod.mk.injEq] at h
          obtain ⟨⟨rfl, rfl⟩, rfl⟩ := h
          exact absurd ho (hnone (pin, fn') (by rw [hp]; simp))
        | cons x g1 =>
          rw [List.cons_append, List.cons.injEq] at h
          obtain ⟨rfl, rfl⟩ := h
          exact ⟨g1, info', g2, p1, fn', p2, rfl, hp, ho, hp1, fun e he => hg1 e (List.mem_cons_of_mem _ he)⟩

theorem made_iff (F : FasmFeature) (n : Bytes) : (Made F ∧ F.name = n) ↔ F = added n := by
  cases F
  unfold Made added
  simp only [FasmFeature.mk.injEq]
  constructor
  · rintro ⟨⟨rfl, rfl, rfl, rfl⟩, rfl⟩; exact ⟨rfl, rfl, rfl, rfl, rfl⟩
  · rintro ⟨rfl, rfl, rfl, rfl, rfl⟩; exact ⟨⟨rfl, rfl, rfl, rfl⟩, rfl⟩

theorem pudcSite_iff (pin site : Bytes) : ((lastCode pin) >>= fun y => Outcome.ok (iobY (y.tmod 2))) = .ok site ↔ PudcSite pin site := by
  have key : ∀ pre (c : UInt8), ((lastCode (pre ++ [c])) >>= fun y => Outcome.ok (iobY (y.tmod 2))) =
      .ok (bytes!"IOB_Y" ++ (if c.toNat % 2 = 0 then bytes!"0" else if c.toNat < 128 then bytes!"1" else bytes!"-1")) := by
    intro pre c
    unfold lastCode
    rw [List.getLast?_concat]
    dsimp only
    rw [Outcome.bind_ok]
    refine congrArg Outcome.ok ?_
    have : ∀ c : Fin 256, iobY ((if c.val < 128 then (c.val : Int) else (c.val : Int) - 256).tmod 2) =
        bytes!"IOB_Y" ++ (if c.val % 2 = 0 then bytes!"0" else if c.val < 128 then bytes!"1" else bytes!"-1") := by decide +kernel
    exact this ⟨c.toNat, c.toNat_lt⟩
  constructor
  · intro h
    obtain ⟨y, hy, _⟩ := Outcome.bind_eq_ok.1 h
    have hne : pin ≠ [] := by rintro rfl; cases hy
    obtain ⟨pre, c, rfl⟩ : ∃ pre c, pin = pre ++ [c] := ⟨pin.dropLast, pin.getLast hne, (List.dropLast_concat_getLast hne).symm⟩
    rw [key] at h
    exact ⟨pre, c, rfl, (Outcome.ok.inj h).symm⟩
  · rintro ⟨pre, c, rfl, rfl⟩
    exact key pre c

theorem pudcSite_unique {pin s s' : Bytes} (h : PudcSite pin s) (h' : PudcSite pin s') : s = s' := by
  have h1 := (pudcSite_iff pin s).2 h
  rw [(pudcSite_iff pin s').2 h'] at h1
  exact (Outcome.ok.inj h1).symm

theorem pudcSite_exists {pin : Bytes} (h : pin ≠ []) : ∃ site, PudcSite pin site :=
  ⟨_, pin.dropLast, pin.getLast h, (List.dropLast_concat_getLast h).symm, rfl⟩

theorem iobName_unique {pin s s' : Bytes} (h : IobName pin s) (h' : IobName pin s') : s = s' := by
  have h1 := (iobSite_iff pin s).2 h
  rw [(iobSite_iff pin s').2 h'] at h1
  exact (Outcome.ok.inj h1).symm

theorem pudcNames_eq (tile site : Bytes) : pudcNames tile site = [kInOnly, kIn, kPullup].map fun t => tile ++ 0x2e :: (site ++ 0x2e :: t) := rfl

theorem pudcb_ok (grid : TileGrid) (h : PudcOk grid) : ∃ fs, pudcbFeatures grid = .ok fs ∧ ∀ F, F ∈ fs ↔ PudcFeature grid F := by
  unfold pudcbFeatures
  rw [findPUDCB_eq]
  cases hf : firstPin grid with
  | none =>
    refine ⟨[], rfl, ?_⟩
    intro F
    constructor
    · intro h; cases h
    · rintro ⟨tile, pin, site, h1, _⟩
      rw [(firstPin_iff _ _ _).2 h1] at hf; cases hf
  | some p =>
    obtain ⟨tile, pin⟩ := p
    have hp := (firstPin_iff _ _ _).1 hf
    obtain ⟨site, hs⟩ := pudcSite_exists (h tile pin hp)
    obtain ⟨y, hy, hye⟩ := Outcome.bind_eq_ok.1 ((pudcSite_iff pin site).2 hs)
    dsimp only
    rw [hy, Outcome.bind_ok, Outcome.bind_ok]
    dsimp only
    rw [Outcome.ok.inj hye]
    refine ⟨_, rfl, ?_⟩
    intro F
    rw [List.mem_map]
    constructor
    · rintro ⟨t, ht, e⟩
      obtain ⟨h1, h2⟩ := (made_iff F _).2 e.symm
      exact ⟨tile, pin, site, hp, hs, h1, (pudcNames_eq tile site).symm ▸ List.mem_map.2 ⟨t, ht, h2.symm⟩⟩
    · rintro ⟨tile', pin', site', hp', hs', hm, hn⟩
      rw [(firstPin_iff _ _ _).2 hp'] at hf
      cases hf
      rw [pudcSite_unique hs' hs, pudcNames_eq] at hn
      obtain ⟨t, ht, e⟩ := List.mem_map.1 hn
      exact ⟨t, ht, ((made_iff F _).1 ⟨hm, e.symm⟩).symm⟩

theorem pudcb_inv (grid : TileGrid) (fs : List FasmFeature) (h : pudcbFeatures grid = .ok fs) : PudcOk grid := by
  rintro tile pin hp rfl
  unfold pudcbFeatures at h
  rw [findPUDCB_eq, (firstPin_iff _ _ _).2 hp] at h
  cases h

end Verif.Asm
