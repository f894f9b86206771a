import Verif.Model.DbText
import Verif.Proofs.Text
/-! # Text database parsers: proofs -/
namespace Verif.Db
open Verif.Text Verif.Spec

/-! ## Lines -/

theorem skipToEol_line (after : Option UInt8) (l r : Bytes) (hl : (0x0a : UInt8) ∉ l) :
    skipToEol after (l ++ 0x0a :: r) = .ok (l, 0x0a :: r) := by
  induction l with
  | nil => simp [skipToEol]
  | cons c l ih =>
    simp only [List.mem_cons, not_or] at hl
    rw [List.cons_append, skipToEol, if_pos (fun h => hl.1 h.symm), ih hl.2]
    rfl

theorem skipToEol_last (b : UInt8) (l : Bytes) (hl : (0x0a : UInt8) ∉ l) :
    skipToEol (some b) l = .ok (l, []) := by
  induction l with
  | nil => simp [skipToEol]
  | cons c l ih =>
    simp only [List.mem_cons, not_or] at hl
    rw [skipToEol, if_pos (fun h => hl.1 h.symm), ih hl.2]
    rfl

theorem skipToEol_overread (l : Bytes) (hl : (0x0a : UInt8) ∉ l) : skipToEol none l = .ub := by
  induction l with
  | nil => simp [skipToEol]
  | cons c l ih =>
    simp only [List.mem_cons, not_or] at hl
    rw [skipToEol, if_pos (fun h => hl.1 h.symm), ih hl.2]
    rfl

/-- Feeding numbered lines to a sink. -/
def feed {σ : Type} (sink : σ → Nat → Bytes → Outcome σ) : Nat → List Bytes → σ → Outcome σ
  | _, [], st => .ok st
  | n, l :: ls, st => do
    let st' ← sink st ((n + 1) % 2 ^ 32) l
    feed sink (n + 1) ls st'

theorem linesLoop_unlines {σ : Type} (after : Option UInt8) (sink : σ → Nat → Bytes → Outcome σ) (ls : List Bytes)
    (tail : Bytes) (hl : ∀ l ∈ ls, (0x0a : UInt8) ∉ l) (fuel n : Nat) (st : σ)
    (hf : (unlines ls ++ tail).length ≤ fuel) :
    ∃ fuel', tail.length ≤ fuel' ∧
    linesLoop after sink fuel (unlines ls ++ tail) (n % 2 ^ 32) st =
      (feed sink n ls st >>= fun st' => linesLoop after sink fuel' tail ((n + ls.length) % 2 ^ 32) st') := by
  induction ls generalizing fuel n st with
  | nil => exact ⟨fuel, by simpa [unlines] using hf, by simp [unlines, feed]⟩
  | cons l ls ih =>
    have e : unlines (l :: ls) ++ tail = l ++ 0x0a :: (unlines ls ++ tail) := by
      simp [unlines, List.append_assoc]
    rw [e] at hf ⊢
    cases fuel with
    | zero => simp at hf
    | succ fuel =>
      have hlen : (unlines ls ++ tail).length ≤ fuel := by simp at hf ⊢; omega
      have hsk := skipToEol_line after l (unlines ls ++ tail) (hl l (by simp))
      have hstep : linesLoop after sink (fuel + 1) (l ++ 0x0a :: (unlines ls ++ tail)) (n % 2 ^ 32) st =
          (sink st ((n + 1) % 2 ^ 32) l >>= fun st' =>
            linesLoop after sink fuel (unlines ls ++ tail) ((n + 1) % 2 ^ 32) st') := by
        have hm : (n % 2 ^ 32 + 1) % 2 ^ 32 = (n + 1) % 2 ^ 32 := by omega
        rw [linesLoop.eq_def]
        dsimp only
        split
        · rename_i h; simp at h
        · rename_i h
          rw [hsk, hm]
          simp only [Outcome.bind_ok, List.tail_cons]
      rw [hstep]
      simp only [feed]
      cases hs : sink st ((n + 1) % 2 ^ 32) l with
      | err => exact ⟨tail.length, Nat.le_refl _, rfl⟩
      | abort => exact ⟨tail.length, Nat.le_refl _, rfl⟩
      | ub => exact ⟨tail.length, Nat.le_refl _, rfl⟩
      | ok st' =>
        obtain ⟨f', hf', h⟩ := ih (fun l hl' => hl l (by simp [hl'])) fuel (n + 1) st' hlen
        refine ⟨f', hf', ?_⟩
        simp only [Outcome.bind_ok, h, List.length_cons]
        rw [show n + 1 + ls.length = n + (ls.length + 1) by omega]

theorem feed_append {σ : Type} (sink : σ → Nat → Bytes → Outcome σ) (n : Nat) (a b : List Bytes) (st : σ) :
    feed sink n (a ++ b) st = (feed sink n a st >>= fun st' => feed sink (n + a.length) b st') := by
  induction a generalizing n st with
  | nil => simp [feed]
  | cons l a ih =>
    simp only [List.cons_append, feed, List.length_cons]
    cases sink st ((n + 1) % 2 ^ 32) l with
    | ok st' => simp only [Outcome.bind_ok, ih]; rw [show n + 1 + a.length = n + (a.length + 1) by omega]
    | _ => rfl

theorem linesGenerator_lines {σ : Type} (b : UInt8) (sink : σ → Nat → Bytes → Outcome σ) (content : Bytes)
    (ls : List Bytes) (h : LinesOf content ls) (st : σ) :
    linesGenerator (some b) content sink st = feed sink 0 ls st := by
  obtain ⟨hnl, hc⟩ := h
  unfold linesGenerator
  rcases hc with rfl | ⟨init, last, rfl, hne, rfl⟩
  · obtain ⟨f', _, h⟩ := linesLoop_unlines (some b) sink ls [] hnl (unlines ls).length 0 st (by simp)
    rw [List.append_nil] at h
    rw [show (0 : Nat) = 0 % 2 ^ 32 from rfl, h]
    have : ∀ f n (s : σ), linesLoop (some b) sink f [] n s = .ok s := by
      intro f n s; cases f <;> rfl
    simp only [this]
    cases feed sink 0 ls st <;> rfl
  · obtain ⟨f', hf', h⟩ := linesLoop_unlines (some b) sink init last (fun l hl => hnl l (by simp [hl]))
      (unlines init ++ last).length 0 st (Nat.le_refl _)
    rw [show (0 : Nat) = 0 % 2 ^ 32 from rfl, h, feed_append]
    congr 1
    funext s
    cases hlast : last with
    | nil => exact absurd hlast hne
    | cons c r =>
      rw [hlast] at hf'
      cases f' with
      | zero => simp at hf'
      | succ f' =>
        have hsk := skipToEol_last b (c :: r) (by rw [← hlast]; exact hnl last (by simp))
        rw [linesLoop]
        simp only [hsk, Outcome.bind_ok, feed, List.tail_nil]
        have : ∀ f n (s : σ), linesLoop (some b) sink f [] n s = .ok s := by
          intro f n s; cases f <;> rfl
        simp only [this]
        have hm : ((0 + init.length) % 2 ^ 32 + 1) % 2 ^ 32 = (0 + init.length + 1) % 2 ^ 32 := by omega
        rw [hm]

theorem linesGenerator_terminated {σ : Type} (after : Option UInt8) (sink : σ → Nat → Bytes → Outcome σ)
    (ls : List Bytes) (hnl : ∀ l ∈ ls, (0x0a : UInt8) ∉ l) (st : σ) :
    linesGenerator after (unlines ls) sink st = feed sink 0 ls st := by
  unfold linesGenerator
  obtain ⟨f', _, h⟩ := linesLoop_unlines after sink ls [] hnl (unlines ls).length 0 st (by simp)
  rw [List.append_nil] at h
  rw [show (0 : Nat) = 0 % 2 ^ 32 from rfl, h]
  have : ∀ f n (s : σ), linesLoop after sink f [] n s = .ok s := by
    intro f n s; cases f <;> rfl
  simp only [this]
  cases feed sink 0 ls st <;> rfl

theorem linesGenerator_overread {σ : Type} (sink : σ → Nat → Bytes → Outcome σ)
    (init : List Bytes) (last : Bytes) (hne : last ≠ []) (hnl : ∀ l ∈ init ++ [last], (0x0a : UInt8) ∉ l) (st st' : σ)
    (hok : feed sink 0 init st = .ok st') :
    linesGenerator none (unlines init ++ last) sink st = .ub := by
  unfold linesGenerator
  obtain ⟨f', hf', h⟩ := linesLoop_unlines none sink init last (fun l hl => hnl l (by simp [hl]))
    (unlines init ++ last).length 0 st (Nat.le_refl _)
  rw [show (0 : Nat) = 0 % 2 ^ 32 from rfl, h]
  show (feed sink 0 init st >>= _) = _
  rw [hok, Outcome.bind_ok]
  cases hlast : last with
  | nil => exact absurd hlast hne
  | cons c r =>
    rw [hlast] at hf'
    cases f' with
    | zero => simp at hf'
    | succ f' =>
      rw [linesLoop]
      simp only [skipToEol_overread (c :: r) (by rw [← hlast]; exact hnl last (by simp)), Outcome.bind_ub]

theorem linesOf_exists (content : Bytes) : ∃ ls, LinesOf content ls := by
  obtain ⟨n, hn⟩ : ∃ n, content.length = n := ⟨_, rfl⟩
  induction n using Nat.strongRecOn generalizing content with
  | ind n ih =>
    cases content with
    | nil => exact ⟨[], by simp [LinesOf, unlines]⟩
    | cons c r =>
      let p : UInt8 → Bool := fun x => x ≠ 0x0a
      have e : (c :: r).takeWhile p ++ (c :: r).dropWhile p = c :: r := List.takeWhile_append_dropWhile
      have hnl : (0x0a : UInt8) ∉ (c :: r).takeWhile p := by
        intro hm
        have := List.all_eq_true.1 (List.all_takeWhile (p := p) (l := c :: r)) _ hm
        simp [p] at this
      cases hd : (c :: r).dropWhile p with
      | nil =>
        rw [hd, List.append_nil] at e
        refine ⟨[c :: r], ?_, Or.inr ⟨[], c :: r, rfl, by simp, by simp [unlines]⟩⟩
        intro l hl
        rw [List.mem_singleton.1 hl, ← e]; exact hnl
      | cons x rest =>
        have hx : x = 0x0a := by
          have := List.head?_dropWhile_not p (c :: r)
          rw [hd] at this
          simpa [p] using this
        subst hx
        rw [hd] at e
        have hlen : rest.length < n := by
          have h1 := congrArg List.length e
          simp only [List.length_append, List.length_cons] at h1 hn
          omega
        obtain ⟨ls, h1, h2⟩ := ih _ hlen rest rfl
        refine ⟨(c :: r).takeWhile p :: ls, ?_, ?_⟩
        · intro l hl
          rcases List.mem_cons.1 hl with rfl | hl
          · exact hnl
          · exact h1 l hl
        · generalize (c :: r).takeWhile p = t at e
          rw [← e]
          rcases h2 with rfl | ⟨init, last, rfl, hne, rfl⟩
          · exact Or.inl (by simp [unlines])
          · exact Or.inr ⟨t :: init, last, rfl, hne, by simp [unlines, List.append_assoc]⟩

/-! ## Files made of independent lines -/

/-- Sinks that read an optional entry from a line and insert it. -/
def entrySink {κ ν : Type} [BEq κ] (p : Bytes → Outcome (Option (κ × ν))) (m : List (κ × ν)) (_ : Nat) (l : Bytes) :
    Outcome (List (κ × ν)) := do
  let e ← p l
  match e with
  | none => pure m
  | some e => pure (insertNew m e.1 e.2)

theorem feed_entries {κ ν : Type} [BEq κ] (p : Bytes → Outcome (Option (κ × ν)))
    (ls : List (Bytes × Option (κ × ν))) (h : ∀ l ∈ ls, p l.1 = .ok l.2) (n : Nat) (m : List (κ × ν)) :
    feed (entrySink p) n (ls.map (·.1)) m = .ok (insertAll m (ls.filterMap (·.2))) := by
  induction ls generalizing n m with
  | nil => rfl
  | cons l ls ih =>
    have hl := h l (by simp)
    simp only [List.map_cons, feed, entrySink, hl, Outcome.bind_ok]
    cases he : l.2 with
    | none =>
      simp only [Outcome.pure_eq, Outcome.bind_ok]
      rw [ih (fun l hl => h l (by simp [hl]))]
      simp [List.filterMap_cons, he]
    | some e =>
      simp only [Outcome.pure_eq, Outcome.bind_ok]
      rw [ih (fun l hl => h l (by simp [hl]))]
      simp [List.filterMap_cons, he, insertAll]

/-- The first failing line decides. -/
theorem feed_err {σ : Type} (sink : σ → Nat → Bytes → Outcome σ) (ls : List Bytes)
    (hok : ∀ l ∈ ls, ∀ st n, (∃ s, sink st n l = .ok s) ∨ sink st n l = .err)
    (l : Bytes) (hl : l ∈ ls) (hbad : ∀ st n, sink st n l = .err) (n : Nat) (st : σ) :
    feed sink n ls st = .err := by
  induction ls generalizing n st with
  | nil => cases hl
  | cons x ls ih =>
    simp only [feed]
    rcases List.mem_cons.1 hl with rfl | hl
    · rw [hbad]; rfl
    · rcases hok x (by simp) st ((n + 1) % 2 ^ 32) with ⟨s, hs⟩ | hs
      · rw [hs, Outcome.bind_ok]
        exact ih (fun l hl => hok l (by simp [hl])) hl _ _
      · rw [hs]; rfl

/-! ## Segment bits -/

theorem mapM_ok_iff {α β : Type} (f : α → Outcome β) (l : List α) (r : List β) :
    l.mapM f = .ok r ↔ ∃ ps : List (α × β), l = ps.map (·.1) ∧ r = ps.map (·.2) ∧ ∀ p ∈ ps, f p.1 = .ok p.2 := by
  induction l generalizing r with
  | nil =>
    simp only [List.mapM_nil, Outcome.pure_eq]
    constructor
    · intro h; cases h; exact ⟨[], rfl, rfl, by simp⟩
    · rintro ⟨ps, h1, rfl, _⟩
      cases ps with
      | nil => rfl
      | cons => simp at h1
  | cons a l ih =>
    rw [List.mapM_cons]
    constructor
    · intro h
      obtain ⟨b, hb, h⟩ := Outcome.bind_eq_ok.1 h
      obtain ⟨bs, hbs, h⟩ := Outcome.bind_eq_ok.1 h
      cases h
      obtain ⟨ps, h1, h2, h3⟩ := (ih bs).1 hbs
      refine ⟨(a, b) :: ps, by simp [h1], by simp [h2], ?_⟩
      intro p hp
      rcases List.mem_cons.1 hp with rfl | hp
      · exact hb
      · exact h3 p hp
    · rintro ⟨ps, h1, rfl, h3⟩
      cases ps with
      | nil => simp at h1
      | cons p ps =>
        simp only [List.map_cons, List.cons.injEq] at h1
        rw [h1.1, h3 p (by simp), Outcome.bind_ok, (ih (ps.map (·.2))).2 ⟨ps, h1.2, rfl, fun q hq => h3 q (by simp [hq])⟩]
        rfl

theorem mapM_cases {α β : Type} (f : α → Outcome β) (l : List α) (h : ∀ a ∈ l, (∃ b, f a = .ok b) ∨ f a = .err) :
    (∃ r, l.mapM f = .ok r) ∨ l.mapM f = .err := by
  induction l with
  | nil => exact Or.inl ⟨[], rfl⟩
  | cons a l ih =>
    rw [List.mapM_cons]
    rcases h a (by simp) with ⟨b, hb⟩ | hb
    · rw [hb, Outcome.bind_ok]
      rcases ih (fun a ha => h a (by simp [ha])) with ⟨r, hr⟩ | hr
      · rw [hr]; exact Or.inl ⟨_, rfl⟩
      · rw [hr]; exact Or.inr rfl
    · rw [hb]; exact Or.inr rfl

theorem uintText_chars {s : Bytes} {n : Nat} (h : UIntText s n) (c : UInt8) (hc : c ∈ s) :
    c ≠ 0x5f ∧ c ≠ 0x21 ∧ c ≠ 0x5b ∧ c ≠ 0x5d := by
  obtain ⟨w, sign, d, w', rfl, hw, hw', hs, ⟨_, hd, _⟩, _⟩ := h
  have hwc : ∀ w : Bytes, White w → c ∈ w → c ≠ 0x5f ∧ c ≠ 0x21 ∧ c ≠ 0x5b ∧ c ≠ 0x5d := by
    intro w hw hc
    rcases hw c hc with rfl | rfl | rfl | rfl | rfl | rfl <;> decide
  simp only [List.mem_append] at hc
  rcases hc with ((hc | hc) | hc) | hc
  · exact hwc w hw hc
  · rcases hs with rfl | rfl
    · cases hc
    · rw [List.mem_singleton.1 hc]; decide
  · have := digit_not_sign (hd c hc)
    exact ⟨this.2.2.1, this.2.2.2.1, this.2.2.2.2.1, this.2.2.2.2.2⟩
  · exact hwc w' hw' hc

theorem uintText_ne_nil {s : Bytes} {n : Nat} (h : UIntText s n) : s ≠ [] := by
  obtain ⟨w, sign, d, w', rfl, _, _, _, ⟨hne, _⟩, _⟩ := h
  simp [hne]

theorem splitBy_two {p : UInt8 → Bool} {s a b : Bytes} (h : splitBy p s = [a, b]) :
    ∃ c, p c = true ∧ s = a ++ c :: b ∧ ∀ x ∈ a, p x = false := by
  induction s generalizing a with
  | nil => simp [splitBy] at h
  | cons x s ih =>
    simp only [splitBy] at h
    split at h
    · rename_i hx
      simp only [List.cons.injEq] at h
      obtain ⟨rfl, h⟩ := h
      refine ⟨x, hx, ?_, by simp⟩
      have : s = b := by
        clear ih
        induction s generalizing b with
        | nil => simp [splitBy] at h; exact h.symm
        | cons y s ih =>
          simp only [splitBy] at h
          split at h
          · have := splitBy_ne_nil p s
            simp only [List.cons.injEq] at h
            exact absurd h.2 this
          · rename_i hy
            cases hs : splitBy p s with
            | nil => exact absurd hs (splitBy_ne_nil p s)
            | cons h' t' =>
              rw [hs] at h
              simp only [List.cons.injEq] at h
              obtain ⟨h1, rfl⟩ := h
              rw [← h1, ih hs]
      rw [this]; rfl
    · rename_i hx
      cases hs : splitBy p s with
      | nil => exact absurd hs (splitBy_ne_nil p s)
      | cons h' t' =>
        rw [hs] at h
        simp only [List.cons.injEq] at h
        obtain ⟨rfl, rfl⟩ := h
        obtain ⟨c, hc, hsc, ha⟩ := ih hs
        refine ⟨c, hc, by rw [hsc]; rfl, ?_⟩
        intro y hy
        rcases List.mem_cons.1 hy with rfl | hy
        · simpa using hx
        · exact ha y hy

theorem segmentBit_iff (s : Bytes) (b : SegmentBit) : segmentBit s = .ok b ↔ BitText s b := by
  constructor
  · intro h
    unfold segmentBit at h
    dsimp only at h
    split at h
    · rename_i c0 c1 hsp
      split at h
      · cases h
      · rename_i wc h0
        split at h
        · cases h
        · rename_i wb h1
          cases h
          obtain ⟨c, hc, hs, _⟩ := splitBy_two hsp
          have hc' : c = 0x5f := by simpa using hc
          subst hc'
          refine ⟨c0, c1, ?_, (atoiU32_iff _ _).1 h0, (atoiU32_iff _ _).1 h1⟩
          dsimp only
          by_cases hset : s.head? = some 0x21
          · simp only [hset] at hs
            simp only [ne_eq, not_true_eq_false, decide_false, Bool.false_eq_true, if_false] at hs
            rw [if_neg (by simp [hset])]
            cases s with
            | nil => simp at hset
            | cons x r =>
              simp only [List.head?_cons, Option.some.injEq] at hset
              subst hset
              simp only [List.drop_succ_cons, List.drop_zero] at hs
              rw [hs]; simp
          · rw [if_pos (by simpa using hset)] at hs ⊢
            rw [hs]; simp
    · cases h
  · rintro ⟨c0, c1, hs, h0, h1⟩
    have hc0 : ∀ c ∈ c0, (decide (c = (0x5f : UInt8))) = false := by
      intro c hc; simpa using (uintText_chars h0 c hc).1
    have hc1 : ∀ c ∈ c1, (decide (c = (0x5f : UInt8))) = false := by
      intro c hc; simpa using (uintText_chars h1 c hc).1
    have hsp : splitBy (fun c => decide (c = (0x5f : UInt8))) (c0 ++ 0x5f :: c1) = [c0, c1] := by
      rw [splitBy_word_sep c0 hc0 (by decide), splitBy_word c1 hc1]
    have ha0 := (atoiU32_iff _ _).2 h0
    have ha1 := (atoiU32_iff _ _).2 h1
    unfold segmentBit
    dsimp only
    cases hset : b.isSet with
    | true =>
      rw [hset] at hs
      simp only [if_true, List.nil_append] at hs
      subst hs
      have hhead : (c0 ++ 0x5f :: c1).head? ≠ some 0x21 := by
        cases c0 with
        | nil => exact absurd rfl (uintText_ne_nil h0)
        | cons x r =>
          simp only [List.cons_append, List.head?_cons, ne_eq, Option.some.injEq]
          exact (uintText_chars h0 x (by simp)).2.1
      rw [if_pos (by simpa using hhead), hsp]
      simp only [ha0, ha1]
      congr 1
      cases b; simp only at hset; simp only [hset, ne_eq, hhead, not_false_eq_true, decide_true]
    | false =>
      rw [hset] at hs
      simp only [Bool.false_eq_true, if_false, List.cons_append, List.nil_append] at hs
      subst hs
      rw [if_neg (by simp)]
      simp only [List.drop_succ_cons, List.drop_zero]
      rw [hsp]
      simp only [ha0, ha1]
      congr 1
      cases b; simp at hset ⊢; simp [hset]

theorem segmentBit_cases (s : Bytes) : (∃ b, segmentBit s = .ok b) ∨ segmentBit s = .err := by
  unfold segmentBit
  dsimp only
  split
  · split
    · exact Or.inr rfl
    · split
      · exact Or.inr rfl
      · exact Or.inl ⟨_, rfl⟩
  · exact Or.inr rfl

theorem rfind_spec (c : UInt8) (a b : Bytes) (hb : c ∉ b) : rfind c (a ++ c :: b) = some a.length := by
  unfold rfind
  have : (a ++ c :: b).reverse.findIdx? (fun x => decide (x = c)) = some b.length := by
    rw [List.findIdx?_eq_some_iff_getElem]
    refine ⟨by simp, ?_, ?_⟩
    · simp
    · intro j hj
      simp only [List.reverse_append, List.reverse_cons, List.append_assoc]
      rw [List.getElem_append_left (by simpa using hj)]
      simp only [List.getElem_reverse, decide_eq_true_eq]
      intro he
      exact hb (he ▸ List.getElem_mem _)
  rw [this]
  simp

theorem rfind_none (c : UInt8) (s : Bytes) (h : c ∉ s) : rfind c s = none := by
  unfold rfind
  have : s.reverse.findIdx? (fun x => decide (x = c)) = none := by
    rw [List.findIdx?_eq_none_iff]
    intro x hx
    have : x ≠ c := fun e => h (e ▸ List.mem_reverse.1 hx)
    simpa using this
  rw [this]; rfl

theorem featureKey_spec (junk : Bytes → Nat) {s : Bytes} {k : TileFeature} (h : FeatureKey s k) :
    featureNameAndAddress junk s = k := by
  unfold featureNameAndAddress
  rcases h with ⟨t, hs, ht⟩ | ⟨hu, rfl⟩
  · have he : endsWith 0x5d s = true := by
      rw [hs]; unfold endsWith
      have : (k.1 ++ 0x5b :: (t ++ bytes!"]")).getLast? = some 0x5d := by
        rw [show k.1 ++ 0x5b :: (t ++ bytes!"]") = (k.1 ++ 0x5b :: t) ++ bytes!"]" by simp, List.getLast?_append]; rfl
      rw [this]; rfl
    rw [if_pos he]
    have hr : rfind 0x5b s = some k.1.length := by
      rw [hs]
      refine rfind_spec _ _ _ ?_
      intro hm
      rcases List.mem_append.1 hm with hm | hm
      · exact (uintText_chars ht _ hm).2.2.1 rfl
      · exact absurd (List.mem_singleton.1 hm) (by decide)
    rw [hr]
    dsimp only
    have hin : (s.drop (k.1.length + 1)).take (s.length - k.1.length - 2) = t := by
      rw [hs]
      have h1 : (k.1 ++ 0x5b :: (t ++ bytes!"]")).drop (k.1.length + 1) = t ++ bytes!"]" := by
        rw [List.drop_append]
        simp
      have h2 : (k.1 ++ 0x5b :: (t ++ bytes!"]")).length - k.1.length - 2 = t.length := by simp
      rw [h1, h2]; simp
    rw [hin, (atoiU32_iff _ _).2 ht]
    dsimp only
    rw [hs]
    simp
  · by_cases he : endsWith 0x5d s = true
    · rw [if_pos he]
      have hl : s.getLast? = some 0x5d := by unfold endsWith at he; simpa using he
      have hn : (0x5b : UInt8) ∉ s := by
        rcases hu with hu | hu
        · exact absurd hl hu
        · exact hu
      rw [rfind_none _ _ hn]
    · rw [if_neg he]

/-- A segbits line as an optional entry. -/
def segEntry (junk : Bytes → Nat) (l : Bytes) : Outcome (Option (TileFeature × List SegmentBit)) :=
  match fields l with
  | [] => .ok none
  | [_] => .err
  | name :: bits => do
    let bs ← bits.mapM segmentBit
    pure (some (featureNameAndAddress junk name, bs))

theorem segbitsLine_eq (junk : Bytes → Nat) : segbitsLine junk = entrySink (segEntry junk) := by
  funext m n l
  unfold segbitsLine entrySink segEntry
  split
  · rename_i h; simp only [h]; rfl
  · rename_i h; simp only [h]; rfl
  · rename_i bits hne h
    simp only [h]
    cases bits.mapM segmentBit <;> rfl

theorem segEntry_spec (junk : Bytes → Nat) {l : Bytes} {e : Option (TileFeature × List SegmentBit)} (h : SegLine l e) :
    segEntry junk l = .ok e := by
  cases h with
  | blank hw => simp [segEntry, fields_white hw]
  | entry name k bits hf hne hk hb =>
    unfold segEntry
    rw [fields_unique hf]
    have hm : (bits.map (·.1)).mapM segmentBit = .ok (bits.map (·.2)) :=
      (mapM_ok_iff _ _ _).2 ⟨bits, rfl, rfl, fun p hp => (segmentBit_iff _ _).2 (hb p hp)⟩
    cases hbits : bits with
    | nil => exact absurd hbits hne
    | cons b bs =>
      rw [hbits] at hm
      simp only [List.map_cons] at hm ⊢
      rw [hm, featureKey_spec junk hk]
      rfl

theorem segEntry_cases (junk : Bytes → Nat) (l : Bytes) : (∃ e, segEntry junk l = .ok e) ∨ segEntry junk l = .err := by
  unfold segEntry
  split
  · exact Or.inl ⟨_, rfl⟩
  · exact Or.inr rfl
  · rename_i bits _ _
    rcases mapM_cases segmentBit bits (fun b _ => segmentBit_cases b) with ⟨r, hr⟩ | hr
    · rw [hr]; exact Or.inl ⟨_, rfl⟩
    · rw [hr]; exact Or.inr rfl

theorem segEntry_bad (junk : Bytes → Nat) {l : Bytes} (h : BadSegLine l) : segEntry junk l = .err := by
  obtain ⟨name, bits, hf, hb⟩ := h
  rcases segEntry_cases junk l with ⟨e, he⟩ | he
  · unfold segEntry at he
    rw [fields_unique hf] at he
    cases hbits : bits with
    | nil => rw [hbits] at he; cases he
    | cons b bs =>
      rw [hbits] at he
      dsimp only at he
      obtain ⟨r, hr, _⟩ := Outcome.bind_eq_ok.1 he
      obtain ⟨ps, h1, h2, h3⟩ := (mapM_ok_iff _ _ _).1 hr
      rcases hb with hb | ⟨x, hx, hbad⟩
      · rw [hbits] at hb; cases hb
      · rw [hbits, h1] at hx
        obtain ⟨p, hp, rfl⟩ := List.mem_map.1 hx
        exact absurd ((segmentBit_iff _ _).1 (h3 p hp)) (hbad p.2)
  · exact he

theorem entrySink_cases {κ ν : Type} [BEq κ] {p : Bytes → Outcome (Option (κ × ν))}
    (h : ∀ l, (∃ e, p l = .ok e) ∨ p l = .err) (l : Bytes) (st : List (κ × ν)) (n : Nat) :
    (∃ s, entrySink p st n l = .ok s) ∨ entrySink p st n l = .err := by
  unfold entrySink
  rcases h l with ⟨e, he⟩ | he
  · rw [he]
    cases e with
    | none => exact Or.inl ⟨_, rfl⟩
    | some e => exact Or.inl ⟨_, rfl⟩
  · rw [he]; exact Or.inr rfl

theorem entrySink_bad {κ ν : Type} [BEq κ] {p : Bytes → Outcome (Option (κ × ν))} {l : Bytes}
    (h : p l = .err) (st : List (κ × ν)) (n : Nat) : entrySink p st n l = .err := by
  unfold entrySink; rw [h]; rfl

/-! ## Pseudo PIPs -/

theorem ppipType_iff (s : Bytes) (t : PseudoPIPType) : ppipType s = .ok t ↔ s = pipWord t := by
  unfold ppipType
  constructor
  · intro h
    split at h
    · rename_i e; cases h; exact e
    · split at h
      · rename_i e; cases h; exact e
      · split at h
        · rename_i e; cases h; exact e
        · cases h
  · rintro rfl
    cases t <;> decide

theorem ppipType_cases (s : Bytes) : (∃ t, ppipType s = .ok t) ∨ ppipType s = .err := by
  unfold ppipType
  repeat' split
  all_goals first | exact Or.inl ⟨_, rfl⟩ | exact Or.inr rfl

/-- A ppips line as an optional entry. -/
def pipEntry (l : Bytes) : Outcome (Option (Bytes × PseudoPIPType)) :=
  if l = [] then .ok none
  else match fields l with
    | [name, t] => do
      let type ← ppipType t
      pure (some (name, type))
    | _ => .err

theorem ppipLine_eq : ppipLine = entrySink pipEntry := by
  funext m n l
  unfold ppipLine entrySink pipEntry
  split
  · rfl
  · split
    · rename_i t h
      simp only [h]
      cases ppipType t <;> rfl
    · rename_i h
      split
      · rename_i h2; exact absurd h2 (h _ _)
      · rfl

theorem pipEntry_iff (l : Bytes) (e : Option (Bytes × PseudoPIPType)) : pipEntry l = .ok e ↔ PipLine l e := by
  constructor
  · intro h
    unfold pipEntry at h
    split at h
    · rename_i hl; cases h; subst hl; exact PipLine.empty
    · split at h
      · rename_i name t hf
        obtain ⟨ty, hty, h⟩ := Outcome.bind_eq_ok.1 h
        cases h
        refine PipLine.entry l name ty ?_
        rw [← (ppipType_iff _ _).1 hty, ← hf]
        exact fields_spec l
      · cases h
  · intro h
    cases h with
    | empty => rfl
    | entry _ name t hf =>
      unfold pipEntry
      have hne : l ≠ [] := by
        rintro rfl
        have := fields_unique hf
        simp [fields, splitBy, skipEmpty] at this
      rw [if_neg hne, fields_unique hf]
      simp only [(ppipType_iff _ _).2 rfl, Outcome.bind_ok]
      rfl

theorem pipEntry_cases (l : Bytes) : (∃ e, pipEntry l = .ok e) ∨ pipEntry l = .err := by
  unfold pipEntry
  split
  · exact Or.inl ⟨_, rfl⟩
  · split
    · rename_i t _
      rcases ppipType_cases t with ⟨t, ht⟩ | ht
      · rw [ht]; exact Or.inl ⟨_, rfl⟩
      · rw [ht]; exact Or.inr rfl
    · exact Or.inr rfl

end Verif.Db
