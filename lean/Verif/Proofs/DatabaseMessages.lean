import Verif.Spec.DatabaseMessages
import Verif.Proofs.JsonMessages
import Verif.Proofs.DbLineMessages
/-! # Lemmas for C104: stages of loading and their messages -/
namespace Verif.Db
open Verif.Text Verif.Spec
open Verif.Fasm (lit printU)

variable {α β : Type} {C : Trouble → Prop}

theorem firstOf_append (cs ds : List (Trouble → Prop)) (t : Trouble) : FirstOf (FirstOf cs :: ds) t ↔ FirstOf (cs ++ ds) t := by
  induction cs with
  | nil =>
    rw [firstOf_cons, List.nil_append]
    exact ⟨fun h => h.elim (fun h => absurd h (firstOf_nil t)) (·.2), fun h => Or.inr ⟨firstOf_nil, h⟩⟩
  | cons c cs ih =>
    rw [firstOf_cons, List.cons_append, firstOf_cons (cs := cs ++ ds), ← ih, firstOf_cons (c := FirstOf cs), firstOf_cons]
    have hno : (∀ t', ¬ FirstOf (c :: cs) t') ↔ (∀ t', ¬ c t') ∧ ∀ t', ¬ FirstOf cs t' := by
      constructor
      · intro h
        have hc : ∀ t', ¬ c t' := fun t' ht => h t' ((firstOf_cons _ _ _).2 (Or.inl ht))
        exact ⟨hc, fun t' ht => h t' ((firstOf_cons _ _ _).2 (Or.inr ⟨hc, ht⟩))⟩
      · rintro ⟨h1, h2⟩ t' ht
        rcases (firstOf_cons _ _ _).1 ht with ht | ht
        · exact h1 t' ht
        · exact h2 t' ht.2
    rw [hno]
    constructor
    · rintro ((h | ⟨h1, h2⟩) | ⟨⟨h1, h2⟩, h3⟩)
      · exact Or.inl h
      · exact Or.inr ⟨h1, Or.inl h2⟩
      · exact Or.inr ⟨h1, Or.inr ⟨h2, h3⟩⟩
    · rintro (h | ⟨h1, h2 | ⟨h2, h3⟩⟩)
      · exact Or.inl (Or.inl h)
      · exact Or.inl (Or.inr ⟨h1, h2⟩)
      · exact Or.inr ⟨⟨h1, h2⟩, h3⟩

/-- Two sequences of stages. -/
theorem tells_append {r : Said α} {f : α → Said β} {cs ds : List (Trouble → Prop)} (h : Tells r (FirstOf cs))
    (hf : ∀ a, r = .ok a → Tells (f a) (FirstOf ds)) : Tells (r >>= f) (FirstOf (cs ++ ds)) :=
  tells_congr (tells_bind h hf) fun t => firstOf_append cs ds t

theorem firstOf_single (c : Trouble → Prop) (t : Trouble) : FirstOf [c] t ↔ c t := by
  rw [firstOf_cons]
  exact ⟨fun h => h.elim id (fun h => absurd h.2 (firstOf_nil t)), Or.inl⟩

/-! ## Lines -/

theorem linesOf_tail {it l : Bytes} {ls : List Bytes} (h : LinesOf it (l :: ls)) :
    (0x0a : UInt8) ∉ l ∧ ((∃ it', it = l ++ 0x0a :: it' ∧ LinesOf it' ls ∧ (it = unlines (l :: ls) ↔ it' = unlines ls)) ∨
      (it = l ∧ l ≠ [] ∧ ls = [])) := by
  obtain ⟨h1, h2⟩ := h
  have hl := h1 l (by simp)
  have hls : ∀ l ∈ ls, (0x0a : UInt8) ∉ l := fun l hl => h1 l (by simp [hl])
  have hu : unlines (l :: ls) = l ++ 0x0a :: unlines ls := by simp [unlines]
  refine ⟨hl, ?_⟩
  rcases h2 with rfl | ⟨init, last, h, hne, rfl⟩
  · exact Or.inl ⟨unlines ls, hu, ⟨hls, Or.inl rfl⟩, by simp⟩
  · cases init with
    | nil =>
      simp only [List.nil_append, List.cons.injEq] at h
      exact Or.inr ⟨by simp [unlines, h.1], h.1 ▸ hne, h.2⟩
    | cons i init =>
      simp only [List.cons_append, List.cons.injEq] at h
      obtain ⟨rfl, rfl⟩ := h
      refine Or.inl ⟨unlines init ++ last, by simp [unlines], ⟨hls, Or.inr ⟨init, last, rfl, hne, rfl⟩⟩, ?_⟩
      rw [hu]
      have e : unlines (l :: init) ++ last = l ++ 0x0a :: (unlines init ++ last) := by simp [unlines]
      rw [e, List.append_cancel_left_eq, List.cons.injEq]
      exact ⟨fun h => h.2, fun h => ⟨rfl, h⟩⟩

/-- Line by line. -/
theorem tells_lines {σ : Type} (behind : Option UInt8) (sink : σ → Nat → Bytes → Said σ) (D : Nat → Bytes → Trouble → Prop)
    (h : ∀ st n l, Tells (sink st n l) (D n l)) (ls : List Bytes) :
    ∀ (it : Bytes) (fuel k : Nat) (st : σ), LinesOf it ls → it.length ≤ fuel →
    Tells (linesLoopM behind sink fuel it (k % 2 ^ 32) st) (FirstOf ((ls.zipIdx k).map fun e => FirstOf
      [fun t => behind = none ∧ it ≠ unlines ls ∧ e.2 + 1 = k + ls.length ∧ t = .undefined, D ((e.2 + 1) % 2 ^ 32) e.1])) := by
  induction ls with
  | nil =>
    intro it fuel k st hl _
    have : it = [] := by
      rcases hl.2 with h | ⟨init, last, h, _⟩
      · simpa [unlines] using h
      · simp at h
    subst this
    have e : linesLoopM behind sink fuel [] (k % 2 ^ 32) st = .ok st := by cases fuel <;> rfl
    rw [e]
    exact tells_done st
  | cons l ls ih =>
    intro it fuel k st hl hf
    obtain ⟨hnl, hc⟩ := linesOf_tail hl
    have hmod : (k % 2 ^ 32 + 1) % 2 ^ 32 = (k + 1) % 2 ^ 32 := by omega
    rcases hc with ⟨it', rfl, hl', hiff⟩ | ⟨rfl, hne, rfl⟩
    · cases fuel with
      | zero => simp at hf
      | succ fuel =>
        have hstep : linesLoopM behind sink (fuel + 1) (l ++ 0x0a :: it') (k % 2 ^ 32) st =
            (sink st ((k + 1) % 2 ^ 32) l >>= fun st' => linesLoopM behind sink fuel it' ((k + 1) % 2 ^ 32) st') := by
          have hcons : ∃ c r, l ++ 0x0a :: it' = c :: r := by cases l <;> simp
          obtain ⟨c, r, hcr⟩ := hcons
          have hs := skipToEol_line behind l it' hnl
          rw [hcr] at hs ⊢
          show (Said.ofOutcome [] (skipToEol behind (c :: r)) >>= _) = _
          rw [hs, hmod]
          rfl
        rw [hstep, List.zipIdx_cons, List.map_cons]
        refine tells_bind (tells_congr (h st _ l) fun t => ?_) fun st' _ => ?_
        · rw [firstOf_cons, firstOf_single]
          constructor
          · intro hd
            by_cases hb : behind = none ∧ l ++ 0x0a :: it' ≠ unlines (l :: ls) ∧ k + 1 = k + (l :: ls).length
            · exfalso
              have h0 : ls = [] := by
                have := hb.2.2
                simp only [List.length_cons] at this
                exact List.eq_nil_of_length_eq_zero (by omega)
              subst h0
              apply hb.2.1
              rw [hiff]
              rcases hl'.2 with h | ⟨init, last, h, _⟩
              · exact h
              · simp at h
            · exact Or.inr ⟨fun t' ht => hb ⟨ht.1, ht.2.1, ht.2.2.1⟩, hd⟩
          · rintro (⟨_, h2, h3, _⟩ | h)
            · exfalso
              have h0 : ls = [] := by
                simp only [List.length_cons] at h3
                exact List.eq_nil_of_length_eq_zero (by omega)
              subst h0
              apply h2
              rw [hiff]
              rcases hl'.2 with h | ⟨init, last, h, _⟩
              · exact h
              · simp at h
            · exact h.2
        · have hlen : it'.length ≤ fuel := by
            simp only [List.length_append, List.length_cons] at hf; omega
          refine tells_congr (ih it' fuel (k + 1) st' hl' hlen) fun t => ?_
          have e : (fun e : Bytes × Nat => FirstOf [fun t => behind = none ∧ it' ≠ unlines ls ∧ e.2 + 1 = k + 1 + ls.length ∧ t = .undefined,
              D ((e.2 + 1) % 2 ^ 32) e.1]) =
              fun e : Bytes × Nat => FirstOf [fun t => behind = none ∧ l ++ 0x0a :: it' ≠ unlines (l :: ls) ∧
                e.2 + 1 = k + (l :: ls).length ∧ t = .undefined, D ((e.2 + 1) % 2 ^ 32) e.1] := by
            funext e
            have e1 : (it' ≠ unlines ls) = (l ++ 0x0a :: it' ≠ unlines (l :: ls)) := propext (by rw [ne_eq, ne_eq, hiff])
            have e2 : k + 1 + ls.length = k + (l :: ls).length := by simp only [List.length_cons]; omega
            simp only [e1, e2]
          rw [e]
    · cases fuel with
      | zero => exact absurd (List.eq_nil_of_length_eq_zero (by omega)) hne
      | succ fuel =>
        have hneq : it ≠ unlines [it] := by
          intro h
          have := congrArg List.length h
          simp [unlines] at this
        have hcons : ∃ c r, it = c :: r := by cases it with
          | nil => exact absurd rfl hne
          | cons c r => exact ⟨c, r, rfl⟩
        rw [List.zipIdx_cons, List.zipIdx_nil, List.map_cons, List.map_nil]
        cases behind with
        | none =>
          have hstep : linesLoopM none sink (fuel + 1) it (k % 2 ^ 32) st = .ub := by
            have hs := skipToEol_overread it hnl
            obtain ⟨c, r, hcr⟩ := hcons
            rw [hcr] at hs ⊢
            show (Said.ofOutcome [] (skipToEol none (c :: r)) >>= _) = _
            rw [hs]
            rfl
          rw [hstep]
          refine ⟨fun t ht => ?_, fun hn => absurd ?_ (hn .undefined)⟩
          · rw [firstOf_single, firstOf_cons] at ht
            rcases ht with ⟨_, _, _, rfl⟩ | ⟨hn, _⟩
            · rfl
            · exact absurd ⟨rfl, hneq, by simp, rfl⟩ (hn .undefined)
          · rw [firstOf_single, firstOf_cons]
            exact Or.inl ⟨rfl, hneq, by simp, rfl⟩
        | some b =>
          have hstep : linesLoopM (some b) sink (fuel + 1) it (k % 2 ^ 32) st = sink st ((k + 1) % 2 ^ 32) it := by
            have hs := skipToEol_last b it hnl
            have hd : ∀ s, linesLoopM (some b) sink fuel [] ((k + 1) % 2 ^ 32) s = .ok s := by intro s; cases fuel <;> rfl
            obtain ⟨c, r, hcr⟩ := hcons
            rw [hcr] at hs ⊢
            show (Said.ofOutcome [] (skipToEol (some b) (c :: r)) >>= _) = _
            rw [hs, hmod]
            show (sink st ((k + 1) % 2 ^ 32) (c :: r) >>= fun st' => linesLoopM (some b) sink fuel [] ((k + 1) % 2 ^ 32) st') = _
            cases sink st ((k + 1) % 2 ^ 32) (c :: r) <;> simp [hd]
          rw [hstep]
          refine tells_congr (h st _ it) fun t => ?_
          rw [firstOf_single, firstOf_cons, firstOf_single]
          constructor
          · intro hd
            exact Or.inr ⟨fun t' ht => absurd ht.1 (by simp), hd⟩
          · rintro (h | h)
            · cases h.1
            · exact h.2

theorem tells_pinLine (st : PackagePins) (n : Nat) (l : Bytes) : Tells (csvLineM st n l) (PinLineTrouble n l) := by
  have hiff : ∀ t, PinLineTrouble n l t ↔ ∃ m, PinBad n l m ∧ t = .says m := by
    intro t
    unfold PinLineTrouble PinBad
    by_cases hn : n = 1
    · simp only [hn, if_pos, true_and, ne_eq, not_true_eq_false, false_and, or_false]
      constructor
      · rintro ⟨h1, h2⟩; exact ⟨_, ⟨h1, rfl⟩, h2⟩
      · rintro ⟨m, ⟨h1, rfl⟩, h2⟩; exact ⟨h1, h2⟩
    · simp only [if_neg hn, hn, false_and, false_or, ne_eq, not_false_eq_true, true_and]
      constructor
      · rintro ⟨w, h1, h2⟩; exact ⟨_, ⟨w, h1, rfl⟩, h2⟩
      · rintro ⟨m, ⟨w, h1, rfl⟩, h2⟩; exact ⟨w, h1, h2⟩
  refine ⟨fun t ht => ?_, fun hn => ?_⟩
  · obtain ⟨m, hb, rfl⟩ := (hiff t).1 ht
    exact (pinBad_iff st n l m).2 hb
  · have hforget := csvLineM_forget st n l
    cases hr : csvLineM st n l with
    | ok a => exact ⟨a, rfl⟩
    | err m => exact absurd ((hiff _).2 ⟨m, (pinBad_iff st n l m).1 hr, rfl⟩) (hn _)
    | abort =>
      exfalso
      unfold csvLineM invalidLineStatus at hr
      dsimp only at hr
      repeat' (first | cases hr | split at hr)
    | ub =>
      exfalso
      unfold csvLineM invalidLineStatus at hr
      dsimp only at hr
      repeat' (first | cases hr | split at hr)

end Verif.Db
