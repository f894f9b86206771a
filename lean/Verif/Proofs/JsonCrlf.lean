import Verif.Proofs.JsonText
import Verif.Spec.Trailing
/-! # JSON texts with carriage returns in front of the newlines -/
namespace Verif.Db.JsonText
open Verif.Db Verif.Spec Verif.Spec.JsonGrammar

theorem crlf_nl (r : Bytes) : crlf (0x0a :: r) = 0x0d :: 0x0a :: crlf r := rfl

theorem crlf_cons {c : UInt8} (h : c ≠ 0x0a) (r : Bytes) : crlf (c :: r) = c :: crlf r := by
  show (if c = 0x0a then [0x0d, 0x0a] else [c]) ++ crlf r = _
  rw [if_neg h]; rfl

/-- The rest of a text, rewritten. -/
def onRest {α : Type} (p : α × Bytes) : α × Bytes := (p.1, crlf p.2)

theorem skipWs_crlf (s : Bytes) : skipWs (crlf s) = crlf (skipWs s) := by
  unfold skipWs
  induction s with
  | nil => rfl
  | cons c r ih =>
    by_cases hc : c = 0x0a
    · subst hc
      rw [crlf_nl, List.dropWhile_cons, if_pos (by decide), List.dropWhile_cons, if_pos (by decide), ih,
        List.dropWhile_cons, if_pos (by decide)]
    · rw [crlf_cons hc, List.dropWhile_cons, List.dropWhile_cons]
      split
      · exact ih
      · exact (crlf_cons hc r).symm

theorem consume_crlf {b : UInt8} (h1 : b ≠ 0x0a) (h2 : b ≠ 0x0d) (s : Bytes) : consume b (crlf s) = (consume b s).map crlf := by
  cases s with
  | nil => rfl
  | cons c r =>
    by_cases hc : c = 0x0a
    · subst hc
      rw [crlf_nl, consume_other (fun h => h2 h.symm), consume_other (fun h => h1 h.symm)]
      rfl
    · rw [crlf_cons hc]
      unfold consume
      dsimp only
      split <;> rfl

theorem dropByte_crlf {b : UInt8} (h1 : b ≠ 0x0a) (h2 : b ≠ 0x0d) (s : Bytes) : dropByte b (crlf s) = crlf (dropByte b s) := by
  cases s with
  | nil => rfl
  | cons c r =>
    by_cases hc : c = 0x0a
    · subst hc
      rw [crlf_nl]
      unfold dropByte
      dsimp only
      rw [if_neg (fun h => h2 h.symm), if_neg (fun h => h1 h.symm)]
      rfl
    · rw [crlf_cons hc]
      unfold dropByte
      dsimp only
      split
      · rfl
      · exact (crlf_cons hc r).symm

theorem skipBom_crlf (s : Bytes) : skipBom (crlf s) = crlf (skipBom s) := by
  unfold skipBom
  rw [dropByte_crlf (by decide) (by decide), dropByte_crlf (by decide) (by decide), dropByte_crlf (by decide) (by decide)]

theorem word_crlf (v : Json) : ∀ (w : Bytes), (∀ b ∈ w, b ≠ 0x0a ∧ b ≠ 0x0d) → ∀ s, word w v (crlf s) = (word w v s).map onRest := by
  have key : ∀ (w : Bytes), (∀ b ∈ w, b ≠ 0x0a ∧ b ≠ 0x0d) → ∀ s,
      w.foldlM (fun s b => consume b s) (crlf s) = (w.foldlM (fun s b => consume b s) s).map crlf := by
    intro w
    induction w with
    | nil => intro _ s; rfl
    | cons b w ih =>
      intro h s
      obtain ⟨h1, h2⟩ := h b List.mem_cons_self
      rw [List.foldlM_cons, List.foldlM_cons, consume_crlf h1 h2]
      cases consume b s with
      | none => rfl
      | some r => exact ih (fun b hb => h b (List.mem_cons_of_mem _ hb)) r
  intro w h s
  unfold word
  rw [key w h s]
  cases w.foldlM (fun s b => consume b s) s <;> rfl

theorem hex4_crlf (s : Bytes) : hex4 (crlf s) = (hex4 s).map onRest := by
  have hn : hexDigit 0x0a = none := by decide
  have hr : hexDigit 0x0d = none := by decide
  have none4 : ∀ a b c d r, (hexDigit a = none ∨ hexDigit b = none ∨ hexDigit c = none ∨ hexDigit d = none) → hex4 (a :: b :: c :: d :: r) = none := by
    intro a b c d r h
    unfold hex4
    dsimp only
    rcases h with h | h | h | h
    · rw [h]; rfl
    · rw [h]; cases hexDigit a <;> rfl
    · rw [h]; cases hexDigit a <;> cases hexDigit b <;> rfl
    · rw [h]; cases hexDigit a <;> cases hexDigit b <;> cases hexDigit c <;> rfl
  -- a carriage return among the first four, or too short
  have bad : ∀ pre r, pre.length < 4 → hex4 (pre ++ 0x0d :: r) = none := by
    intro pre r hl
    match pre, hl with
    | [], _ => match r with
      | [] => rfl
      | [_] => rfl
      | [_, _] => rfl
      | b :: c :: d :: r => exact none4 _ _ _ _ _ (Or.inl hr)
    | [a], _ => match r with
      | [] => rfl
      | [_] => rfl
      | c :: d :: r => exact none4 _ _ _ _ _ (Or.inr (Or.inl hr))
    | [a, b], _ => match r with
      | [] => rfl
      | d :: r => exact none4 _ _ _ _ _ (Or.inr (Or.inr (Or.inl hr)))
    | [a, b, c], _ => exact none4 _ _ _ _ _ (Or.inr (Or.inr (Or.inr hr)))
  have bad' : ∀ pre r, pre.length < 4 → hex4 (pre ++ 0x0a :: r) = none := by
    intro pre r hl
    match pre, hl with
    | [], _ => match r with
      | [] => rfl
      | [_] => rfl
      | [_, _] => rfl
      | b :: c :: d :: r => exact none4 _ _ _ _ _ (Or.inl hn)
    | [a], _ => match r with
      | [] => rfl
      | [_] => rfl
      | c :: d :: r => exact none4 _ _ _ _ _ (Or.inr (Or.inl hn))
    | [a, b], _ => match r with
      | [] => rfl
      | d :: r => exact none4 _ _ _ _ _ (Or.inr (Or.inr (Or.inl hn)))
    | [a, b, c], _ => exact none4 _ _ _ _ _ (Or.inr (Or.inr (Or.inr hn)))
  match s with
  | [] => rfl
  | a :: s =>
    by_cases ha : a = 0x0a
    · subst ha; rw [crlf_nl]; exact (bad [] _ (by decide)).trans (congrArg (Option.map onRest) (bad' [] _ (by decide))).symm
    rw [crlf_cons ha]
    match s with
    | [] => rfl
    | b :: s =>
      by_cases hb : b = 0x0a
      · subst hb; rw [crlf_nl]; exact (bad [a] _ (by simp)).trans (congrArg (Option.map onRest) (bad' [a] _ (by simp))).symm
      rw [crlf_cons hb]
      match s with
      | [] => rfl
      | c :: s =>
        by_cases hc : c = 0x0a
        · subst hc; rw [crlf_nl]; exact (bad [a, b] _ (by simp)).trans (congrArg (Option.map onRest) (bad' [a, b] _ (by simp))).symm
        rw [crlf_cons hc]
        match s with
        | [] => rfl
        | d :: s =>
          by_cases hd : d = 0x0a
          · subst hd; rw [crlf_nl]; exact (bad [a, b, c] _ (by simp)).trans (congrArg (Option.map onRest) (bad' [a, b, c] _ (by simp))).symm
          rw [crlf_cons hd]
          unfold hex4
          dsimp only
          cases hexDigit a with
          | none => rfl
          | some a => cases hexDigit b with
            | none => rfl
            | some b => cases hexDigit c with
              | none => rfl
              | some c => cases hexDigit d with
                | none => rfl
                | some d => rfl

theorem codePoint_crlf (s : Bytes) : codePoint (crlf s) = (codePoint s).map onRest := by
  unfold codePoint
  rw [hex4_crlf]
  cases hex4 s with
  | none => rfl
  | some p =>
    obtain ⟨cp, r⟩ := p
    simp only [Option.map_some, onRest]
    split
    · split
      · have e : (consume 0x5c (crlf r) >>= consume 0x75 >>= hex4) = (consume 0x5c r >>= consume 0x75 >>= hex4).map onRest := by
          rw [consume_crlf (by decide) (by decide)]
          cases consume 0x5c r with
          | none => rfl
          | some r1 =>
            show (consume 0x75 (crlf r1) >>= hex4) = Option.map onRest (consume 0x75 r1 >>= hex4)
            rw [consume_crlf (by decide) (by decide)]
            cases consume 0x75 r1 with
            | none => rfl
            | some r2 => exact hex4_crlf r2
        rw [e]
        cases (consume 0x5c r >>= consume 0x75 >>= hex4) with
        | none => rfl
        | some q =>
          obtain ⟨cp2, r2⟩ := q
          simp only [Option.map_some, onRest]
          split <;> rfl
      · rfl
    · rfl

theorem stringBody_crlf (fuel : Nat) : ∀ s, stringBody fuel (crlf s) = (stringBody fuel s).map onRest := by
  induction fuel with
  | zero => intro s; cases crlf s <;> cases s <;> rfl
  | succ fuel ih =>
    intro s
    cases s with
    | nil => rfl
    | cons c r =>
      by_cases hc : c = 0x0a
      · subst hc
        rw [crlf_nl, stringBody_cons, stringBody_cons]
        rfl
      rw [crlf_cons hc, stringBody_cons, stringBody_cons]
      by_cases h1 : c = 0x5c
      · rw [if_pos h1, if_pos h1]
        cases r with
        | nil => rfl
        | cons e r =>
          by_cases he : e = 0x0a
          · subst he
            rw [crlf_nl]
            rfl
          rw [crlf_cons he]
          dsimp only
          cases escape e with
          | some b =>
            dsimp only
            rw [ih]
            cases stringBody fuel r <;> rfl
          | none =>
            dsimp only
            split
            · rw [codePoint_crlf]
              cases codePoint r with
              | none => rfl
              | some p =>
                obtain ⟨cp, r2⟩ := p
                simp only [Option.map_some, onRest]
                rw [ih]
                cases stringBody fuel r2 <;> rfl
            · rfl
      · rw [if_neg h1, if_neg h1]
        split
        · rfl
        · split
          · rfl
          · rw [ih]
            cases stringBody fuel r <;> rfl

theorem stringBody_fuel (s : Bytes) (f f' : Nat) (h : s.length < f) (h' : s.length < f') : stringBody f s = stringBody f' s := by
  have key : ∀ f f', s.length < f' → ∀ p, stringBody f s = some p → stringBody f' s = some p := by
    intro f f' h' p hp
    obtain ⟨v, r⟩ := p
    obtain ⟨t, rfl, hc⟩ := stringBody_sound f s v r hp
    refine stringBody_complete hc f' r ?_
    simp at h'
    omega
  cases h1 : stringBody f s with
  | none =>
    cases h2 : stringBody f' s with
    | none => rfl
    | some p => rw [key f' f h p h2] at h1; cases h1
  | some p => rw [key f f' h' p h1]

theorem string_crlf (s : Bytes) : string (crlf s) = (string s).map onRest := by
  unfold string
  rw [consume_crlf (by decide) (by decide)]
  cases consume 0x22 s with
  | none => rfl
  | some r =>
    simp only [Option.map_some]
    rw [stringBody_crlf, stringBody_fuel r ((crlf r).length + 1) (r.length + 1) ?_ (Nat.lt_succ_self _)]
    have : r.length ≤ (crlf r).length := by
      induction r with
      | nil => exact Nat.le_refl _
      | cons c r ih =>
        by_cases hc : c = 0x0a
        · subst hc; rw [crlf_nl]; simp; omega
        · rw [crlf_cons hc]; simp; omega
    omega

theorem digits1_crlf (s : Bytes) : digits1 (crlf s) = (digits1 s).map onRest := by
  have h1 : ∀ s : Bytes, (crlf s).takeWhile isDigit = s.takeWhile isDigit ∧ (crlf s).dropWhile isDigit = crlf (s.dropWhile isDigit) := by
    intro s
    induction s with
    | nil => exact ⟨rfl, rfl⟩
    | cons c r ih =>
      by_cases hc : c = 0x0a
      · subst hc; exact ⟨rfl, rfl⟩
      · rw [crlf_cons hc, List.takeWhile_cons, List.takeWhile_cons, List.dropWhile_cons, List.dropWhile_cons]
        cases isDigit c with
        | true => simp only [if_true, ih.1, ih.2, and_self]
        | false => simp only [Bool.false_eq_true, if_false, true_and]; exact (crlf_cons hc r).symm
  unfold digits1
  rw [(h1 s).1, (h1 s).2]
  cases s.takeWhile isDigit <;> rfl

theorem intPart_crlf (s : Bytes) : intPart (crlf s) = (intPart s).map onRest := by
  cases s with
  | nil => rfl
  | cons c r =>
    by_cases hc : c = 0x0a
    · subst hc; rfl
    · have h := digits1_crlf (c :: r)
      rw [crlf_cons hc] at h ⊢
      unfold intPart
      dsimp only
      split
      · rfl
      · exact h

theorem fracPart_crlf (s : Bytes) : fracPart (crlf s) = (fracPart s).map onRest := by
  cases s with
  | nil => rfl
  | cons c r =>
    by_cases hc : c = 0x0a
    · subst hc; rfl
    · rw [crlf_cons hc]
      unfold fracPart
      dsimp only
      split
      · rw [digits1_crlf]
        cases digits1 r <;> rfl
      · simp only [Option.map_some, onRest, crlf_cons hc]

theorem expSign_crlf (s : Bytes) : expSign (crlf s) = onRest (expSign s) := by
  cases s with
  | nil => rfl
  | cons c r =>
    by_cases hc : c = 0x0a
    · subst hc; rfl
    · rw [crlf_cons hc]
      unfold expSign
      dsimp only
      split
      · rfl
      · simp only [onRest, crlf_cons hc]

theorem expPart_crlf (s : Bytes) : expPart (crlf s) = (expPart s).map onRest := by
  cases s with
  | nil => rfl
  | cons c r =>
    by_cases hc : c = 0x0a
    · subst hc; rfl
    · rw [crlf_cons hc]
      unfold expPart
      dsimp only
      split
      · rw [expSign_crlf]
        simp only [onRest]
        rw [digits1_crlf]
        cases digits1 (expSign r).2 <;> rfl
      · simp only [Option.map_some, onRest, crlf_cons hc]

theorem minusSign_crlf (s : Bytes) : minusSign (crlf s) = onRest (minusSign s) := by
  cases s with
  | nil => rfl
  | cons c r =>
    by_cases hc : c = 0x0a
    · subst hc; rfl
    · rw [crlf_cons hc]
      unfold minusSign
      dsimp only
      split
      · rfl
      · simp only [onRest, crlf_cons hc]

theorem number_crlf (big : Bytes → Bool) (s : Bytes) : number big (crlf s) = (number big s).map onRest := by
  unfold number
  rw [minusSign_crlf]
  simp only [onRest]
  rw [intPart_crlf]
  cases intPart (minusSign s).2 with
  | none => rfl
  | some p =>
    obtain ⟨int, s1⟩ := p
    simp only [Option.map_some, onRest]
    rw [fracPart_crlf]
    cases fracPart s1 with
    | none => rfl
    | some p =>
      obtain ⟨frac, s2⟩ := p
      simp only [Option.map_some, onRest]
      rw [expPart_crlf]
      cases expPart s2 with
      | none => rfl
      | some p =>
        obtain ⟨exp, s3⟩ := p
        simp only [Option.map_some, onRest]
        cases numberValue big (minusSign s).1 int frac exp <;> rfl

/-- The parser: with the same fuel, the same values. -/
theorem parser_crlf (big : Bytes → Bool) (fuel : Nat) :
    (∀ s, value big fuel (crlf s) = (value big fuel s).map onRest) ∧
    (∀ s, members big fuel (crlf s) = (members big fuel s).map onRest) ∧
    (∀ s, elements big fuel (crlf s) = (elements big fuel s).map onRest) := by
  induction fuel with
  | zero =>
    refine ⟨fun s => ?_, fun s => ?_, fun s => ?_⟩
    · rw [value, value]; rfl
    · rw [members, members]; rfl
    · rw [elements, elements]; rfl
  | succ fuel ih =>
    obtain ⟨ih1, ih2, ih3⟩ := ih
    refine ⟨fun s => ?_, fun s => ?_, fun s => ?_⟩
    · cases s with
      | nil => show value big (fuel + 1) [] = _; rw [value]; rfl; simp
      | cons c r =>
        by_cases hc : c = 0x0a
        · subst hc
          rw [crlf_nl, value_cons, value_cons]
          rfl
        have hn := number_crlf big (c :: r)
        have hs := string_crlf (c :: r)
        rw [crlf_cons hc] at hn hs ⊢
        rw [value_cons, value_cons]
        split
        · exact word_crlf _ _ (by decide) r
        split
        · exact word_crlf _ _ (by decide) r
        split
        · exact word_crlf _ _ (by decide) r
        split
        · rw [hs]; cases string (c :: r) <;> rfl
        split
        · rw [skipWs_crlf, consume_crlf (by decide) (by decide)]
          cases consume 0x7d (skipWs r) with
          | some r' => rfl
          | none =>
            simp only [Option.map_none]
            rw [ih2]
            cases members big fuel (skipWs r) <;> rfl
        split
        · rw [skipWs_crlf, consume_crlf (by decide) (by decide)]
          cases consume 0x5d (skipWs r) with
          | some r' => rfl
          | none =>
            simp only [Option.map_none]
            rw [ih3]
            cases elements big fuel (skipWs r) <;> rfl
        exact hn
    · rw [members, members, string_crlf]
      cases string s with
      | none => rfl
      | some p =>
        obtain ⟨name, s1⟩ := p
        simp only [Option.map_some, onRest]
        rw [skipWs_crlf, consume_crlf (by decide) (by decide)]
        cases consume 0x3a (skipWs s1) with
        | none => rfl
        | some s2 =>
          simp only [Option.map_some]
          rw [skipWs_crlf, ih1]
          cases value big fuel (skipWs s2) with
          | none => rfl
          | some p =>
            obtain ⟨v, s3⟩ := p
            simp only [Option.map_some, onRest]
            rw [skipWs_crlf]
            cases skipWs s3 with
            | nil => rfl
            | cons c s4 =>
              by_cases hc : c = 0x0a
              · subst hc; rfl
              rw [crlf_cons hc]
              dsimp only
              split
              · rw [skipWs_crlf, ih2]
                cases members big fuel (skipWs s4) <;> rfl
              · split <;> rfl
    · rw [elements, elements, ih1]
      cases value big fuel s with
      | none => rfl
      | some p =>
        obtain ⟨v, s3⟩ := p
        simp only [Option.map_some, onRest]
        rw [skipWs_crlf]
        cases skipWs s3 with
        | nil => rfl
        | cons c s4 =>
          by_cases hc : c = 0x0a
          · subst hc; rfl
          rw [crlf_cons hc]
          dsimp only
          split
          · rw [skipWs_crlf, ih3]
            cases elements big fuel (skipWs s4) <;> rfl
          · split <;> rfl

/-- `parseJson` with any fuel. -/
def parseWith (big : Bytes → Bool) (fuel : Nat) (text : Bytes) : Option Json :=
  match value big fuel (skipWs (skipBom text)) with
  | none => none
  | some (v, r) => match skipWs r with
    | [] => some v
    | c :: _ => if c = 0 then some v else none

theorem parseWith_sound {big : Bytes → Bool} {fuel : Nat} {s : Bytes} {v : Json} (h : parseWith big fuel s = some v) :
    parseJson big s = some v := by
  refine (parseJson_iff big s v).2 ?_
  unfold parseWith at h
  cases h1 : value big fuel (skipWs (skipBom s)) with
  | none => rw [h1] at h; cases h
  | some p =>
    obtain ⟨v', r⟩ := p
    rw [h1] at h
    dsimp only at h
    obtain ⟨t, ht, hv⟩ := (sound big _).1 _ _ _ h1
    obtain ⟨w, hw, hs⟩ := skipWs_split (skipBom s)
    obtain ⟨w', hw', hs'⟩ := skipWs_split r
    have : v' = v ∧ (skipWs r = [] ∨ (skipWs r).head? = some 0) := by
      cases h2 : skipWs r with
      | nil => rw [h2] at h; exact ⟨Option.some.inj h, Or.inl rfl⟩
      | cons c r' =>
        rw [h2] at h
        dsimp only at h
        by_cases h3 : c = 0
        · rw [if_pos h3] at h
          exact ⟨Option.some.inj h, Or.inr (by rw [h3]; rfl)⟩
        · rw [if_neg h3] at h; cases h
    obtain ⟨rfl, hj⟩ := this
    refine ⟨w ++ (t ++ w'), skipWs r, ?_, ⟨w, t, w', rfl, hw, hv, hw'⟩, hj⟩
    rw [List.append_assoc, List.append_assoc, ← hs', ← ht, ← hs]

theorem parseWith_crlf (big : Bytes → Bool) (fuel : Nat) (s : Bytes) : parseWith big fuel (crlf s) = parseWith big fuel s := by
  unfold parseWith
  rw [skipBom_crlf, skipWs_crlf, (parser_crlf big fuel).1]
  cases value big fuel (skipWs (skipBom s)) with
  | none => rfl
  | some p =>
    obtain ⟨v, r⟩ := p
    simp only [Option.map_some, onRest]
    rw [skipWs_crlf]
    cases skipWs r with
    | nil => rfl
    | cons c s4 =>
      by_cases hc : c = 0x0a
      · subst hc; rfl
      rw [crlf_cons hc]

theorem parseJson_crlf (big : Bytes → Bool) (s : Bytes) : parseJson big (crlf s) = parseJson big s := by
  have e1 : ∀ s, parseJson big s = parseWith big (s.length + 1) s := fun s => rfl
  cases h1 : parseJson big s with
  | some v =>
    rw [e1, ← parseWith_crlf] at h1
    exact parseWith_sound h1
  | none =>
    cases h2 : parseJson big (crlf s) with
    | none => rfl
    | some v =>
      rw [e1, parseWith_crlf] at h2
      rw [parseWith_sound h2] at h1
      cases h1

end Verif.Db.JsonText
