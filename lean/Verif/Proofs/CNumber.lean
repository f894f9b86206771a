import Verif.Spec.CNumber
import Verif.Proofs.DbGrid
/-! # Numbers as C reads them -/
namespace Verif.Db
open Verif.Spec Verif.Text

theorem digitValue_eq (c : UInt8) : digitValue c = hexDigit c := rfl

theorem digitPrefix_stop (base v : Nat) (rest : Bytes) (h : NoDigit base rest) : digitPrefix base v rest = v := by
  cases rest with
  | nil => rfl
  | cons c r =>
    unfold digitPrefix
    cases hc : hexDigit c with
    | none => rfl
    | some d =>
      dsimp only
      rw [if_neg (Nat.not_lt.2 (h c rfl d hc))]

theorem digitPrefix_digits (base : Nat) : ∀ (ds : List Nat) (d : Bytes), d.map digitValue = ds.map some → (∀ x ∈ ds, x < base) →
    ∀ v rest, NoDigit base rest → digitPrefix base v (d ++ rest) = ds.foldl (fun v x => v * base + x) v := by
  intro ds
  induction ds with
  | nil =>
    intro d hd _ v rest hr
    have : d = [] := by simpa using hd
    subst this
    exact digitPrefix_stop base v rest hr
  | cons x ds ih =>
    intro d hd hx v rest hr
    cases d with
    | nil => cases hd
    | cons c d =>
      simp only [List.map_cons, List.cons.injEq] at hd
      rw [List.cons_append, List.foldl_cons]
      unfold digitPrefix
      have hc : hexDigit c = some x := hd.1
      rw [hc]
      dsimp only
      rw [if_pos (hx x (by simp))]
      exact ih d hd.2 (fun y hy => hx y (by simp [hy])) _ rest hr

theorem digitPrefix_of {base : Nat} {d rest : Bytes} {n : Nat} (hd : DigitsOf base d n) (hr : NoDigit base rest) :
    digitPrefix base 0 (d ++ rest) = n := by
  obtain ⟨ds, h1, h2, h3⟩ := hd
  rw [digitPrefix_digits base ds d h1 h2 0 rest hr, h3]

/-- The digits a text begins with. -/
theorem digits_exist (base : Nat) (s : Bytes) : ∃ (d rest : Bytes) (ds : List Nat), s = d ++ rest ∧ d.map digitValue = ds.map some ∧ (∀ x ∈ ds, x < base) ∧
    NoDigit base rest := by
  induction s with
  | nil => exact ⟨[], [], [], rfl, rfl, by simp, by intro c h; cases h⟩
  | cons c s ih =>
    by_cases h : ∃ x, digitValue c = some x ∧ x < base
    · obtain ⟨x, hx, hb⟩ := h
      obtain ⟨d, rest, ds, h1, h2, h3, h4⟩ := ih
      refine ⟨c :: d, rest, x :: ds, by rw [h1]; rfl, by simp [h2, hx], ?_, h4⟩
      intro y hy
      rcases List.mem_cons.1 hy with rfl | hy
      · exact hb
      · exact h3 y hy
    · refine ⟨[], c :: s, [], rfl, rfl, by simp, ?_⟩
      intro c' hc' x hx
      cases hc'
      exact Nat.not_lt.1 fun hb => h ⟨x, hx, hb⟩

theorem zero_digit : hexDigit 0x30 = some 0 := by decide

theorem magnitude_three (x c : UInt8) (r : Bytes) : magnitude (0x30 :: x :: c :: r) =
    if (x = 0x78 ∨ x = 0x58) ∧ (hexDigit c).isSome then digitPrefix 16 0 (c :: r) else digitPrefix 8 0 (0x30 :: x :: c :: r) := rfl

theorem magnitude_octal (s : Bytes) (h : ∀ x c r, s = x :: c :: r → x = 0x78 ∨ x = 0x58 → hexDigit c = none) :
    magnitude (0x30 :: s) = digitPrefix 8 0 s := by
  have e : digitPrefix 8 0 (0x30 :: s) = digitPrefix 8 0 s := by
    rw [digitPrefix.eq_def]
    dsimp only
    rw [zero_digit]
    rfl
  match s, h with
  | [], _ => exact e
  | [x], _ => exact e
  | x :: c :: r, h =>
    rw [magnitude_three, if_neg ?_]
    · exact e
    · rintro ⟨h1, h2⟩
      rw [h x c r rfl h1] at h2
      cases h2

theorem magnitude_decimal (s : Bytes) (h : s.head? ≠ some 0x30) : magnitude s = digitPrefix 10 0 s := by
  unfold magnitude
  split
  · exact absurd rfl h
  · exact absurd rfl h
  · rfl

theorem magnitude_of {t : Bytes} {n : Nat} (h : Magnitude t n) : magnitude t = n := by
  cases h with
  | hex x d rest n hx hne hd hr =>
    cases d with
    | nil => exact absurd rfl hne
    | cons c d =>
      have hc : (hexDigit c).isSome = true := by
        obtain ⟨ds, h1, _⟩ := hd
        cases ds with
        | nil => cases h1
        | cons y ds =>
          simp only [List.map_cons, List.cons.injEq] at h1
          rw [show hexDigit c = some y from h1.1]; rfl
      rw [List.cons_append]
      rw [magnitude_three, if_pos ⟨hx, hc⟩]
      exact digitPrefix_of hd hr
  | octal d rest n hd hr hno =>
    rw [magnitude_octal _ hno]
    exact digitPrefix_of hd hr
  | decimal d rest n hh hd hr =>
    rw [magnitude_decimal]
    · exact digitPrefix_of hd hr
    · cases d with
      | nil =>
        intro h0
        exact absurd (hr 0x30 h0 0 (by decide)) (by decide)
      | cons c d => exact hh

theorem magnitude_exists (t : Bytes) : Magnitude t (magnitude t) := by
  have go : ∃ n, Magnitude t n := by
    by_cases hz : t.head? = some 0x30
    · cases t with
      | nil => cases hz
      | cons c s =>
        have hc : c = 0x30 := Option.some.inj hz
        subst hc
        by_cases hx : ∃ x c r, s = x :: c :: r ∧ (x = 0x78 ∨ x = 0x58) ∧ digitValue c ≠ none
        · obtain ⟨x, c, r, rfl, hx, hc⟩ := hx
          obtain ⟨d, rest, ds, h1, h2, h3, h4⟩ := digits_exist 16 (c :: r)
          rw [h1]
          refine ⟨_, .hex x d rest _ hx ?_ ⟨ds, h2, h3, rfl⟩ h4⟩
          rintro rfl
          cases hv : digitValue c with
          | none => exact hc hv
          | some v =>
            have h5 := h4 c (by rw [List.nil_append] at h1; rw [← h1]; rfl) v hv
            have h6 : v < 16 := by
              have : ∀ k : Fin 256, ∀ v, digitValue (UInt8.ofNat k) = some v → v < 16 := by
                intro k
                have hk : ∀ k : Fin 256, (digitValue (UInt8.ofNat k)).all (fun v => decide (v < 16)) = true := by decide +kernel
                intro v hv
                have := hk k
                rw [hv] at this
                simpa using this
              have := this ⟨c.toNat, c.toNat_lt⟩ v
              simp only [UInt8.ofNat_toNat] at this
              exact this hv
            omega
        · obtain ⟨d, rest, ds, h1, h2, h3, h4⟩ := digits_exist 8 s
          rw [h1]
          refine ⟨_, .octal d rest _ ⟨ds, h2, h3, rfl⟩ h4 ?_⟩
          intro x c r he h5
          refine Classical.byContradiction fun h6 => hx ⟨x, c, r, ?_, h5, h6⟩
          rw [h1, he]
    · obtain ⟨d, rest, ds, h1, h2, h3, h4⟩ := digits_exist 10 t
      rw [h1]
      refine ⟨_, .decimal d rest _ ?_ ⟨ds, h2, h3, rfl⟩ h4⟩
      intro h0
      apply hz
      rw [h1]
      cases d with
      | nil => cases h0
      | cons c d => exact h0
  obtain ⟨n, hn⟩ := go
  rw [magnitude_of hn]
  exact hn

theorem digitPrefix_cstr (base : Nat) : ∀ (s : Bytes) (v : Nat), digitPrefix base v (cstr s) = digitPrefix base v s := by
  intro s
  induction s with
  | nil => intro v; rfl
  | cons c s ih =>
    intro v
    by_cases hc : c = 0
    · subst hc
      have : cstr (0 :: s) = [] := rfl
      rw [this, digitPrefix.eq_def base v (0 :: s)]
      have h0 : hexDigit 0 = none := by decide
      dsimp only
      rw [h0]
      rfl
    · have : cstr (c :: s) = c :: cstr s := by
        unfold cstr
        rw [List.takeWhile_cons_of_pos (by simp [hc])]
      rw [this]
      unfold digitPrefix
      cases hexDigit c with
      | none => rfl
      | some d =>
        dsimp only
        split
        · exact ih _
        · rfl

theorem cstr_cons {c : UInt8} (hc : c ≠ 0) (s : Bytes) : cstr (c :: s) = c :: cstr s := by
  unfold cstr
  rw [List.takeWhile_cons_of_pos (by simp [hc])]

theorem magnitude_cstr (s : Bytes) : magnitude (cstr s) = magnitude s := by
  by_cases hz : s.head? = some 0x30
  · cases s with
    | nil => rfl
    | cons z s =>
      have hc : z = 0x30 := Option.some.inj hz
      subst hc
      rw [cstr_cons (by decide)]
      by_cases hx : ∃ x c r, s = x :: c :: r ∧ (x = 0x78 ∨ x = 0x58) ∧ hexDigit c ≠ none
      · obtain ⟨x, c, r, rfl, hx, hc⟩ := hx
        have hx0 : x ≠ 0 := by rcases hx with rfl | rfl <;> decide
        have hc0 : c ≠ 0 := by rintro rfl; exact hc (by decide)
        have hcs : (hexDigit c).isSome = true := by
          cases h : hexDigit c with
          | none => exact absurd h hc
          | some _ => rfl
        rw [cstr_cons hx0, cstr_cons hc0]
        rw [magnitude_three, magnitude_three, if_pos ⟨hx, hcs⟩, if_pos ⟨hx, hcs⟩, ← cstr_cons hc0]
        exact digitPrefix_cstr 16 _ _
      · rw [magnitude_octal, magnitude_octal]
        · exact digitPrefix_cstr 8 _ _
        · intro x c r he h5
          exact Classical.byContradiction fun h6 => hx ⟨x, c, r, he, h5, h6⟩
        · intro x c r he h5
          refine Classical.byContradiction fun h6 => hx ?_
          obtain ⟨t, ht⟩ : ∃ t, s = cstr s ++ t := ⟨s.dropWhile (· ≠ 0), (List.takeWhile_append_dropWhile).symm⟩
          exact ⟨x, c, r ++ t, by rw [ht, he]; rfl, h5, h6⟩
  · rw [magnitude_decimal s hz, magnitude_decimal]
    · exact digitPrefix_cstr 10 _ _
    · intro h
      apply hz
      cases s with
      | nil => cases h
      | cons c s =>
        by_cases hc : c = 0
        · subst hc; cases h
        · rw [cstr_cons hc] at h; exact h

theorem not_white_iff (c : UInt8) : ¬ White [c] ↔ isSpace c = false := by
  rw [← isSpace_iff]; simp

/-- What is read. -/
theorem strtol0_of {s : Bytes} {i : Int} (h : CNumber s i) : strtol0 s = if -2 ^ 63 ≤ i ∧ i < 2 ^ 63 then some i else none := by
  obtain ⟨w, sign, t, n, rfl, hw, hm, hi⟩ := h
  have hwz : ∀ (u : Bytes), cstr (w ++ u) = w ++ cstr u := by
    intro u
    unfold cstr
    rw [List.takeWhile_append_of_pos]
    intro c hc
    rcases hw c hc with rfl | rfl | rfl | rfl | rfl | rfl <;> decide
  have hmag := (magnitude_cstr t).trans (magnitude_of hm)
  have key : ∀ neg, signSplit (stripLeading (cstr (w ++ sign ++ t))) = (neg, cstr t) →
      strtol0 (w ++ sign ++ t) = if neg then (if 2 ^ 63 < n then none else some (-(n : Int))) else (if 2 ^ 63 ≤ n then none else some (n : Int)) := by
    intro neg h
    unfold strtol0
    rw [h]
    dsimp only
    rw [hmag]
  rw [List.append_assoc, hwz] at key
  rcases hi with ⟨rfl, hh, rfl⟩ | ⟨rfl, rfl⟩ | ⟨rfl, rfl⟩
  · rw [List.append_assoc, key false]
    · rw [if_neg (by decide)]
      by_cases h : 2 ^ 63 ≤ n
      · rw [if_pos h, if_neg (by omega)]
      · rw [if_neg h, if_pos (by omega)]
    · have hhead : ∀ c, (cstr t).head? = some c → t.head? = some c := by
        intro c hc
        cases t with
        | nil => cases hc
        | cons x t =>
          by_cases hx : x = 0
          · subst hx; cases hc
          · rw [cstr_cons hx] at hc; exact hc
      rw [List.nil_append, stripLeading_append hw (fun c hc => (not_white_iff c).1 (hh c (hhead c hc)).1)]
      unfold signSplit
      split
      · rename_i r he
        exact absurd rfl (hh _ (hhead 0x2d (by rw [he]; rfl))).2.2
      · rename_i r he
        exact absurd rfl (hh _ (hhead 0x2b (by rw [he]; rfl))).2.1
      · rfl
  · rw [List.append_assoc, key false]
    · rw [if_neg (by decide)]
      by_cases h : 2 ^ 63 ≤ n
      · rw [if_pos h, if_neg (by omega)]
      · rw [if_neg h, if_pos (by omega)]
    · rw [List.singleton_append, cstr_cons (by decide), stripLeading_append hw (by intro c hc; cases hc; decide)]
      rfl
  · rw [List.append_assoc, key true]
    · rw [if_pos rfl]
      by_cases h : 2 ^ 63 < n
      · rw [if_pos h, if_neg (by omega)]
      · rw [if_neg h, if_pos (by omega)]
    · rw [List.singleton_append, cstr_cons (by decide), stripLeading_append hw (by intro c hc; cases hc; decide)]
      rfl

/-- Every text counts as a number. -/
theorem cnumber_exists (s : Bytes) : ∃ i, CNumber s i := by
  obtain ⟨w, t, rfl, hw, ht⟩ : ∃ w t, s = w ++ t ∧ White w ∧ ∀ c, t.head? = some c → ¬ White [c] := by
    induction s with
    | nil => exact ⟨[], [], rfl, (by intro c hc; cases hc), (by intro c hc; cases hc)⟩
    | cons c s ih =>
      by_cases hc : White [c]
      · obtain ⟨w, t, rfl, h1, h2⟩ := ih
        refine ⟨c :: w, t, rfl, ?_, h2⟩
        intro x hx
        rcases List.mem_cons.1 hx with rfl | hx
        · exact hc x (by simp)
        · exact h1 x hx
      · exact ⟨[], c :: s, rfl, (by intro c hc; cases hc), (by intro x hx; cases hx; exact hc)⟩
  by_cases h1 : t.head? = some 0x2b
  · cases t with
    | nil => cases h1
    | cons c t =>
      cases h1
      exact ⟨_, w, bytes!"+", t, _, by simp, hw, magnitude_exists t, Or.inr (Or.inl ⟨rfl, rfl⟩)⟩
  by_cases h2 : t.head? = some 0x2d
  · cases t with
    | nil => cases h2
    | cons c t =>
      cases h2
      exact ⟨_, w, bytes!"-", t, _, by simp, hw, magnitude_exists t, Or.inr (Or.inr ⟨rfl, rfl⟩)⟩
  exact ⟨_, w, [], t, _, by simp, hw, magnitude_exists t, Or.inl ⟨rfl, fun c hc =>
    ⟨ht c hc, (by rintro rfl; exact h1 hc), (by rintro rfl; exact h2 hc)⟩, rfl⟩⟩

/-- And as one only. -/
theorem cnumber_value {s : Bytes} {i : Int} (h : CNumber s i) :
    i = (if (signSplit (stripLeading (cstr s))).1 then -(magnitude (signSplit (stripLeading (cstr s))).2 : Int)
      else (magnitude (signSplit (stripLeading (cstr s))).2 : Int)) := by
  obtain ⟨w, sign, t, n, rfl, hw, hm, hi⟩ := h
  have hwz : ∀ (u : Bytes), cstr (w ++ u) = w ++ cstr u := by
    intro u
    unfold cstr
    rw [List.takeWhile_append_of_pos]
    intro c hc
    rcases hw c hc with rfl | rfl | rfl | rfl | rfl | rfl <;> decide
  have hmag := (magnitude_cstr t).trans (magnitude_of hm)
  rw [List.append_assoc, hwz]
  rcases hi with ⟨rfl, hh, rfl⟩ | ⟨rfl, rfl⟩ | ⟨rfl, rfl⟩
  · have hhead : ∀ c, (cstr t).head? = some c → t.head? = some c := by
      intro c hc
      cases t with
      | nil => cases hc
      | cons x t =>
        by_cases hx : x = 0
        · subst hx; cases hc
        · rw [cstr_cons hx] at hc; exact hc
    rw [List.nil_append, stripLeading_append hw (fun c hc => (not_white_iff c).1 (hh c (hhead c hc)).1)]
    have : signSplit (cstr t) = (false, cstr t) := by
      unfold signSplit
      split
      · rename_i r he
        exact absurd rfl (hh _ (hhead 0x2d (by rw [he]; rfl))).2.2
      · rename_i r he
        exact absurd rfl (hh _ (hhead 0x2b (by rw [he]; rfl))).2.1
      · rfl
    rw [this, if_neg (by simp), hmag]
  · rw [List.singleton_append, cstr_cons (by decide), stripLeading_append hw (by intro c hc; cases hc; decide)]
    show _ = if false = true then _ else (magnitude (cstr t) : Int)
    rw [if_neg (by decide), hmag]
  · rw [List.singleton_append, cstr_cons (by decide), stripLeading_append hw (by intro c hc; cases hc; decide)]
    show _ = if true = true then -(magnitude (cstr t) : Int) else _
    rw [if_pos rfl, hmag]

end Verif.Db
