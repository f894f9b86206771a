import Verif.Proofs.Tidy.Check
import Verif.Model.Tidy.Report
import Verif.Proofs.Tidy.Store
/-! The tally of findings. -/
namespace Verif.Tidy
open Verif.Spec.Tidy Re

/-- The count under a key. -/
def cnt (m : List (Bytes × Nat)) (k : Bytes) : Nat := ((m.find? fun e => e.1 = k).map (·.2)).getD 0

theorem cnt_increment (m : List (Bytes × Nat)) (k k' : Bytes) (hs : m.Pairwise fun a b => a.1 < b.1) :
    cnt (increment m k) k' = cnt m k' + if k = k' then 1 else 0 := by
  induction m with
  | nil => by_cases h : k = k' <;> simp [increment, cnt, h]
  | cons e m ih =>
    rw [increment]
    by_cases he : e.1 = k
    · rw [if_pos he]
      by_cases h : k = k'
      · subst h; simp [cnt, he]
      · have : e.1 ≠ k' := he ▸ h
        simp [cnt, h, this]
    · rw [if_neg he]
      have other : ∀ m', e.1 ≠ k' → cnt (e :: m') k' = cnt m' k' := fun m' h => by simp [cnt, h]
      split
      · rename_i hlt
        by_cases h : k = k'
        · subst h
          have h1 : ∀ e' ∈ e :: m, e'.1 ≠ k := by
            intro e' h' heq
            rcases List.mem_cons.1 h' with rfl | h'
            · exact he heq
            · have := List.lt_trans hlt ((List.pairwise_cons.1 hs).1 e' h')
              rw [heq] at this
              exact List.lt_irrefl _ this
          have h2 : cnt (e :: m) k = 0 := by
            have : (e :: m).find? (fun e => decide (e.1 = k)) = none := List.find?_eq_none.2 fun e' h' => by simpa using h1 e' h'
            unfold cnt
            rw [this]
            rfl
          rw [h2]
          simp [cnt]
        · have : cnt ((k, 1) :: e :: m) k' = cnt (e :: m) k' := by simp [cnt, h]
          rw [this, if_neg h]
          rfl
      · by_cases h' : e.1 = k'
        · have : k ≠ k' := fun h => he (h'.trans h.symm)
          simp [cnt, h', this]
        · rw [other _ h', other _ h']
          exact ih (List.pairwise_cons.1 hs).2

theorem increment_mem {m : List (Bytes × Nat)} {k : Bytes} {e : Bytes × Nat} (h : e ∈ increment m k) : (e.1 = k ∨ ∃ n, (e.1, n) ∈ m) ∧ ((∀ e' ∈ m, 0 < e'.2) → 0 < e.2) := by
  induction m with
  | nil =>
    simp only [increment, List.mem_singleton] at h
    subst h
    exact ⟨Or.inl rfl, fun _ => Nat.one_pos⟩
  | cons a m ih =>
    rw [increment] at h
    split at h
    · rename_i ha
      rcases List.mem_cons.1 h with rfl | h
      · exact ⟨Or.inl rfl, fun _ => Nat.succ_pos _⟩
      · exact ⟨Or.inr ⟨e.2, List.mem_cons_of_mem _ h⟩, fun hp => hp e (List.mem_cons_of_mem _ h)⟩
    · split at h
      · rcases List.mem_cons.1 h with rfl | h
        · exact ⟨Or.inl rfl, fun _ => Nat.one_pos⟩
        · exact ⟨Or.inr ⟨e.2, h⟩, fun hp => hp e h⟩
      · rcases List.mem_cons.1 h with rfl | h
        · exact ⟨Or.inr ⟨_, List.mem_cons_self⟩, fun hp => hp _ List.mem_cons_self⟩
        · obtain ⟨h1, h2⟩ := ih h
          refine ⟨?_, fun hp => h2 fun e' he' => hp e' (List.mem_cons_of_mem _ he')⟩
          rcases h1 with h1 | ⟨n, h1⟩
          · exact Or.inl h1
          · exact Or.inr ⟨n, List.mem_cons_of_mem _ h1⟩

theorem increment_sorted (m : List (Bytes × Nat)) (k : Bytes) (hs : m.Pairwise fun a b => a.1 < b.1) : (increment m k).Pairwise fun a b => a.1 < b.1 := by
  induction m with
  | nil => simp [increment]
  | cons e m ih =>
    obtain ⟨h1, h2⟩ := List.pairwise_cons.1 hs
    rw [increment]
    split
    · rename_i he
      exact List.pairwise_cons.2 ⟨fun a ha => he ▸ h1 a ha, h2⟩
    · rename_i he
      split
      · rename_i hlt
        refine List.pairwise_cons.2 ⟨fun a ha => ?_, hs⟩
        rcases List.mem_cons.1 ha with rfl | ha
        · exact hlt
        · exact List.lt_trans hlt (h1 a ha)
      · rename_i hlt
        refine List.pairwise_cons.2 ⟨fun a ha => ?_, ih h2⟩
        rcases (increment_mem ha).1 with h | ⟨n, h⟩
        · rw [h]
          rcases List.le_iff_lt_or_eq.1 (List.not_lt.1 hlt) with h' | h'
          · exact h'
          · exact absurd h' he
        · exact h1 (a.1, n) h

theorem mem_of_cnt {m : List (Bytes × Nat)} (hs : m.Pairwise fun a b => a.1 < b.1) (hp : ∀ e ∈ m, 0 < e.2) (k : Bytes) (n : Nat) :
    (k, n) ∈ m ↔ 0 < n ∧ cnt m k = n := by
  induction m with
  | nil =>
    simp [cnt]
    omega
  | cons e m ih =>
    obtain ⟨h1, h2⟩ := List.pairwise_cons.1 hs
    have ih := ih h2 fun e' h' => hp e' (List.mem_cons_of_mem _ h')
    rw [List.mem_cons]
    by_cases he : e.1 = k
    · have hc : cnt (e :: m) k = e.2 := by simp [cnt, he]
      rw [hc]
      constructor
      · rintro (h | h)
        · rw [← h]
          refine ⟨?_, rfl⟩
          have := hp e (by simp)
          rw [← h] at this
          exact this
        · have := h1 _ h
          rw [he] at this
          exact absurd this (List.lt_irrefl _)
      · rintro ⟨_, h⟩
        exact Or.inl (by rw [← he, ← h])
    · have hc : cnt (e :: m) k = cnt m k := by simp [cnt, he]
      rw [hc, ← ih]
      constructor
      · rintro (h | h)
        · exact absurd (by rw [← h]) he
        · exact h
      · exact Or.inr

/-- One step of the tally. -/
def tallyStep (t : Tally) (m : Bytes × Bytes) : Tally :=
  if m.1 ∈ t.seen then t else { seen := m.1 :: t.seen, checks := increment t.checks m.2 }

/-- All findings counted in the stored texts, in order. -/
noncomputable def allCounted (d : Dir) (files : List Item) : List (Bytes × Bytes) :=
  files.flatMap fun f => counted (some []) (completeLines (contentFor d f))

theorem tally_eq (d : Dir) (files : List Item) : tally d files = (allCounted d files).foldl tallyStep ⟨[], []⟩ := by
  unfold tally allCounted
  generalize (⟨[], []⟩ : Tally) = t
  induction files generalizing t with
  | nil => rfl
  | cons f files ih =>
    rw [List.foldl_cons, ih, List.flatMap_cons, List.foldl_append]
    congr 1
    unfold tallyText
    rw [findAll_check]
    rfl

theorem counted_mem {lead : Option Bytes} (hl : ∀ x, lead = some x → x = [] ∨ x = [0x0a]) {lines : List Bytes} {x c : Bytes} (h : (x, c) ∈ counted lead lines) :
    ∃ l, (l = [] ∨ l = [0x0a]) ∧ ∃ line ∈ lines, Finding line c ∧ x = l ++ line ++ [0x0a] := by
  induction lines generalizing lead with
  | nil => simp [counted] at h
  | cons line rest ih =>
    have hsome : ∀ x, some ([0x0a] : Bytes) = some x → x = [] ∨ x = [0x0a] := fun x e => Or.inr (Option.some.inj e).symm
    have lift : (∃ l, (l = [] ∨ l = [0x0a]) ∧ ∃ ln ∈ rest, Finding ln c ∧ x = l ++ ln ++ [0x0a]) → ∃ l, (l = [] ∨ l = [0x0a]) ∧ ∃ ln ∈ line :: rest, Finding ln c ∧ x = l ++ ln ++ [0x0a] := by
      rintro ⟨l, h1, ln, h2, h3⟩
      exact ⟨l, h1, ln, List.mem_cons_of_mem _ h2, h3⟩
    cases lead with
    | none =>
      rw [counted] at h
      exact lift (ih hsome h)
    | some lead =>
      rw [counted] at h
      cases hc : checkOf line with
      | none =>
        rw [hc] at h
        exact lift (ih hsome h)
      | some ck =>
        rw [hc] at h
        rcases List.mem_cons.1 h with e | h
        · cases e
          exact ⟨lead, hl _ rfl, line, by simp, checkOf_eq_some.1 hc, rfl⟩
        · exact lift (ih (by simp) h)

/-- The text determines the check. -/
theorem allCounted_functional {d : Dir} {files : List Item} {x c c' : Bytes} (h : (x, c) ∈ allCounted d files) (h' : (x, c') ∈ allCounted d files) : c = c' := by
  unfold allCounted at h h'
  obtain ⟨f, _, h⟩ := List.mem_flatMap.1 h
  obtain ⟨f', _, h'⟩ := List.mem_flatMap.1 h'
  have hl : ∀ x : Bytes, some ([] : Bytes) = some x → x = [] ∨ x = [0x0a] := fun x e => Or.inl (Option.some.inj e).symm
  obtain ⟨l, hl1, line, _, hf, e⟩ := counted_mem hl h
  obtain ⟨l', hl1', line', _, hf', e'⟩ := counted_mem hl h'
  rw [e] at e'
  have hne : ∀ {a b : Bytes} {k : Bytes}, Finding a k → a ≠ 0x0a :: b := fun hf e => (hf.oneLine 0x0a (by rw [e]; simp)).1 rfl
  have : line = line' := by
    rcases hl1 with rfl | rfl <;> rcases hl1' with rfl | rfl
    · exact List.append_cancel_right (bs := [0x0a]) (by simpa using e')
    · exact absurd (List.append_cancel_right (bs := [0x0a]) (by simpa using e')) (hne hf)
    · exact absurd (List.append_cancel_right (bs := [0x0a]) (by simpa using e'.symm)) (hne hf')
    · exact List.append_cancel_right (bs := [0x0a]) (by simpa using e')
  subst this
  exact hf.unique hf'

theorem fold_spec (M pre : List (Bytes × Bytes)) (t : Tally)
    (hfun : ∀ x c c', (x, c) ∈ pre ++ M → (x, c') ∈ pre ++ M → c = c')
    (hseen : t.seen.Nodup) (hmem : ∀ x, x ∈ t.seen ↔ ∃ c, (x, c) ∈ pre)
    (hs : t.checks.Pairwise fun a b => a.1 < b.1) (hp : ∀ e ∈ t.checks, 0 < e.2)
    (hc : ∀ k, cnt t.checks k = (t.seen.filter fun x => (x, k) ∈ pre).length) :
    (M.foldl tallyStep t).seen.Nodup ∧ (∀ x, x ∈ (M.foldl tallyStep t).seen ↔ ∃ c, (x, c) ∈ pre ++ M) ∧
    (M.foldl tallyStep t).checks.Pairwise (fun a b => a.1 < b.1) ∧ (∀ e ∈ (M.foldl tallyStep t).checks, 0 < e.2) ∧
    ∀ k, cnt (M.foldl tallyStep t).checks k = ((M.foldl tallyStep t).seen.filter fun x => (x, k) ∈ pre ++ M).length := by
  induction M generalizing pre t with
  | nil =>
    rw [List.append_nil]
    exact ⟨hseen, hmem, hs, hp, hc⟩
  | cons m M ih =>
    have assoc : pre ++ m :: M = (pre ++ [m]) ++ M := by simp
    rw [List.foldl_cons, assoc]
    rw [assoc] at hfun
    apply ih (pre ++ [m]) (tallyStep t m) hfun
    all_goals unfold tallyStep
    · split
      · exact hseen
      · rename_i h
        exact List.nodup_cons.2 ⟨h, hseen⟩
    · intro x
      split
      · rename_i h
        rw [hmem]
        constructor
        · rintro ⟨c, h'⟩; exact ⟨c, by simp [h']⟩
        · rintro ⟨c, h'⟩
          rcases List.mem_append.1 h' with h' | h'
          · exact ⟨c, h'⟩
          · simp only [List.mem_singleton] at h'
            rw [← h'] at h
            exact (hmem x).1 h
      · rw [List.mem_cons, hmem]
        constructor
        · rintro (rfl | ⟨c, h'⟩)
          · exact ⟨m.2, by simp⟩
          · exact ⟨c, by simp [h']⟩
        · rintro ⟨c, h'⟩
          rcases List.mem_append.1 h' with h' | h'
          · exact Or.inr ⟨c, h'⟩
          · simp only [List.mem_singleton] at h'
            exact Or.inl (by rw [← h'])
    · split
      · exact hs
      · exact increment_sorted _ _ hs
    · split
      · exact hp
      · exact fun e he => (increment_mem he).2 hp
    · intro k
      split
      · rename_i h
        rw [hc]
        congr 1
        apply List.filter_congr
        intro x hx
        simp only [List.mem_append, List.mem_singleton]
        by_cases hxm : (x, k) = m
        · -- the pair was there already
          obtain ⟨c, h'⟩ := (hmem x).1 hx
          have : c = k := hfun x c k (by simp [h']) (by simp [hxm])
          subst this
          simp [h']
        · simp [hxm]
      · rename_i h
        have hnot : ∀ c, (m.1, c) ∉ pre := fun c h' => h ((hmem _).2 ⟨c, h'⟩)
        rw [cnt_increment _ _ _ hs, hc, List.filter_cons]
        have e1 : (t.seen.filter fun x => decide ((x, k) ∈ pre ++ [m])) = t.seen.filter fun x => decide ((x, k) ∈ pre) := by
          apply List.filter_congr
          intro x hx
          have : (x, k) ≠ m := fun e => h (by rw [← e]; exact hx)
          simp [this]
        rw [e1]
        by_cases hk : m.2 = k
        · have : (m.1, k) ∈ pre ++ [m] := by rw [← hk]; simp
          rw [if_pos hk, if_pos (by simpa using this)]
          rfl
        · have : ¬ (m.1, k) ∈ pre ++ [m] := by
            intro h'
            rcases List.mem_append.1 h' with h' | h'
            · exact hnot _ h'
            · simp only [List.mem_singleton] at h'
              exact hk (by rw [← h'])
          rw [if_neg hk, if_neg (by simpa using this)]
          rfl

theorem tally_spec (d : Dir) (files : List Item) :
    (tally d files).checks.Pairwise (fun a b => a.1 < b.1) ∧
    ∀ k n, (k, n) ∈ (tally d files).checks ↔ 0 < n ∧ Distinct (allCounted d files) k n := by
  rw [tally_eq]
  obtain ⟨h1, h2, h3, h4, h5⟩ := fold_spec (allCounted d files) [] ⟨[], []⟩ (fun x c c' h h' => allCounted_functional h h') List.nodup_nil (by simp) .nil (by simp) (by simp [cnt])
  simp only [List.nil_append] at h2 h5
  refine ⟨h3, fun k n => ?_⟩
  rw [mem_of_cnt h3 h4, h5]
  have hd : Distinct (allCounted d files) k (((allCounted d files).foldl tallyStep ⟨[], []⟩).seen.filter fun x => (x, k) ∈ allCounted d files).length := by
    refine ⟨_, h1.filter _, fun x => ?_, rfl⟩
    rw [List.mem_filter]
    constructor
    · rintro ⟨_, h⟩; simpa using h
    · intro h; exact ⟨(h2 x).2 ⟨k, h⟩, by simpa using h⟩
  refine and_congr_right fun _ => ⟨?_, ?_⟩
  · rintro rfl; exact hd
  · rintro ⟨l, n1, m1, rfl⟩
    obtain ⟨l', n2, m2, e⟩ := hd
    rw [e]
    have : l'.Perm l := (List.perm_ext_iff_of_nodup n2 n1).2 fun a => (m2 a).trans (m1 a).symm
    exact this.length_eq

theorem checks_nil_iff (d : Dir) (files : List Item) : (tally d files).checks = [] ↔ allCounted d files = [] := by
  obtain ⟨_, h⟩ := tally_spec d files
  constructor
  · intro he
    rw [List.eq_nil_iff_forall_not_mem]
    rintro ⟨x, c⟩ hx
    -- some number of texts
    obtain ⟨l, hl1, hl2⟩ : ∃ l : List Bytes, l.Nodup ∧ ∀ y, y ∈ l ↔ (y, c) ∈ allCounted d files := by
      rw [tally_eq] at *
      obtain ⟨h1, h2, _⟩ := fold_spec (allCounted d files) [] ⟨[], []⟩ (fun x c c' h h' => allCounted_functional h h') List.nodup_nil (by simp) .nil (by simp) (by simp [cnt])
      refine ⟨((allCounted d files).foldl tallyStep ⟨[], []⟩).seen.filter fun y => (y, c) ∈ allCounted d files, h1.filter _, fun y => ?_⟩
      rw [List.mem_filter]
      simp only [List.nil_append] at h2
      exact ⟨fun h => by simpa using h.2, fun h => ⟨(h2 y).2 ⟨c, h⟩, by simpa using h⟩⟩
    have hpos : 0 < l.length := List.length_pos_of_mem ((hl2 x).2 hx)
    have := (h c l.length).2 ⟨hpos, l, hl1, hl2, rfl⟩
    rw [he] at this
    cases this
  · intro he
    rw [List.eq_nil_iff_forall_not_mem]
    rintro ⟨k, n⟩ hk
    obtain ⟨hn, l, _, h2, rfl⟩ := (h k n).1 hk
    obtain ⟨x, hx⟩ := List.exists_mem_of_length_pos hn
    have := (h2 x).1 hx
    rw [he] at this
    cases this

theorem counted_nil_iff (lead : Bytes) (lines : List Bytes) : counted (some lead) lines = [] ↔ ∀ line ∈ lines, ∀ c, ¬ Finding line c := by
  induction lines generalizing lead with
  | nil => simp [counted]
  | cons line rest ih =>
    rw [counted]
    cases hc : checkOf line with
    | some ck =>
      simp only [reduceCtorEq, false_iff]
      intro h
      exact h line (by simp) ck (checkOf_eq_some.1 hc)
    | none =>
      simp only
      rw [ih]
      constructor
      · intro h l hl
        rcases List.mem_cons.1 hl with rfl | hl
        · exact checkOf_eq_none.1 hc
        · exact h l hl
      · intro h l hl
        exact h l (List.mem_cons_of_mem _ hl)

private theorem decimalAux_digits (f n : Nat) (acc : Bytes) (h : ∀ c ∈ acc, isDigit c = true) : ∀ c ∈ decimalAux f n acc, isDigit c = true := by
  induction f generalizing n acc with
  | zero => exact h
  | succ f ih =>
    have hd : isDigit (UInt8.ofNat (0x30 + n % 10)) = true := by
      have h10 : n % 10 < 10 := Nat.mod_lt _ (by decide)
      generalize n % 10 = m at h10
      have : ∀ m : Fin 10, isDigit (UInt8.ofNat (0x30 + m.val)) = true := by decide
      exact this ⟨m, h10⟩
    have hacc : ∀ c ∈ UInt8.ofNat (0x30 + n % 10) :: acc, isDigit c = true := by
      intro c hc
      rcases List.mem_cons.1 hc with rfl | hc
      · exact hd
      · exact h c hc
    rw [decimalAux]
    split
    · exact hacc
    · exact ih _ _ hacc

theorem decimal_digits (n : Nat) : ∀ c ∈ decimal n, isDigit c = true := decimalAux_digits _ _ _ (by simp)

private theorem decimalAux_ne_nil (f n : Nat) (acc : Bytes) (h : acc ≠ []) : decimalAux f n acc ≠ [] := by
  induction f generalizing n acc with
  | zero => exact h
  | succ f ih =>
    rw [decimalAux]
    split
    · simp
    · exact ih _ _ (by simp)

theorem decimal_ne_nil (n : Nat) : decimal n ≠ [] := by
  unfold decimal
  rw [decimalAux]
  split
  · simp
  · exact decimalAux_ne_nil _ _ _ (by simp)

end Verif.Tidy
