import Verif.Spec.Tidy.Run
/-! Names of the store, and operations on a directory seen through its names. -/
namespace Verif.Tidy
open Verif.Spec.Tidy

/-! ## Decimal and hexadecimal numbers -/

/-- Value of decimal digits. -/
private def val (l : Bytes) : Nat := l.foldl (fun n c => n * 10 + (c.toNat - 0x30)) 0

private theorem foldl_val (l : Bytes) (a : Nat) : l.foldl (fun n c => n * 10 + (c.toNat - 0x30)) a = a * 10 ^ l.length + val l := by
  unfold val
  induction l generalizing a with
  | nil => simp
  | cons c l ih =>
    rw [List.foldl_cons, ih, List.foldl_cons, ih (0 * 10 + _), List.length_cons, Nat.pow_succ]
    simp only [Nat.zero_mul, Nat.zero_add, Nat.add_mul, Nat.add_assoc, Nat.mul_assoc]
    rw [Nat.mul_comm 10]

theorem digit_toNat {n : Nat} (h : n < 10) : (UInt8.ofNat (0x30 + n)).toNat = 0x30 + n := by
  simp; omega

private theorem decimalAux_val (f n : Nat) (acc : Bytes) (h : n < f) :
    val (decimalAux f n acc) = n * 10 ^ acc.length + val acc := by
  induction f generalizing n acc with
  | zero => omega
  | succ f ih =>
    rw [decimalAux]
    have hc : val (UInt8.ofNat (0x30 + n % 10) :: acc) = n % 10 * 10 ^ acc.length + val acc := by
      unfold val
      rw [List.foldl_cons, foldl_val]
      have := digit_toNat (Nat.mod_lt n (by decide : 0 < 10))
      rw [this]
      simp [val]
    by_cases h0 : n / 10 = 0
    · simp only [h0, if_true]
      rw [hc]
      have : n % 10 = n := Nat.mod_eq_of_lt (by omega)
      rw [this]
    · simp only [h0, if_false]
      rw [ih _ _ (by omega), hc, List.length_cons, Nat.pow_succ, ← Nat.add_assoc]
      congr 1
      have : n = n / 10 * 10 + n % 10 := by omega
      conv => rhs; rw [this]
      rw [Nat.add_mul, Nat.mul_assoc, Nat.mul_comm 10]

theorem decimal_inj {m n : Nat} (h : decimal m = decimal n) : m = n := by
  have hv : ∀ n, val (decimal n) = n := fun n => by
    unfold decimal
    rw [decimalAux_val _ _ _ (Nat.lt_succ_self n)]
    simp [val]
  rw [← hv m, h, hv]

private theorem decimalAux_digit (f n : Nat) (acc : Bytes) (h : ∀ c ∈ acc, c ≠ 0x2e) : ∀ c ∈ decimalAux f n acc, c ≠ 0x2e := by
  induction f generalizing n acc with
  | zero => exact h
  | succ f ih =>
    rw [decimalAux]
    have : ∀ c ∈ UInt8.ofNat (0x30 + n % 10) :: acc, c ≠ 0x2e := by
      intro c hc
      rcases List.mem_cons.1 hc with rfl | hc
      · intro he
        have := congrArg UInt8.toNat he
        rw [digit_toNat (Nat.mod_lt n (by decide : 0 < 10))] at this
        have h2 : (0x2e : UInt8).toNat = 46 := rfl
        omega
      · exact h c hc
    by_cases h0 : n / 10 = 0
    · simp only [h0, if_true]; exact this
    · simp only [h0, if_false]; exact ih _ _ this

theorem decimal_nodot (n : Nat) : ∀ c ∈ decimal n, c ≠ 0x2e := decimalAux_digit _ _ _ (by simp)

theorem hexDigit_inj {m n : Nat} (hm : m < 16) (hn : n < 16) (h : hexDigit m = hexDigit n) : m = n := by
  have : ∀ a b : Fin 16, hexDigit a = hexDigit b → a = b := by decide +kernel
  exact congrArg Fin.val (this ⟨m, hm⟩ ⟨n, hn⟩ h)

theorem hexDigits_length (k v : Nat) : (hexDigits k v).length = k := by
  induction k generalizing v with
  | zero => rfl
  | succ k ih => rw [hexDigits, List.length_append, ih]; rfl

theorem hexDigits_inj {k a b : Nat} (ha : a < 16 ^ k) (hb : b < 16 ^ k) (h : hexDigits k a = hexDigits k b) : a = b := by
  induction k generalizing a b with
  | zero => simp at ha hb; omega
  | succ k ih =>
    rw [hexDigits, hexDigits] at h
    obtain ⟨h1, h2⟩ := List.append_inj' h rfl
    have h3 := ih (by rw [Nat.pow_succ] at ha; omega) (by rw [Nat.pow_succ] at hb; omega) h1
    have h4 := hexDigit_inj (Nat.mod_lt a (by decide)) (Nat.mod_lt b (by decide)) (List.cons.inj h2).1
    omega

theorem toHex_length (v : BitVec 64) : (toHex v).length = 16 := by
  unfold toHex
  simp [hexDigits_length]

theorem toHex_inj {a b : BitVec 64} (h : toHex a = toHex b) : a = b := by
  unfold toHex at h
  simp only [Nat.sub_self, List.drop_zero] at h
  exact BitVec.eq_of_toNat_eq (hexDigits_inj a.isLt b.isLt h)

/-- Two items are stored under the same name exactly when file name and hash agree. -/
theorem pathFor_eq_iff (a b : Item) : pathFor a = pathFor b ↔ filename a.path = filename b.path ∧ a.hash = b.hash := by
  unfold pathFor
  constructor
  · intro h
    obtain ⟨h1, h2⟩ := List.append_inj' h (by rw [toHex_length, toHex_length])
    exact ⟨(List.append_inj' h1 rfl).1, toHex_inj h2⟩
  · rintro ⟨h1, h2⟩
    rw [h1, h2]

theorem tmpFor_isTmp (pid : Nat) (c : Item) : IsTmp (tmpFor pid c) := ⟨_, rfl⟩

private theorem hexDigit_ne (n : Nat) (h : n < 16) : hexDigit n ≠ 0x70 := by
  have : ∀ a : Fin 16, hexDigit a ≠ 0x70 := by decide +kernel
  exact this ⟨n, h⟩

theorem pathFor_not_tmp (c : Item) : ¬ IsTmp (pathFor c) := by
  rintro ⟨r, h⟩
  unfold pathFor toHex at h
  have h0 : (hexDigits 16 c.hash.toNat).drop (16 - 16) = hexDigits 15 (c.hash.toNat / 16) ++ [hexDigit (c.hash.toNat % 16)] := rfl
  rw [h0, ← List.append_assoc, show r ++ bytes!".tmp" = (r ++ bytes!".tm") ++ bytes!"p" by simp] at h
  have := (List.append_inj' h rfl).2
  exact hexDigit_ne _ (Nat.mod_lt _ (by decide)) (List.cons.inj this).1

private theorem split_dot {a b x y : Bytes} (hx : ∀ c ∈ x, c ≠ 0x2e) (hy : ∀ c ∈ y, c ≠ 0x2e)
    (h : a ++ (bytes!"." ++ x) = b ++ (bytes!"." ++ y)) : a = b ∧ x = y := by
  induction a generalizing b with
  | nil =>
    cases b with
    | nil => simp only [List.nil_append] at h; exact ⟨rfl, List.append_cancel_left h⟩
    | cons c b =>
      exfalso
      simp only [List.nil_append, List.cons_append] at h
      obtain ⟨_, h⟩ := List.cons.inj h
      exact hx 0x2e (by rw [h]; simp) rfl
  | cons c a ih =>
    cases b with
    | nil =>
      exfalso
      simp only [List.nil_append, List.cons_append] at h
      obtain ⟨_, h⟩ := List.cons.inj h
      exact hy 0x2e (by rw [← h]; simp) rfl
    | cons d b =>
      simp only [List.cons_append] at h
      obtain ⟨h1, h2⟩ := List.cons.inj h
      obtain ⟨h3, h4⟩ := ih h2
      exact ⟨by rw [h1, h3], h4⟩

theorem tmpFor_inj {m n : Nat} {a b : Item} (h : tmpFor m a = tmpFor n b) : m = n ∧ pathFor a = pathFor b := by
  unfold tmpFor at h
  obtain ⟨h1, h2⟩ := split_dot (decimal_nodot m) (decimal_nodot n) (List.append_inj' h rfl).1
  exact ⟨decimal_inj h2, h1⟩

/-! ## Directories -/
namespace Dir

/-- The file under a name and its contents. -/
def file (d : Dir) (p : Bytes) : Option (Nat × Bytes) := (d.names p).map fun i => (i, d.data i)

theorem read_eq (d : Dir) (p : Bytes) : d.read p = (d.file p).map (·.2) := by
  unfold read file
  cases d.names p <;> rfl

theorem file_some {d : Dir} {p : Bytes} {i : Nat} {t : Bytes} (h : d.file p = some (i, t)) : d.names p = some i ∧ d.data i = t := by
  unfold file at h
  cases hn : d.names p with
  | none => rw [hn] at h; cases h
  | some j => rw [hn] at h; cases h; exact ⟨rfl, rfl⟩

theorem openTrunc_spec {d : Dir} (hd : Sound d) (p : Bytes) :
    Sound (d.openTrunc p).1 ∧ (d.openTrunc p).1.file p = some ((d.openTrunc p).2, []) ∧
      ∀ q, q ≠ p → (d.openTrunc p).1.file q = d.file q := by
  unfold openTrunc
  cases hn : d.names p with
  | some i =>
    refine ⟨hd, by simp [file, hn], fun q hq => ?_⟩
    unfold file
    cases hq' : d.names q with
    | none => simp [hq']
    | some j =>
      have : j ≠ i := fun e => hq (hd.1 q p i (by rw [hq', e]) hn)
      simp [hq', this]
  | none =>
    refine ⟨⟨fun a b i ha hb => ?_, fun a i ha => ?_⟩, by simp [file], fun q hq => ?_⟩
    · simp only at ha hb
      by_cases h1 : a = p <;> by_cases h2 : b = p
      · rw [h1, h2]
      · rw [if_pos h1] at ha; rw [if_neg h2] at hb
        have := hd.2 b i hb
        cases ha; omega
      · rw [if_neg h1] at ha; rw [if_pos h2] at hb
        have := hd.2 a i ha
        cases hb; omega
      · rw [if_neg h1] at ha; rw [if_neg h2] at hb
        exact hd.1 a b i ha hb
    · simp only at ha
      by_cases h1 : a = p
      · rw [if_pos h1] at ha; cases ha; simp
      · rw [if_neg h1] at ha
        have := hd.2 a i ha
        simp; omega
    · unfold file
      simp only [if_neg hq]
      cases hq' : d.names q with
      | none => rfl
      | some j =>
        have := hd.2 q j hq'
        have : j ≠ d.next := by omega
        simp [this]

theorem write_spec {d : Dir} (hd : Sound d) {p : Bytes} {i : Nat} {old : Bytes} (h : d.file p = some (i, old)) (now : Bytes) :
    Sound (d.write i old.length now) ∧ (d.write i old.length now).file p = some (i, old ++ now) ∧
      ∀ q, q ≠ p → (d.write i old.length now).file q = d.file q := by
  obtain ⟨hn, ho⟩ := file_some h
  refine ⟨hd, ?_, fun q hq => ?_⟩
  · unfold file write
    simp [hn, ho, writeAt]
  · unfold file write
    cases hq' : d.names q with
    | none => simp [hq']
    | some j =>
      have : j ≠ i := fun e => hq (hd.1 q p i (by rw [hq', e]) hn)
      simp [hq', this]

theorem remove_spec {d : Dir} (hd : Sound d) (p : Bytes) :
    Sound (d.remove p) ∧ (d.remove p).file p = none ∧ ∀ q, q ≠ p → (d.remove p).file q = d.file q := by
  unfold remove
  refine ⟨⟨fun a b i ha hb => ?_, fun a i ha => ?_⟩, by simp [file], fun q hq => by simp [file, hq]⟩
  · simp only at ha hb
    by_cases h1 : a = p
    · rw [if_pos h1] at ha; cases ha
    · by_cases h2 : b = p
      · rw [if_pos h2] at hb; cases hb
      · rw [if_neg h1] at ha; rw [if_neg h2] at hb; exact hd.1 a b i ha hb
  · simp only at ha
    by_cases h1 : a = p
    · rw [if_pos h1] at ha; cases ha
    · rw [if_neg h1] at ha; exact hd.2 a i ha

theorem rename_spec {d d' : Dir} (hd : Sound d) {a b : Bytes} (hab : a ≠ b) (h : d.rename a b = some d') :
    Sound d' ∧ (∃ x, d.file a = some x ∧ d'.file b = some x) ∧ d'.file a = none ∧ ∀ q, q ≠ a → q ≠ b → d'.file q = d.file q := by
  unfold rename at h
  cases hn : d.names a with
  | none => rw [hn] at h; cases h
  | some i =>
    rw [hn] at h
    simp only [Option.some.injEq] at h
    subst h
    refine ⟨⟨fun p q j hp hq => ?_, fun p j hp => ?_⟩, ⟨(i, d.data i), by simp [file, hn], by simp [file]⟩, by simp [file, hab], fun q h1 h2 => by simp [file, h1, h2]⟩
    · simp only at hp hq
      by_cases p1 : p = b
      · rw [if_pos p1] at hp
        cases hp
        by_cases q1 : q = b
        · rw [p1, q1]
        · rw [if_neg q1] at hq
          by_cases q2 : q = a
          · rw [if_pos q2] at hq; cases hq
          · rw [if_neg q2] at hq; exact absurd (hd.1 q a i hq hn) q2
      · rw [if_neg p1] at hp
        by_cases p2 : p = a
        · rw [if_pos p2] at hp; cases hp
        · rw [if_neg p2] at hp
          by_cases q1 : q = b
          · rw [if_pos q1] at hq
            cases hq
            exact absurd (hd.1 p a i hp hn) p2
          · rw [if_neg q1] at hq
            by_cases q2 : q = a
            · rw [if_pos q2] at hq; cases hq
            · rw [if_neg q2] at hq; exact hd.1 p q j hp hq
    · simp only at hp
      by_cases p1 : p = b
      · rw [if_pos p1] at hp; cases hp; exact hd.2 a i hn
      · rw [if_neg p1] at hp
        by_cases p2 : p = a
        · rw [if_pos p2] at hp; cases hp
        · rw [if_neg p2] at hp; exact hd.2 p j hp

theorem rename_none {d : Dir} {a b : Bytes} (h : d.rename a b = none) : d.file a = none := by
  unfold rename at h
  unfold file
  cases hn : d.names a with
  | none => rfl
  | some i => rw [hn] at h; cases h

end Dir
end Verif.Tidy
