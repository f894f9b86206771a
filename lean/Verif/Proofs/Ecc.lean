import Verif.Model.Frame
/-! Linearity of the frame ECC. -/
namespace Verif.Xc7

theorem and_one_ne_zero (a : Word) : (a &&& 1#32 ≠ 0#32) ↔ a.getLsbD 0 = true := by
  constructor
  · intro h
    cases hb : a.getLsbD 0
    · exfalso; apply h
      apply BitVec.eq_of_getLsbD_eq
      intro i hi
      simp only [BitVec.getLsbD_and, BitVec.getLsbD_zero, BitVec.getLsbD_one]
      by_cases h0 : i = 0
      · subst h0; rw [hb]; rfl
      · simp [h0]
    · rfl
  · intro h h0
    have := congrArg (fun x => x.getLsbD 0) h0
    simp at this; simp_all

theorem eccBits_xor (val : Word) (n : Nat) : ∀ a b e f : Word,
    eccBits val n (a ^^^ b) (e ^^^ f) = eccBits val n a e ^^^ eccBits val n b f := by
  induction n with
  | zero => intros; rfl
  | succ n ih =>
    intro a b e f
    simp only [eccBits, and_one_ne_zero, BitVec.getLsbD_xor]
    rw [BitVec.ushiftRight_xor_distrib, ← ih]
    congr 1
    generalize val + BitVec.ofNat 32 (32 - (n + 1)) = c
    cases ha : a.getLsbD 0 <;> cases hb : b.getLsbD 0 <;> simp [BitVec.xor_assoc]
    · exact BitVec.xor_comm f c
    · rw [← BitVec.xor_assoc c f c, BitVec.xor_comm c f, BitVec.xor_assoc f c c]; simp

theorem xor_and_distrib (a b m : Word) : (a ^^^ b) &&& m = (a &&& m) ^^^ (b &&& m) := by
  apply BitVec.eq_of_getLsbD_eq
  intro i _
  simp only [BitVec.getLsbD_xor, BitVec.getLsbD_and]
  cases a.getLsbD i <;> cases b.getLsbD i <;> cases m.getLsbD i <;> rfl

/-- One folding step of the parity computation. -/
def foldXor (k : Nat) (v : Word) : Word := v ^^^ (v >>> k)

theorem foldXor_xor (k : Nat) (a b : Word) : foldXor k (a ^^^ b) = foldXor k a ^^^ foldXor k b := by
  unfold foldXor
  rw [BitVec.ushiftRight_xor_distrib]
  ac_rfl

/-- Parity of the low 12 bits, in bit 0. -/
def par12 (e : Word) : Word :=
  foldXor 1 (foldXor 2 (foldXor 4 (foldXor 8 (e &&& 0xFFF#32)))) &&& 1#32

theorem par12_xor (a b : Word) : par12 (a ^^^ b) = par12 a ^^^ par12 b := by
  simp only [par12, xor_and_distrib, foldXor_xor]

theorem eccParity_eq (e : Word) : eccParity e = e ^^^ (par12 e <<< 12) := rfl

theorem eccParity_xor (a b : Word) : eccParity (a ^^^ b) = eccParity a ^^^ eccParity b := by
  simp only [eccParity_eq, par12_xor, BitVec.shiftLeft_xor_distrib]
  ac_rfl

theorem icapECC_xor (idx a b e f : Word) :
    icapECC idx (a ^^^ b) (e ^^^ f) = icapECC idx a e ^^^ icapECC idx b f := by
  unfold icapECC
  split <;> split <;> simp only [xor_and_distrib, eccBits_xor, eccParity_xor]

/-- Word-wise XOR of two frames. -/
def xorFrame (a b : List Word) : List Word := List.zipWith (· ^^^ ·) a b

theorem calculateECCFrom_xor : ∀ (a b : List Word) (i : Nat) (e f : Word), a.length = b.length →
    calculateECCFrom i (e ^^^ f) (xorFrame a b) =
      calculateECCFrom i e a ^^^ calculateECCFrom i f b := by
  intro a
  induction a with
  | nil => intro b i e f h; cases b <;> simp_all [calculateECCFrom, xorFrame]
  | cons x xs ih =>
    intro b i e f h
    cases b with
    | nil => simp at h
    | cons y ys =>
      simp only [xorFrame, List.zipWith_cons_cons, calculateECCFrom, icapECC_xor]
      exact ih ys (i + 1) _ _ (by simpa using h)

theorem calculateECC_xor (a b : List Word) (h : a.length = b.length) :
    calculateECC (xorFrame a b) = calculateECC a ^^^ calculateECC b := by
  have := calculateECCFrom_xor a b 0 0#32 0#32 h
  simpa [calculateECC] using this

theorem eccBits_zero (val e : Word) : ∀ n, eccBits val n 0#32 e = e := by
  intro n
  induction n with
  | zero => rfl
  | succ n ih => simp [eccBits, ih]

theorem eccBits_add (val w e : Word) (n : Nat) : eccBits val n w e = e ^^^ eccBits val n w 0#32 := by
  have := eccBits_xor val n 0#32 w e 0#32
  simpa [eccBits_zero] using this

theorem eccBits_single (val : Word) (n b : Nat) (hn : n ≤ 32) (hb : b < n) :
    eccBits val n (1#32 <<< b) 0#32 = val + BitVec.ofNat 32 (32 - n + b) := by
  induction n generalizing b with
  | zero => omega
  | succ n ih =>
    simp only [eccBits, and_one_ne_zero]
    have hs : (1#32 <<< b) >>> 1 = if b = 0 then 0#32 else 1#32 <<< (b - 1) := by
      apply BitVec.eq_of_getLsbD_eq
      intro i hi
      by_cases h0 : b = 0
      · subst h0; simp
      · simp [h0, BitVec.getLsbD_one]
        have : 1 + i - b = 0 ↔ i - (b - 1) = 0 := by omega
        by_cases h1 : 1 + i < 32 <;> by_cases h2 : 1 + i < b <;> grind
    by_cases h0 : b = 0
    · subst h0
      simp [eccBits_zero]
    · have : (1#32 <<< b).getLsbD 0 = false := by simp; omega
      rw [hs, if_neg h0]
      simp only [this]
      simp only [Bool.false_eq_true, if_false]
      rw [ih (b - 1) (by omega) (by omega)]
      congr 2; omega

theorem calculateECCFrom_zeros (n : Nat) : ∀ (i : Nat) (e : Word), i + n ≤ 101 →
    calculateECCFrom i e (List.replicate n 0#32) =
      if i ≤ 100 ∧ 100 < i + n then eccParity e else e := by
  induction n with
  | zero => intro i e h; simp [calculateECCFrom]; omega
  | succ n ih =>
    intro i e h
    simp only [List.replicate_succ, calculateECCFrom]
    rw [ih (i + 1) _ (by omega)]
    have hx : icapECC (BitVec.ofNat 32 i) 0#32 e = if i = 100 then eccParity e else e := by
      have hi : (BitVec.ofNat 32 i = 0x64#32) ↔ i = 100 := by
        constructor
        · intro hh
          have := congrArg BitVec.toNat hh
          simp at this; omega
        · intro hh; subst hh; rfl
      simp [icapECC, hi, eccBits_zero]
    rw [hx]
    by_cases h1 : i = 100
    · subst h1; simp
    · rw [if_neg h1]
      by_cases h2 : i ≤ 100 ∧ 100 < i + (n + 1)
      · rw [if_pos h2, if_pos (by omega)]
      · rw [if_neg h2, if_neg (by omega)]

/-- A frame of `n` words with only bit `b` of word `k` set. -/
def unitFrame (n k b : Nat) : List Word := (List.replicate n 0#32).set k (1#32 <<< b)

theorem unitFrame_eq (n k b : Nat) (hk : k < n) :
    unitFrame n k b = List.replicate k 0#32 ++ (1#32 <<< b) :: List.replicate (n - k - 1) 0#32 := by
  unfold unitFrame
  apply List.ext_getElem
  · simp; omega
  · intro i h1 h2
    simp only [List.getElem_set, List.getElem_replicate, List.getElem_append, List.getElem_cons,
      List.length_replicate]
    by_cases hik : i < k
    · have : k ≠ i := by omega
      simp [hik, this]
    · by_cases hi2 : i = k
      · subst hi2; simp
      · have h3 : k ≠ i := by omega
        have h4 : i - k ≠ 0 := by omega
        simp [hik, h3, h4]

theorem calculateECCFrom_append : ∀ (a b : List Word) (i : Nat) (e : Word),
    calculateECCFrom i e (a ++ b) = calculateECCFrom (i + a.length) (calculateECCFrom i e a) b := by
  intro a
  induction a with
  | nil => intros; rfl
  | cons x xs ih =>
    intro b i e
    simp only [List.cons_append, calculateECCFrom, ih, List.length_cons]
    congr 1; omega

theorem eccParity_zero : eccParity 0#32 = 0#32 := by decide

theorem eccBits_highmask (val : Word) (b : Nat) (hb : b < 13) :
    eccBits val 32 ((1#32 <<< b) &&& 0xFFFFE000#32) 0#32 = 0#32 := by
  have : (1#32 <<< b) &&& 0xFFFFE000#32 = 0#32 := by
    have : b = 0 ∨ b = 1 ∨ b = 2 ∨ b = 3 ∨ b = 4 ∨ b = 5 ∨ b = 6 ∨ b = 7 ∨ b = 8 ∨ b = 9 ∨ b = 10 ∨
      b = 11 ∨ b = 12 := by omega
    rcases this with h|h|h|h|h|h|h|h|h|h|h|h|h <;> subst h <;> decide
  rw [this, eccBits_zero]

theorem highmask_keep : ∀ b : Nat, b < 32 → 13 ≤ b → (1#32 <<< b) &&& 0xFFFFE000#32 = 1#32 <<< b := by
  decide

/-- ECC of a one-bit frame: the parity-extended code of that bit, or 0 for the masked bits. -/
theorem calculateECC_unit (k b : Nat) (hk : k < 101) (hb : b < 32) :
    calculateECC (unitFrame 101 k b) =
      if k = 50 ∧ b < 13 then 0#32
      else eccParity (eccVal (BitVec.ofNat 32 k) + BitVec.ofNat 32 b) := by
  rw [unitFrame_eq _ _ _ hk, calculateECC, calculateECCFrom_append, List.length_replicate,
    calculateECCFrom_zeros _ _ _ (by omega), if_neg (by omega)]
  simp only [calculateECCFrom, Nat.zero_add]
  rw [calculateECCFrom_zeros _ _ _ (by omega)]
  have hi50 : (BitVec.ofNat 32 k = 0x32#32) ↔ k = 50 := by
    constructor
    · intro hh
      have := congrArg BitVec.toNat hh
      simp at this; omega
    · intro hh; subst hh; rfl
  have hi100 : (BitVec.ofNat 32 k = 0x64#32) ↔ k = 100 := by
    constructor
    · intro hh
      have := congrArg BitVec.toNat hh
      simp at this; omega
    · intro hh; subst hh; rfl
  have hone := eccBits_single (eccVal (BitVec.ofNat 32 k)) 32 b (by omega) hb
  simp only [Nat.sub_self, Nat.zero_add] at hone
  by_cases h50 : k = 50
  · by_cases h13 : b < 13
    · have hz := eccBits_highmask (eccVal (BitVec.ofNat 32 k)) b h13
      simp only [icapECC, h50, if_true]
      subst h50
      rw [hz]
      simp [h13, eccParity_zero]
    · have hz := highmask_keep b hb (by omega)
      simp only [icapECC, h50, if_true, h13, and_false, if_false]
      subst h50
      rw [hz, hone]
      simp
  · simp only [icapECC, hi50, hi100, h50, if_false, false_and]
    rw [hone]
    by_cases h100 : k = 100
    · subst h100; simp
    · rw [if_neg h100, if_pos (by omega)]

theorem toNat_eccVal (k : Nat) (hk : k < 101) :
    (eccVal (BitVec.ofNat 32 k)).toNat =
      k * 32 + (if 0x25 < k then 0x1360 else if 0x6 < k then 0x1340 else 0x1320) := by
  unfold eccVal
  have h1 : (BitVec.ofNat 32 k > 0x25#32) ↔ 0x25 < k := by
    simp only [GT.gt, BitVec.lt_def, BitVec.toNat_ofNat]; omega
  have h2 : (BitVec.ofNat 32 k > 0x6#32) ↔ 0x6 < k := by
    simp only [GT.gt, BitVec.lt_def, BitVec.toNat_ofNat]; omega
  simp only [h1, h2, BitVec.toNat_add, BitVec.toNat_mul, BitVec.toNat_ofNat]
  split
  · simp; omega
  · split <;> simp <;> omega

theorem toNat_eccCode (k b : Nat) (hk : k < 101) (hb : b < 32) :
    (eccVal (BitVec.ofNat 32 k) + BitVec.ofNat 32 b).toNat =
      k * 32 + (if 0x25 < k then 0x1360 else if 0x6 < k then 0x1340 else 0x1320) + b := by
  rw [BitVec.toNat_add, toNat_eccVal k hk, BitVec.toNat_ofNat]
  split
  · omega
  · split <;> omega

end Verif.Xc7
