import Verif.Proofs.FasmWf
/-! # Well-formed FASM lines: the whole line -/
namespace Verif.Fasm
open Verif.Spec

/-- Characters that end the feature part of a line. -/
def Stop (e : Bytes) : Prop := hd e = chNl ∨ hd e = chHash ∨ hd e = chCr ∨ hd e = chLBrace

theorem Stop.afterRange {e : Bytes} (h : Stop e) : AfterRange e := by
  unfold AfterRange
  rcases h with h | h | h | h <;> rw [h] <;> decide

theorem Stop.afterValue {e : Bytes} (h : Stop e) : AfterValue e := by
  unfold AfterValue
  rcases h with h | h | h | h <;> rw [h] <;> decide

theorem Stop.ident {e : Bytes} (h : Stop e) : isIdent (hd e) = false := by
  rcases h with h | h | h | h <;> rw [h] <;> decide

theorem LineEnd.stop {e : Bytes} (h : LineEnd e) : Stop e := by
  obtain ⟨_, h⟩ := h
  cases e with
  | nil => exact Or.inl rfl
  | cons c cs =>
    simp only [reduceCtorEq, List.head?_cons, Option.some.injEq, false_or, List.cons.injEq] at h
    rcases h with rfl | ⟨rfl, rfl⟩
    · exact Or.inr (Or.inl rfl)
    · exact Or.inr (Or.inr (Or.inl rfl))

theorem LineEnd.tail {e : Bytes} (h : LineEnd e) (ann : Bool) (st : St) (line : Nat) (name : Bytes) :
    tailP ann st line name e = st := by
  obtain ⟨_, h⟩ := h
  unfold tailP endP
  cases e with
  | nil => rfl
  | cons c cs =>
    simp only [reduceCtorEq, List.head?_cons, Option.some.injEq, false_or, List.cons.injEq] at h
    rcases h with rfl | ⟨rfl, rfl⟩ <;> rfl

theorem value_afterRange (g : Nat → Bytes) (v : ValueText) (e : Bytes) (h : Stop e) :
    AfterRange (v.text g ++ e) := by
  cases v with
  | absent => exact h.afterRange
  | plain d => simp only [ValueText.text, List.cons_append, AfterRange, hd_cons]; decide
  | based w b d => simp only [ValueText.text, List.cons_append, AfterRange, hd_cons]; decide

theorem rest_ident (g : Nat → Bytes) (r : RangeText) (v : ValueText) (e : Bytes) (h : Stop e) :
    isIdent (hd (r.text g ++ (v.text g ++ e))) = false ∧ isBlank (hd (r.text g ++ (v.text g ++ e))) = false := by
  cases r with
  | absent =>
    cases v with
    | absent => exact ⟨h.ident, h.afterRange.1⟩
    | plain d => exact ⟨(by decide : isIdent 0x3d = false), (by decide : isBlank 0x3d = false)⟩
    | based w b d => exact ⟨(by decide : isIdent 0x3d = false), (by decide : isBlank 0x3d = false)⟩
  | bit d => exact ⟨(by decide : isIdent 0x5b = false), (by decide : isBlank 0x5b = false)⟩
  | span hi lo => exact ⟨(by decide : isIdent 0x5b = false), (by decide : isBlank 0x5b = false)⟩

theorem ident_not_blank {c : UInt8} (h : isIdent c = true) : isBlank c = false := by
  revert c; intro c
  refine forall_u8 (p := fun c => isIdent c = true → isBlank c = false) ?_ c
  decide +kernel

/-- A well-formed feature followed by the end of the line, a comment or annotations. -/
theorem lineP_wf (ann : Bool) (cb : List Event → Bool) (st : St) (line : Nat) (g : Nat → Bytes)
    (hg : ∀ i, Blank (g i)) (f : FeatureText) (hf : f.WellFormed) (e : Bytes) (he : Stop e) :
    ∃ cs, ChunksOf f.value cs ∧
      lineP ann cb st line (f.text g ++ e) =
        (reportChunks cb line f.name f.range.lo (if clamps f then 64 else f.range.width) cs.length 0 cs
          (st.warn line (f.warnings ++ if clamps f then [.error] else []))).bind fun st =>
            .ok (tailP ann st line f.name e) := by
  obtain ⟨hne, hname, hr, hv⟩ := hf
  have hid := rest_ident g f.range f.value e he
  have hnm : ∀ c ∈ f.name, isIdent c = true := fun c hc => (isIdent_spec c).2 (hname c hc)
  have h1 : (f.text g ++ e).dropWhile isBlank = f.name ++ (g 1 ++ (f.range.text g ++ (f.value.text g ++ e))) := by
    unfold FeatureText.text
    simp only [List.append_assoc]
    refine dropBlank (g 0) _ (hg 0) ?_
    cases hn : f.name with
    | nil => exact absurd hn hne
    | cons x xs => exact ident_not_blank (hnm x (by rw [hn]; exact List.mem_cons_self))
  have h2 := span_eq isIdent f.name (g 1 ++ (f.range.text g ++ (f.value.text g ++ e))) hnm isIdent_nl
    (hd_append _ _ _ (blank_not_ident (hg 1)) hid.1)
  have h3 := dropBlank (g 1) (f.range.text g ++ (f.value.text g ++ e)) (hg 1) hid.2
  have h4 := rangeP_text g hg f.range hr (f.value.text g ++ e) (value_afterRange g f.value e he)
  have h5 := assignP_text g hg st line f hv e he.afterValue
  refine ⟨_, h5.2.2.1, ?_⟩
  unfold lineP
  have hemp : f.name.isEmpty = false := by cases hn : f.name with
    | nil => exact absurd hn hne
    | cons => rfl
  simp only [h1, h2.1, h2.2, h3, hemp, Bool.false_eq_true, if_false, h4.1, h4.2]
  rw [h5.1, h5.2.1, h5.2.2.2]

/-! ## The chunk loop -/

/-- Width of chunk `i` when a `width`-bit range is cut into 64-bit chunks. -/
def chunkWidth (width i : Nat) : Nat := min 64 (width - 64 * i)

/-- The feature calls for the value `u` of a `width`-bit range, chunks `i ..< i + n`. -/
def chunkEvents (line : Nat) (name : Bytes) (lo width u : Nat) : Nat → Nat → List Event
  | _, 0 => []
  | i, n + 1 => .feature line name ((lo + 64 * i : Nat) : Int) (chunkWidth width i : Nat)
      (u / 2 ^ (64 * i) % 2 ^ chunkWidth width i) :: chunkEvents line name lo width u (i + 1) n

theorem mask_eq (v w : Nat) (hw : 1 ≤ w) (hw' : w ≤ 64) :
    v &&& ((2 ^ 64 - 1) >>> ((64#32 : BitVec 32) - BitVec.ofNat 32 w).toNat) = v % 2 ^ w := by
  have e : ((64#32 : BitVec 32) - BitVec.ofNat 32 w).toNat = 64 - w := by
    rw [BitVec.toNat_sub, BitVec.toNat_ofNat, BitVec.toNat_ofNat]; omega
  have e2 : (2 ^ 64 - 1) >>> (64 - w) = 2 ^ w - 1 := by
    rw [Nat.shiftRight_eq_div_pow]
    have : 2 ^ 64 = 2 ^ w * 2 ^ (64 - w) := by rw [← Nat.pow_add]; congr 1; omega
    rw [this]
    have hp : 0 < 2 ^ (64 - w) := Nat.two_pow_pos _
    have hp2 : 0 < 2 ^ w := Nat.two_pow_pos _
    have : 2 ^ w * 2 ^ (64 - w) - 1 = (2 ^ w - 1) * 2 ^ (64 - w) + (2 ^ (64 - w) - 1) := by
      rw [Nat.sub_mul, Nat.one_mul]
      have : 2 ^ (64 - w) ≤ 2 ^ w * 2 ^ (64 - w) := Nat.le_mul_of_pos_left _ hp2
      omega
    rw [this, Nat.mul_comm, Nat.mul_add_div hp, Nat.div_eq_of_lt (by omega), Nat.add_zero]
  rw [e, e2, Nat.and_two_pow_sub_one_eq_mod]

theorem amount_lt_iff (vw : Nat) (h : vw < 2 ^ 32) :
    ((64#32 : BitVec 32) - BitVec.ofNat 32 vw).toNat < 64 ↔ 1 ≤ vw ∧ vw ≤ 64 := by
  rw [BitVec.toNat_sub, BitVec.toNat_ofNat, BitVec.toNat_ofNat]; omega

theorem toInt32_small (n : Nat) (h : n < 2 ^ 31) : toInt32 n = (n : Int) := by
  unfold toInt32
  rw [BitVec.toInt_eq_toNat_of_lt]
  · rw [BitVec.toNat_ofNat, Nat.mod_eq_of_lt (by omega)]
  · rw [BitVec.toNat_ofNat]; omega

/-- The width the code computes is the chunk width when the number of chunks fits the range. -/
theorem valueWidth_fit (width total i : Nat) (hw : width < 2 ^ 32) (ht : 64 * (total - 1) < width) (ht' : width ≤ 64 * total)
    (hi : i < total) : valueWidth width total i = chunkWidth width i := by
  unfold valueWidth chunkWidth
  split
  · rw [BitVec.toNat_sub, BitVec.toNat_ofNat, BitVec.toNat_ofNat]
    subst_vars
    omega
  · omega

theorem chunkWidth_fit (width total i : Nat) (ht : 64 * (total - 1) < width) (hi : i < total) :
    1 ≤ chunkWidth width i ∧ chunkWidth width i ≤ 64 := by
  unfold chunkWidth; omega

theorem chunk_value (u i : Nat) (c : Nat) (cs : List Nat) (hc : c < 2 ^ 64)
    (hu : u / 2 ^ (64 * i) = chunksVal (c :: cs)) (w : Nat) (hw : w ≤ 64) :
    c % 2 ^ w = u / 2 ^ (64 * i) % 2 ^ w ∧ u / 2 ^ (64 * (i + 1)) = chunksVal cs := by
  rw [hu, chunksVal]
  constructor
  · have : 2 ^ 64 = 2 ^ w * 2 ^ (64 - w) := by rw [← Nat.pow_add]; congr 1; omega
    rw [this, Nat.mul_assoc, Nat.add_comm, Nat.mul_add_mod]
  · rw [Nat.mul_add, Nat.mul_one, Nat.pow_add, ← Nat.div_div_eq_div_mul, hu, chunksVal, Nat.add_comm,
      Nat.mul_add_div (by decide), Nat.div_eq_of_lt hc, Nat.add_zero]

theorem reportChunks_all (cb : List Event → Bool) (hcb : ∀ tr, cb tr = true) (line : Nat) (name : Bytes)
    (lo width total u : Nat) (hlo : lo < 65536) (hwid : width ≤ 65536)
    (ht : 64 * (total - 1) < width) (ht' : width ≤ 64 * total) :
    ∀ (cs : List Nat) (i : Nat) (st : St), i + cs.length = total → (∀ c ∈ cs, c < 2 ^ 64) →
      u / 2 ^ (64 * i) = chunksVal cs →
      reportChunks cb line name lo width total i cs st =
        .ok { st with trace := st.trace ++ chunkEvents line name lo width u i cs.length } := by
  intro cs
  induction cs with
  | nil => intro i st _ _ _; simp [reportChunks, chunkEvents]
  | cons c cs ih =>
    intro i st hi hb hu
    rw [List.length_cons] at hi
    have hit : i < total := by omega
    have hvw := valueWidth_fit width total i (by omega) ht ht' hit
    have hcw := chunkWidth_fit width total i ht hit
    have hval := chunk_value u i c cs (hb c List.mem_cons_self) hu (chunkWidth width i) hcw.2
    unfold reportChunks
    dsimp only
    rw [hvw, if_neg (by have := (amount_lt_iff _ (by omega)).2 hcw; omega), mask_eq _ _ hcw.1 hcw.2,
      toInt32_small _ (by omega), toInt32_small _ (by omega), if_pos (hcb _),
      ih (i + 1) _ (by omega) (fun x hx => hb x (List.mem_cons_of_mem _ hx)) hval.2]
    simp only [List.length_cons, chunkEvents, hval.1, List.append_assoc, List.singleton_append,
      Nat.mul_comm i 64]

/-- One chunk, any callback. -/
theorem reportChunks_one (cb : List Event → Bool) (line : Nat) (name : Bytes)
    (lo width c : Nat) (hlo : lo < 65536) (hw : 1 ≤ width) (hw' : width ≤ 64) (st : St) :
    reportChunks cb line name lo width 1 0 [c] st =
      .ok { st with
        trace := st.trace ++ [.feature line name (lo : Int) (width : Int) (c % 2 ^ width)],
        result := if cb (st.trace ++ [.feature line name (lo : Int) (width : Int) (c % 2 ^ width)]) then st.result
          else st.result.max .userAbort } := by
  have hvw : valueWidth width 1 0 = width := by
    unfold valueWidth
    rw [if_pos rfl, BitVec.toNat_sub, BitVec.toNat_ofNat, BitVec.toNat_ofNat]; omega
  unfold reportChunks
  dsimp only
  rw [hvw, if_neg (by have := (amount_lt_iff width (by omega)).2 ⟨hw, hw'⟩; omega), mask_eq _ _ hw hw',
      toInt32_small _ (by omega), toInt32_small _ (by omega), Nat.zero_mul, Nat.add_zero]
  split
  · simp only [reportChunks]
  · rfl

/-- A number of chunks that does not fit the range ends in an undefined shift. -/
theorem reportChunks_shift (cb : List Event → Bool) (hcb : ∀ tr, cb tr = true) (line : Nat) (name : Bytes)
    (lo width total : Nat) (hwid : width ≤ 65536) (htot : total < 2 ^ 25)
    (hno : ¬ (64 * (total - 1) < width ∧ width ≤ 64 * total)) :
    ∀ (cs : List Nat) (i : Nat) (st : St), cs ≠ [] → i + cs.length = total →
      reportChunks cb line name lo width total i cs st = .shift := by
  intro cs
  induction cs with
  | nil => intro i st h; exact absurd rfl h
  | cons c cs ih =>
    intro i st _ hi
    rw [List.length_cons] at hi
    unfold reportChunks
    dsimp only
    by_cases hlast : i = total - 1
    · have : ¬ ((64#32 : BitVec 32) - BitVec.ofNat 32 (valueWidth width total i)).toNat < 64 := by
        have hv : valueWidth width total i = ((BitVec.ofNat 32 width) - (BitVec.ofNat 32 (64 * (total - 1)))).toNat := by
          unfold valueWidth; rw [if_pos hlast]
        rw [amount_lt_iff _ (by rw [hv]; exact BitVec.isLt _), hv, BitVec.toNat_sub, BitVec.toNat_ofNat, BitVec.toNat_ofNat]
        omega
      rw [if_pos (by omega)]
    · split
      · rfl
      · rw [if_pos (hcb _)]
        exact ih (i + 1) _ (by intro h; subst h; simp at hi; omega) (by omega)

/-! ## Line bodies -/

theorem noNl_append {a b : Bytes} (ha : chNl ∉ a) (hb : chNl ∉ b) : chNl ∉ a ++ b := by
  simp only [List.mem_append, not_or]; exact ⟨ha, hb⟩

theorem blank_not_mem {g : Bytes} (h : Blank g) : (0x0a : UInt8) ∉ g ∧ (0x27 : UInt8) ∉ g :=
  ⟨fun hc => by rcases h _ hc with h | h <;> exact absurd h (by decide),
   fun hc => by rcases h _ hc with h | h <;> exact absurd h (by decide)⟩

theorem digit_not_mem {radix : Nat} {s : Bytes} (h : DigitString radix s) : (0x0a : UInt8) ∉ s ∧ (0x27 : UInt8) ∉ s := by
  constructor
  · intro hc
    rcases h _ hc with h | ⟨d, hd, _⟩
    · exact absurd h (by decide)
    · have e : digitValue 0x0a = none := by decide
      rw [e] at hd; cases hd
  · intro hc
    rcases h _ hc with h | ⟨d, hd, _⟩
    · exact absurd h (by decide)
    · have e : digitValue 0x27 = none := by decide
      rw [e] at hd; cases hd

theorem name_not_mem {s : Bytes} (h : ∀ c ∈ s, NameChar c) : (0x0a : UInt8) ∉ s ∧ (0x27 : UInt8) ∉ s := by
  constructor
  · intro hc; have := (isIdent_spec _).2 (h _ hc); exact absurd this (by decide)
  · intro hc; have := (isIdent_spec _).2 (h _ hc); exact absurd this (by decide)

/-- No dangling tick, comments or not. -/
def Strict (s : Bytes) : Prop := ∀ pre blanks, Blank blanks → s ≠ pre ++ 0x27 :: blanks

theorem strict_of (x y : Bytes) (hy : (0x27 : UInt8) ∉ y) (c : UInt8) (hc : c ∈ y) (hb : ¬ (c = 0x20 ∨ c = 0x09)) :
    Strict (x ++ y) := by
  intro pre blanks hbl e
  rw [List.append_eq_append_iff] at e
  rcases e with ⟨a', _, h2⟩ | ⟨c', _, h2⟩
  · exact hy (by rw [h2]; simp)
  · cases c' with
    | nil =>
      simp only [List.nil_append] at h2
      exact hy (by rw [← h2]; simp)
    | cons z zs =>
      simp only [List.cons_append, List.cons.injEq] at h2
      exact hb (hbl c (by rw [h2.2]; exact List.mem_append_right _ hc))

theorem strict_end {a e : Bytes} (ha : Strict a) (he : LineEnd e) : NoDanglingTick (a ++ e) := by
  intro pre blanks hbl h
  rw [List.append_eq_append_iff] at h
  obtain ⟨_, he⟩ := he
  rcases h with ⟨a', h1, h2⟩ | ⟨c', h1, h2⟩
  · rcases he with rfl | he | rfl
    · simp at h2
    · cases a' with
      | nil => rw [h2] at he; simp at he
      | cons z zs =>
        rw [h2] at he
        simp only [List.cons_append, List.head?_cons, Option.some.injEq] at he
        rw [h1, he]; simp
    · cases a' with
      | nil => simp at h2
      | cons z zs => simp at h2
  · cases c' with
    | nil =>
      simp only [List.nil_append] at h2
      rw [← h2] at he
      simp at he
    | cons z zs =>
      simp only [List.cons_append, List.cons.injEq] at h2
      exfalso
      refine ha pre zs ?_ (by rw [h1, h2.1])
      intro c hc
      exact hbl c (by rw [h2.2]; exact List.mem_append_left _ hc)

theorem range_not_mem (g : Nat → Bytes) (hg : ∀ i, Blank (g i)) (r : RangeText) (h : r.WellFormed) :
    (0x0a : UInt8) ∉ r.text g ∧ (0x27 : UInt8) ∉ r.text g := by
  have hb := fun i => blank_not_mem (hg i)
  cases r with
  | absent => simp [RangeText.text]
  | bit d =>
    have h1 := digit_not_mem h.1
    simp [RangeText.text, (hb _).1, (hb _).2, h1.1, h1.2]
  | span hi lo =>
    have h1 := digit_not_mem h.1
    have h2 := digit_not_mem h.2.2.2.1
    simp [RangeText.text, (hb _).1, (hb _).2, h1.1, h1.2, h2.1, h2.2]

theorem text_noNl (g : Nat → Bytes) (hg : ∀ i, Blank (g i)) (f : FeatureText) (hf : f.WellFormed) :
    (0x0a : UInt8) ∉ f.text g := by
  obtain ⟨_, hname, hr, hv⟩ := hf
  have hb := fun i => blank_not_mem (hg i)
  have h1 := range_not_mem g hg f.range hr
  have h2 := name_not_mem hname
  have h3 : (0x0a : UInt8) ∉ f.value.text g := by
    cases hval : f.value with
    | absent => simp [ValueText.text]
    | plain d =>
      rw [hval] at hv
      have := digit_not_mem hv.1
      simp [ValueText.text, (hb _).1, this.1]
    | based w b d =>
      rw [hval] at hv
      have h4 := digit_not_mem hv.1
      have h5 := digit_not_mem hv.2.2.1
      have h6 : ¬ (0x0a : UInt8) = b.letter := by cases b <;> decide
      simp [ValueText.text, (hb _).1, h4.1, h5.1, h6]
  simp [FeatureText.text, (hb _).1, h1.1, h2.1, h3]

theorem text_strict (g : Nat → Bytes) (hg : ∀ i, Blank (g i)) (f : FeatureText) (hf : f.WellFormed) :
    Strict (f.text g) := by
  obtain ⟨hne, hname, hr, hv⟩ := hf
  have hb := fun i => blank_not_mem (hg i)
  have h1 := range_not_mem g hg f.range hr
  have h2 := name_not_mem hname
  obtain ⟨c, hc⟩ := List.exists_mem_of_ne_nil f.name hne
  have hcb : ¬ (c = 0x20 ∨ c = 0x09) := by
    have := ident_not_blank ((isIdent_spec c).2 (hname c hc))
    simpa [isBlank] using this
  have hvs : (0x27 : UInt8) ∉ f.value.text g ∨
      ∃ x y, f.value.text g = x ++ y ∧ (0x27 : UInt8) ∉ y ∧ ∃ c ∈ y, ¬ (c = 0x20 ∨ c = 0x09) := by
    cases hval : f.value with
    | absent => exact Or.inl (by simp [ValueText.text])
    | plain d =>
      rw [hval] at hv
      have := digit_not_mem hv.1
      exact Or.inl (by simp [ValueText.text, (hb _).2, this.2])
    | based w b d =>
      rw [hval] at hv
      have h5 := digit_not_mem hv.2.2.1
      have h6 : ¬ (0x27 : UInt8) = b.letter := by cases b <;> decide
      refine Or.inr ⟨0x3d :: (g 7 ++ w ++ g 8 ++ bytes!"'"), g 9 ++ b.letter :: (g 10 ++ d ++ g 11), ?_, ?_, b.letter, ?_, ?_⟩
      · simp [ValueText.text]
      · simp [(hb _).2, h5.2, h6]
      · simp
      · cases b <;> decide
  rcases hvs with h | ⟨x, y, hxy, hy, c', hc', hcb'⟩
  · have := strict_of [] (f.text g) (by simp [FeatureText.text, (hb _).2, h1.2, h2.2, h]) c
      (by simp [FeatureText.text, hc]) hcb
    simpa using this
  · have : f.text g = (g 0 ++ f.name ++ g 1 ++ f.range.text g ++ x) ++ y := by
      simp [FeatureText.text, hxy]
    rw [this]
    exact strict_of _ y hy c' hc' hcb'

theorem text_line (g : Nat → Bytes) (hg : ∀ i, Blank (g i)) (f : FeatureText) (hf : f.WellFormed) (e : Bytes)
    (he : LineEnd e) : Line (f.text g ++ e) :=
  ⟨noNl_append (text_noNl g hg f hf) he.1, strict_end (text_strict g hg f hf) he⟩

/-- Parsing a file of one line. -/
theorem parse_single (ann : Bool) (cb : List Event → Bool) (s : Bytes) (h : Line s) :
    parse ann cb (s ++ [0x0a]) = lineP ann cb {} 1 s := by
  have := parse_unlines ann cb [s] (by intro x hx; rw [List.mem_singleton.1 hx]; exact h)
  have e : unlines [s] = s ++ [0x0a] := by simp [unlines]
  rw [e] at this
  rw [this]
  show (lineP ann cb {} 1 s).bind (fun st => .ok st) = _
  cases lineP ann cb {} 1 s <;> rfl

theorem range_bounds (r : RangeText) (h : r.WellFormed) : r.lo < 65536 ∧ 1 ≤ r.width ∧ r.width ≤ 65536 := by
  cases r with
  | absent => simp [RangeText.lo, RangeText.width, RangeText.hi]
  | bit d => obtain ⟨_, _, h⟩ := h; simp only [RangeText.lo, RangeText.width, RangeText.hi]; omega
  | span hi lo => obtain ⟨_, _, h1, _, _, h2⟩ := h; simp only [RangeText.lo, RangeText.width, RangeText.hi]; omega

end Verif.Fasm
