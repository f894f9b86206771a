import Verif.Spec.Assembler
import Verif.Proofs.BMap
import Verif.Props.C43_C49
/-! # How features change frames -/
namespace Verif.Asm
open Verif.Db Verif.Spec Verif.Xc7 Verif.Text Verif.BMap

theorem hasFrame_iff {fr : Frames} (hs : fr.Sorted) {k : Nat} : FramePresent fr k ↔ ∃ f, get? fr k = some f :=
  ⟨fun ⟨f, h⟩ => ⟨f, get?_of_mem hs h⟩, fun ⟨f, h⟩ => ⟨f, mem_of_get? h⟩⟩

theorem bitSet_iff {fr : Frames} (hs : fr.Sorted) {k w b : Nat} :
    BitSet fr k w b ↔ ∃ f x, get? fr k = some f ∧ f[w]? = some x ∧ x.getLsbD b = true :=
  ⟨fun ⟨f, x, h, h'⟩ => ⟨f, x, get?_of_mem hs h, h'⟩, fun ⟨f, x, h, h'⟩ => ⟨f, x, mem_of_get? h, h'⟩⟩

/-- The frames grow by the bits `B` and the frames `X`. -/
structure Grows (B : Nat → Nat → Nat → Prop) (X : Nat → Prop) (fr fr' : Frames) : Prop where
  sorted : fr'.Sorted
  bit : ∀ k w b, BitSet fr' k w b ↔ BitSet fr k w b ∨ B k w b
  frame : ∀ k, FramePresent fr' k ↔ FramePresent fr k ∨ X k

theorem Grows.refl {fr : Frames} (hs : fr.Sorted) : Grows (fun _ _ _ => False) (fun _ => False) fr fr :=
  ⟨hs, by simp, by simp⟩

theorem Grows.trans {B B' : Nat → Nat → Nat → Prop} {X X' : Nat → Prop} {a b c : Frames} (h : Grows B X a b)
    (h' : Grows B' X' b c) : Grows (fun k w i => B k w i ∨ B' k w i) (fun k => X k ∨ X' k) a c :=
  ⟨h'.sorted, by intro k w i; rw [h'.bit, h.bit, or_assoc], by intro k; rw [h'.frame, h.frame, or_assoc]⟩

theorem Grows.congr {B B' : Nat → Nat → Nat → Prop} {X X' : Nat → Prop} {a b : Frames} (h : Grows B X a b)
    (hB : ∀ k w i, B k w i ↔ B' k w i) (hX : ∀ k, X k ↔ X' k) : Grows B' X' a b :=
  ⟨h.sorted, by intro k w i; rw [h.bit, hB], by intro k; rw [h.frame, hX]⟩

theorem bitSet_zero (w b : Nat) (x : Word) (h : (zeroFrame frameWordsBase)[w]? = some x) : x.getLsbD b = false := by
  unfold zeroFrame at h
  rw [Vector.getElem?_replicate] at h
  split at h
  · cases h; simp
  · cases h

theorem grows_emplace {fr : Frames} (hs : fr.Sorted) (k : Nat) :
    Grows (fun _ _ _ => False) (fun j => j = k) fr (BMap.emplace fr k (zeroFrame frameWordsBase)) := by
  have hs' := sorted_emplace hs k (zeroFrame frameWordsBase)
  refine ⟨hs', ?_, ?_⟩
  · intro j w b
    rw [bitSet_iff hs', bitSet_iff hs, or_false]
    constructor
    · rintro ⟨f, x, h1, h2, h3⟩
      rw [get?_emplace hs] at h1
      split at h1
      · rename_i hj
        subst hj
        cases hg : get? fr j with
        | some f' => rw [hg] at h1; simp at h1; subst h1; exact ⟨_, _, rfl, h2, h3⟩
        | none =>
          rw [hg] at h1
          simp at h1
          subst h1
          rw [bitSet_zero w b x h2] at h3; cases h3
      · exact ⟨f, x, h1, h2, h3⟩
    · rintro ⟨f, x, h1, h2, h3⟩
      refine ⟨f, x, ?_, h2, h3⟩
      rw [get?_emplace hs]
      split
      · rename_i hj; subst hj; rw [h1]; rfl
      · exact h1
  · intro j
    rw [hasFrame_iff hs', hasFrame_iff hs]
    simp only [get?_emplace hs]
    by_cases hj : j = k
    · simp [hj]
    · simp [hj]

theorem sorted_update {β : Type} {m : BMap β} (hs : m.Sorted) (k : Nat) (g : β → β) : Sorted (update m k g) := by
  unfold update Sorted
  rw [List.pairwise_map]
  refine List.Pairwise.imp ?_ hs
  intro a b h
  split <;> split <;> exact h

theorem get?_update {β : Type} (m : BMap β) (k : Nat) (g : β → β) (j : Nat) :
    get? (update m k g) j = if j = k then (get? m j).map g else get? m j := by
  induction m with
  | nil => simp [update, get?_nil]
  | cons e m ih =>
    obtain ⟨e1, e2⟩ := e
    have ih' : get? (m.map fun e => if e.1 = k then (e.1, g e.2) else e) j = _ := ih
    simp only [update, List.map_cons]
    by_cases h1 : e1 = k
    · simp only [h1, if_true]
      rw [get?_cons, get?_cons, ih']
      by_cases h2 : j = k
      · simp [h2]
      · have h3 : ¬ k = j := fun e => h2 e.symm
        simp [h2, h3]
    · simp only [h1, if_false]
      rw [get?_cons, get?_cons, ih']
      by_cases h2 : j = k
      · subst h2; simp [h1]
      · simp [h2]

theorem orBit_get (f : FrameWords frameWordsBase) (word index : Nat) (hw : word < 101) (hi : index < 32) (w b : Nat) :
    (∃ x, (orBit f word index)[w]? = some x ∧ x.getLsbD b = true) ↔
      (∃ x, f[w]? = some x ∧ x.getLsbD b = true) ∨ (w = word ∧ b = index) := by
  unfold orBit
  have hw' : word < frameWordsBase := hw
  rw [Vector.getElem?_setIfInBounds]
  by_cases h : word = w
  · subst h
    simp only [if_true, hw', Option.some.injEq, exists_eq_left', true_and]
    have hg : f[word]? = some f[word] := Vector.getElem?_eq_getElem hw'
    rw [hg]
    simp only [Option.getD_some, Option.some.injEq, exists_eq_left', BitVec.getLsbD_or, Bool.or_eq_true, BitVec.getLsbD_shiftLeft,
      Bool.and_eq_true, decide_eq_true_eq, Bool.not_eq_true', decide_eq_false_iff_not]
    refine or_congr Iff.rfl ?_
    constructor
    · rintro ⟨⟨h1, h2⟩, h3⟩
      rw [BitVec.getLsbD_one] at h3
      simp at h3
      omega
    · intro h; subst h
      refine ⟨⟨hi, by omega⟩, by simp⟩
  · rw [if_neg h]
    have : ¬ w = word := fun e => h e.symm
    simp [this]

theorem grows_orBit {fr : Frames} (hs : fr.Sorted) (k word index : Nat) (hw : word < 101) (hi : index < 32) :
    Grows (fun j w b => j = k ∧ w = word ∧ b = index) (fun j => j = k) fr
      (update (BMap.emplace fr k (zeroFrame frameWordsBase)) k fun f => orBit f word index) := by
  have h1 := grows_emplace hs k
  have hs' := sorted_update h1.sorted k fun f => orBit f word index
  refine ⟨hs', ?_, ?_⟩
  · intro j w b
    have hb := h1.bit j w b
    rw [or_false] at hb
    rw [← hb, bitSet_iff hs', bitSet_iff h1.sorted]
    simp only [get?_update]
    by_cases hj : j = k
    · subst hj
      have hf := (h1.frame j).2 (Or.inr rfl)
      obtain ⟨f, hf⟩ := (hasFrame_iff h1.sorted).1 hf
      simp only [if_true, hf, Option.map_some, Option.some.injEq, true_and]
      have := orBit_get f word index hw hi w b
      constructor
      · rintro ⟨_, x, rfl, h2⟩
        rcases this.1 ⟨x, h2⟩ with ⟨x, h⟩ | h
        · exact Or.inl ⟨f, x, rfl, h⟩
        · exact Or.inr h
      · intro h
        have : ∃ x, (orBit f word index)[w]? = some x ∧ x.getLsbD b = true := by
          refine this.2 ?_
          rcases h with ⟨_, x, rfl, h⟩ | h
          · exact Or.inl ⟨x, h⟩
          · exact Or.inr h
        obtain ⟨x, h⟩ := this
        exact ⟨_, x, rfl, h⟩
    · simp [hj]
  · intro j
    rw [← h1.frame, hasFrame_iff hs', hasFrame_iff h1.sorted]
    simp only [get?_update]
    by_cases hj : j = k
    · simp only [hj, if_true, Option.map_eq_some_iff]
      exact ⟨fun ⟨_, a, h, _⟩ => ⟨a, h⟩, fun ⟨a, h⟩ => ⟨_, a, h, rfl⟩⟩
    · simp [hj]

/-! ## The bit setter -/

/-- State of the setter: buses, frames. -/
abbrev St := List ConfigBusType × Frames

/-- Effect of setter calls. -/
structure Eff (C : BitCall → Prop) (s s' : St) : Prop where
  used : ∀ b, b ∈ s'.1 ↔ b ∈ s.1 ∨ ∃ c, C c ∧ c.bus = b
  grows : Grows (fun k w b => ∃ c, C c ∧ c.value = true ∧ c.frame = k ∧ c.word = w ∧ c.index = b)
    (fun k => ∃ c, C c ∧ c.frame = k) s.2 s'.2

theorem Eff.refl {s : St} (hs : s.2.Sorted) : Eff (fun _ => False) s s :=
  ⟨by simp, (Grows.refl hs).congr (by simp) (by simp)⟩

theorem Eff.trans {C C' : BitCall → Prop} {a b c : St} (h : Eff C a b) (h' : Eff C' b c) : Eff (fun x => C x ∨ C' x) a c := by
  refine ⟨?_, (h.grows.trans h'.grows).congr ?_ ?_⟩
  · intro x
    rw [h'.used, h.used]
    simp only [or_and_right, exists_or, or_assoc]
  · intro k w i; simp only [or_and_right, exists_or]
  · intro k; simp only [or_and_right, exists_or]

theorem Eff.congr {C C' : BitCall → Prop} {a b : St} (h : Eff C a b) (hC : ∀ c, C c ↔ C' c) : Eff C' a b := by
  have : C = C' := funext fun c => propext (hC c)
  rw [← this]; exact h

theorem setter_ok (s : St) (hs : s.2.Sorted) (c : BitCall) (hw : c.value = true → c.word < 101) (hi : c.index < 32) :
    ∃ s', frameSetter s c.bus c.frame c.word c.index c.value = .ok s' ∧ Eff (fun x => x = c) s s' := by
  obtain ⟨bus, k, w, i, v⟩ := c
  cases v with
  | true =>
    refine ⟨(setInsert s.1 bus, update (BMap.emplace s.2 k (zeroFrame frameWordsBase)) k fun f => orBit f w i), ?_, ?_, ?_⟩
    · unfold frameSetter
      simp only [if_true]
      rw [if_pos (show w < frameWordsBase from hw rfl)]
    · intro b
      dsimp only
      rw [mem_setInsert]
      simp [eq_comm]
    · refine (grows_orBit hs k w i (hw rfl) hi).congr ?_ ?_
      · intro a b c
        simp only [exists_eq_left, true_and]
        constructor <;> (rintro ⟨rfl, rfl, rfl⟩; exact ⟨rfl, rfl, rfl⟩)
      · intro a; simp only [exists_eq_left]; exact eq_comm
  | false =>
    refine ⟨(setInsert s.1 bus, BMap.emplace s.2 k (zeroFrame frameWordsBase)), rfl, ?_, ?_⟩
    · intro b
      dsimp only
      rw [mem_setInsert]
      simp [eq_comm]
    · refine (grows_emplace hs k).congr ?_ ?_
      · intro a b c; simp
      · intro a; simp only [exists_eq_left]; exact eq_comm

theorem setter_inv (s : St) (c : BitCall) (s' : St) (h : frameSetter s c.bus c.frame c.word c.index c.value = .ok s')
    (hv : c.value = true) : c.word < 101 := by
  unfold frameSetter at h
  rw [hv] at h
  simp only [if_true] at h
  by_cases hw : c.word < frameWordsBase
  · exact hw
  · rw [if_neg hw] at h; cases h

theorem calls_ok (cs : List BitCall) (hi : ∀ c ∈ cs, c.index < 32) (hw : ∀ c ∈ cs, c.value = true → c.word < 101) (s : St)
    (hs : s.2.Sorted) : ∃ s', applyCalls frameSetter s cs = .ok s' ∧ Eff (fun x => x ∈ cs) s s' := by
  induction cs generalizing s with
  | nil => exact ⟨s, rfl, (Eff.refl hs).congr (by simp)⟩
  | cons c cs ih =>
    obtain ⟨s1, h1, h2⟩ := setter_ok s hs c (hw c (by simp)) (hi c (by simp))
    obtain ⟨s2, h3, h4⟩ := ih (fun c h => hi c (List.mem_cons_of_mem _ h)) (fun c h => hw c (List.mem_cons_of_mem _ h)) s1
      h2.grows.sorted
    refine ⟨s2, ?_, (h2.trans h4).congr (by simp)⟩
    unfold applyCalls at h3 ⊢
    rw [List.foldlM_cons, h1]
    exact h3

theorem calls_inv (cs : List BitCall) (s s' : St) (h : applyCalls frameSetter s cs = .ok s') :
    ∀ c ∈ cs, c.value = true → c.word < 101 := by
  induction cs generalizing s with
  | nil => simp
  | cons c cs ih =>
    unfold applyCalls at h
    rw [List.foldlM_cons] at h
    obtain ⟨s1, h1, h2⟩ := Outcome.bind_eq_ok.1 h
    intro x hx
    rcases List.mem_cons.1 hx with rfl | hx
    · exact setter_inv s x s1 h1
    · exact ih s1 h2 x hx

theorem featureBits_index {tiles : Tiles} {tile feature : Bytes} {addr : Nat} {bits : List BitCall}
    (h : FeatureBits tiles tile feature addr bits) : ∀ c ∈ bits, c.index < 32 := by
  obtain ⟨t, ty, f, sb, _, _, _, (⟨_, rfl⟩ | ⟨_, _, rfl⟩)⟩ := h
  · simp
  · intro c hc
    unfold tileBits at hc
    obtain ⟨e, _, hc⟩ := List.mem_flatMap.1 hc
    obtain ⟨s, _, rfl⟩ := List.mem_map.1 hc
    exact Nat.mod_lt _ (by decide)

theorem featureBits_bus {tiles : Tiles} {tile feature : Bytes} {addr : Nat} {bits : List BitCall}
    (h : FeatureBits tiles tile feature addr bits) :
    ∀ c ∈ bits, ∃ t block, tiles.grid.lookup tile = some t ∧ (c.bus, block) ∈ t.bits := by
  obtain ⟨t, ty, f, sb, ht, _, _, (⟨_, rfl⟩ | ⟨_, _, rfl⟩)⟩ := h
  · simp
  · intro c hc
    unfold tileBits at hc
    obtain ⟨e, he, hc⟩ := List.mem_flatMap.1 hc
    obtain ⟨s, _, rfl⟩ := List.mem_map.1 hc
    exact ⟨t, e.2, ht, he⟩

/-! ## The bit loop -/

section Loop
variable {tiles : Tiles} (hok : TilesOk tiles) (order : Nat → Bits → Bits) (hord : ∀ a l, (order a l).Perm l)
  (F : FasmFeature) (tile feature : Bytes)

/-- Address of a bit. -/
def addrOf (F : FasmFeature) (a : Nat) : Nat := (((a : Int) + F.start) % 2 ^ 32).toNat

/-- What the loop needs for bit `a`. -/
def BitOk (tiles : Tiles) (F : FasmFeature) (tile feature : Bytes) (a : Nat) : Prop :=
  (a < 64 ∧ (a : Int) + F.start < 2 ^ 31) ∧ (F.bits.testBit a = true →
    ∃ bits, FeatureBits tiles tile feature (addrOf F a) bits ∧ ∀ c ∈ bits, c.value = true → c.word < 101)

/-- The bits the loop sets. -/
def LoopCalls (tiles : Tiles) (F : FasmFeature) (tile feature : Bytes) (as : List Nat) (c : BitCall) : Prop :=
  ∃ a ∈ as, F.bits.testBit a = true ∧ ∃ bits, FeatureBits tiles tile feature (addrOf F a) bits ∧ c ∈ bits

include hok hord

theorem bitStep_ok (db : PartDatabase) (hdb : Reachable tiles db) (s : St) (hs : s.2.Sorted) (a : Nat)
    (h : BitOk tiles F tile feature a) : ∃ db' s', bitStep order F tile feature (db, s) a = .ok (db', s') ∧
      Reachable tiles db' ∧ Eff (LoopCalls tiles F tile feature [a]) s s' := by
  obtain ⟨⟨h1, h2⟩, h3⟩ := h
  have hb : bitStep order F tile feature (db, s) a = if F.bits.testBit a then
      db.configBits (order a) tile feature (addrOf F a) frameSetter s else .ok (db, s) := by
    rw [bitStep, if_neg (by omega), if_neg (by omega)]
    rfl
  rw [hb]
  by_cases ht : F.bits.testBit a = true
  · rw [if_pos ht]
    obtain ⟨bits, hf, hw⟩ := h3 ht
    obtain ⟨calls, db', hp, hr, he⟩ := Props.C45_feature_bits (order a) (hord a) tiles hok db hdb tile feature (addrOf F a) bits hf
    obtain ⟨s', h4, h5⟩ := calls_ok calls (fun c hc => featureBits_index hf c (hp.mem_iff.1 hc))
      (fun c hc => hw c (hp.mem_iff.1 hc)) s hs
    refine ⟨db', s', ?_, hr, h5.congr ?_⟩
    · rw [he, h4]; rfl
    · intro c
      rw [hp.mem_iff]
      constructor
      · intro hc; exact ⟨a, by simp, ht, bits, hf, hc⟩
      · rintro ⟨a', ha, _, bits', hf', hc⟩
        rw [List.mem_singleton] at ha
        subst ha
        rw [featureBits_unique hf hf']; exact hc
  · rw [if_neg ht]
    refine ⟨db, s, rfl, hdb, (Eff.refl hs).congr ?_⟩
    intro c
    constructor
    · exact False.elim
    · rintro ⟨a', ha, h, _⟩
      rw [List.mem_singleton] at ha
      subst ha
      exact ht h

theorem bitStep_inv (db : PartDatabase) (hdb : Reachable tiles db) (s : St) (a : Nat)
    (r : PartDatabase × St) (h : bitStep order F tile feature (db, s) a = .ok r) :
    BitOk tiles F tile feature a := by
  rw [bitStep] at h
  by_cases h1 : 2 ^ 31 ≤ (a : Int) + F.start
  · rw [if_pos h1] at h; cases h
  rw [if_neg h1] at h
  by_cases h2 : 64 ≤ a
  · rw [if_pos h2] at h; cases h
  rw [if_neg h2] at h
  refine ⟨by omega, ?_⟩
  intro ht
  rw [if_pos ht] at h
  have hex : ∃ bits, FeatureBits tiles tile feature (addrOf F a) bits := by
    refine Classical.byContradiction fun hn => ?_
    exact Props.C45_unknown_feature (order a) (hord a) tiles hok db hdb tile feature (addrOf F a)
      (fun bits hb => hn ⟨bits, hb⟩) frameSetter s r h
  obtain ⟨bits, hf⟩ := hex
  obtain ⟨calls, db', hp, hr, he⟩ := Props.C45_feature_bits (order a) (hord a) tiles hok db hdb tile feature (addrOf F a) bits hf
  have h' : db.configBits (order a) tile feature (addrOf F a) frameSetter s = .ok r := h
  rw [he] at h'
  obtain ⟨s', h3, _⟩ := Outcome.bind_eq_ok.1 h'
  exact ⟨bits, hf, fun c hc => calls_inv calls s s' h3 c (hp.mem_iff.2 hc)⟩

theorem loop_ok (as : List Nat) (db : PartDatabase) (hdb : Reachable tiles db) (s : St) (hs : s.2.Sorted)
    (h : ∀ a ∈ as, BitOk tiles F tile feature a) : ∃ db' s', as.foldlM (bitStep order F tile feature) (db, s) = .ok (db', s') ∧
      Reachable tiles db' ∧ Eff (LoopCalls tiles F tile feature as) s s' := by
  induction as generalizing db s with
  | nil => exact ⟨db, s, rfl, hdb, (Eff.refl hs).congr (by simp [LoopCalls])⟩
  | cons a as ih =>
    obtain ⟨db1, s1, h1, h2, h3⟩ := bitStep_ok hok order hord F tile feature db hdb s hs a (h a (by simp))
    obtain ⟨db2, s2, h4, h5, h6⟩ := ih db1 h2 s1 h3.grows.sorted fun a ha => h a (List.mem_cons_of_mem _ ha)
    refine ⟨db2, s2, ?_, h5, (h3.trans h6).congr ?_⟩
    · rw [List.foldlM_cons, h1]; exact h4
    · intro c; simp [LoopCalls]

theorem loop_inv (as : List Nat) (db : PartDatabase) (hdb : Reachable tiles db) (s : St) (hs : s.2.Sorted)
    (r : PartDatabase × St) (h : as.foldlM (bitStep order F tile feature) (db, s) = .ok r) :
    ∀ a ∈ as, BitOk tiles F tile feature a := by
  induction as generalizing db s with
  | nil => simp
  | cons a as ih =>
    rw [List.foldlM_cons] at h
    obtain ⟨⟨db1, s1⟩, h1, h2⟩ := Outcome.bind_eq_ok.1 h
    have ha := bitStep_inv hok order hord F tile feature db hdb s a _ h1
    obtain ⟨db1', s1', h3, h4, h5⟩ := bitStep_ok hok order hord F tile feature db hdb s hs a ha
    rw [h3] at h1
    have := Outcome.ok.inj h1
    rw [Prod.mk.injEq] at this
    obtain ⟨rfl, rfl⟩ := this
    intro x hx
    rcases List.mem_cons.1 hx with rfl | hx
    · exact ha
    · exact ih db1' h4 s1' h5.grows.sorted h2 x hx

end Loop

/-! ## Frames of a bus -/

theorem range_grows (base n : Nat) (fr : Frames) (hs : fr.Sorted) :
    Grows (fun _ _ _ => False) (fun k => ∃ i, i < n ∧ k = (base + i) % 2 ^ 64) fr
      ((List.range n).foldl (fun m i => BMap.emplace m ((base + i) % 2 ^ 64) (zeroFrame frameWordsBase)) fr) := by
  induction n with
  | zero => exact (Grows.refl hs).congr (by simp) (by simp)
  | succ n ih =>
    rw [List.range_succ, List.foldl_append, List.foldl_cons, List.foldl_nil]
    refine (ih.trans (grows_emplace ih.sorted ((base + n) % 2 ^ 64))).congr (by simp) ?_
    intro k
    constructor
    · rintro (⟨i, h, e⟩ | e)
      · exact ⟨i, by omega, e⟩
      · exact ⟨n, by omega, e⟩
    · rintro ⟨i, h, e⟩
      rcases Nat.lt_or_eq_of_le (Nat.le_of_lt_succ h) with h | rfl
      · exact Or.inl ⟨i, h, e⟩
      · exact Or.inr e

/-- Frames of the buses. -/
def BusFrames (t : Tile) (bs : List ConfigBusType) (k : Nat) : Prop :=
  ∃ b block i, b ∈ bs ∧ (b, block) ∈ t.bits ∧ i < block.frames ∧ k = (block.baseAddress + i) % 2 ^ 64

theorem buses_ok (t : Tile) (hn : (t.bits.map (·.1)).Nodup) (bs : List ConfigBusType) (hb : ∀ b ∈ bs, ∃ block, (b, block) ∈ t.bits)
    (fr : Frames) (hs : fr.Sorted) : ∃ fr', bs.foldlM (busFrames t) fr = .ok fr' ∧ Grows (fun _ _ _ => False) (BusFrames t bs) fr fr' := by
  induction bs generalizing fr with
  | nil => exact ⟨fr, rfl, (Grows.refl hs).congr (by simp) (by simp [BusFrames])⟩
  | cons b bs ih =>
    obtain ⟨block, hm⟩ := hb b (by simp)
    have hl := lookup_of_mem hn hm
    have hg := range_grows block.baseAddress block.frames fr hs
    obtain ⟨fr2, h1, h2⟩ := ih (fun b h => hb b (List.mem_cons_of_mem _ h)) _ hg.sorted
    refine ⟨fr2, ?_, (hg.trans h2).congr (by simp) ?_⟩
    · rw [List.foldlM_cons]
      have : busFrames t fr b = .ok ((List.range block.frames).foldl
          (fun m i => BMap.emplace m ((block.baseAddress + i) % 2 ^ 64) (zeroFrame frameWordsBase)) fr) := by
        unfold busFrames; rw [hl]
      rw [this]; exact h1
    · intro k
      constructor
      · rintro (⟨i, h, e⟩ | ⟨b', bl, i, h, h'⟩)
        · exact ⟨b, block, i, by simp, hm, h, e⟩
        · exact ⟨b', bl, i, List.mem_cons_of_mem _ h, h'⟩
      · rintro ⟨b', bl, i, h, h', h''⟩
        rcases List.mem_cons.1 h with rfl | h
        · have := lookup_of_mem hn h'
          rw [hl] at this
          cases this
          exact Or.inl ⟨i, h''⟩
        · exact Or.inr ⟨b', bl, i, h, h', h''⟩

/-! ## Features -/

/-- The bits of a design. -/
def BOf (tiles : Tiles) (D : FasmFeature → Prop) (k w b : Nat) : Prop :=
  ∃ tile c, Lists tiles D tile c ∧ c.value = true ∧ c.frame = k ∧ c.word = w ∧ c.index = b

/-- The frames of a design. -/
def XOf (tiles : Tiles) (D : FasmFeature → Prop) (k : Nat) : Prop :=
  ∃ tile c, Lists tiles D tile c ∧ (c.frame = k ∨ ∃ t block i, tiles.grid.lookup tile = some t ∧ (c.bus, block) ∈ t.bits ∧
    i < block.frames ∧ k = (block.baseAddress + i) % 2 ^ 64)

theorem lists_or (tiles : Tiles) (D D' : FasmFeature → Prop) (tile : Bytes) (c : BitCall) :
    Lists tiles (fun F => D F ∨ D' F) tile c ↔ Lists tiles D tile c ∨ Lists tiles D' tile c := by
  simp only [Lists, or_and_right, exists_or]

theorem bof_or (tiles : Tiles) (D D' : FasmFeature → Prop) (k w b : Nat) :
    BOf tiles (fun F => D F ∨ D' F) k w b ↔ BOf tiles D k w b ∨ BOf tiles D' k w b := by
  simp only [BOf, lists_or, or_and_right, exists_or]

theorem xof_or (tiles : Tiles) (D D' : FasmFeature → Prop) (k : Nat) :
    XOf tiles (fun F => D F ∨ D' F) k ↔ XOf tiles D k ∨ XOf tiles D' k := by
  simp only [XOf, lists_or, or_and_right, exists_or]

theorem lists_one {tiles : Tiles} {F : FasmFeature} {tile feature : Bytes} (he : F.name = tile ++ 0x2e :: feature)
    (hn : 0x2e ∉ tile) (tile' : Bytes) (c : BitCall) :
    Lists tiles (fun G => G = F) tile' c ↔ tile' = tile ∧ LoopCalls tiles F tile feature (List.range F.width.toNat) c := by
  constructor
  · rintro ⟨G, feature', addr, bits, rfl, ⟨e, hn', i, h1, h2, h3⟩, h4, h5⟩
    rw [he] at e
    obtain ⟨rfl, rfl⟩ := cut_unique e hn hn'
    refine ⟨rfl, i, ?_, h2, bits, ?_, h5⟩
    · rw [List.mem_range]; omega
    · unfold addrOf; rw [← h3]; exact h4
  · rintro ⟨rfl, i, h1, h2, bits, h4, h5⟩
    rw [List.mem_range] at h1
    exact ⟨F, feature, addrOf F i, bits, rfl, ⟨he, hn, i, by omega, h2, rfl⟩, h4, h5⟩

theorem zipIdx_fst {α : Type} (l : List α) (n : Nat) : (l.zipIdx n).map (·.1) = l := by
  induction l generalizing n with
  | nil => rfl
  | cons a l ih => simp [List.zipIdx_cons, ih]

section Process
variable {tiles : Tiles} (hok : TilesOk tiles) (ord : HashOrder) (hord : Permutes ord)
include hok hord

theorem feature_ok (F : FasmFeature) (i : Nat) (db : PartDatabase) (hdb : Reachable tiles db) (fr : Frames) (hs : fr.Sorted)
    (hF : FeatureOk tiles F) : ∃ db' fr', processFeature ord (db, fr) (F, i) = .ok (db', fr') ∧ Reachable tiles db' ∧
      Grows (BOf tiles fun G => G = F) (XOf tiles fun G => G = F) fr fr' := by
  obtain ⟨h1, h2, h3⟩ := hF
  rcases splitMax_one 0x2e F.name with ⟨tile, feature, he, hn, hsp⟩ | ⟨hn, _⟩
  rotate_left
  · exact absurd h2 hn
  have hl := lists_one (tiles := tiles) he hn
  have hbit : ∀ a ∈ List.range F.width.toNat, BitOk tiles F tile feature a := by
    intro a ha
    rw [List.mem_range] at ha
    have ha' : (a : Int) < F.width := by omega
    exact ⟨h1 a ha', fun ht => h3 tile feature _ ⟨he, hn, a, ha', ht, rfl⟩⟩
  obtain ⟨db', ⟨used, fr1⟩, h4, h5, h6⟩ := loop_ok hok (ord.bits i) (fun a l => hord.bits i a l) F tile feature _ db hdb ([], fr) hs hbit
  have hu : ∀ b, b ∈ used ↔ ∃ c, LoopCalls tiles F tile feature (List.range F.width.toNat) c ∧ c.bus = b := by
    intro b
    have := h6.used b
    simpa using this
  have hg := h6.grows
  dsimp only at hg
  have hpf : processFeature ord (db, fr) (F, i) = (if used.isEmpty then .ok (db', fr1)
      else match db.tiles.grid.lookup tile with
      | none => .abort
      | some t => ((ord.buses i used).foldlM (busFrames t) fr1) >>= fun fr => .ok (db', fr)) := by
    unfold processFeature
    dsimp only
    rw [hsp]
    dsimp only
    rw [h4]
    rfl
  have hB : ∀ k w b, (∃ c, LoopCalls tiles F tile feature (List.range F.width.toNat) c ∧ c.value = true ∧ c.frame = k ∧
      c.word = w ∧ c.index = b) ↔ BOf tiles (fun G => G = F) k w b := by
    intro k w b
    simp only [BOf, hl]
    constructor
    · rintro ⟨c, h, h'⟩; exact ⟨tile, c, ⟨rfl, h⟩, h'⟩
    · rintro ⟨_, c, ⟨_, h⟩, h'⟩; exact ⟨c, h, h'⟩
  cases hue : used with
  | nil =>
    subst hue
    refine ⟨db', fr1, by rw [hpf]; rfl, h5, hg.congr hB ?_⟩
    intro k
    have hno : ∀ c, ¬ LoopCalls tiles F tile feature (List.range F.width.toNat) c := fun c hc => by
      have := (hu c.bus).2 ⟨c, hc, rfl⟩
      cases this
    constructor
    · rintro ⟨c, h, _⟩; exact absurd h (hno c)
    · rintro ⟨tl, c, h, _⟩; exact absurd ((hl tl c).1 h).2 (hno c)
  | cons b0 bs =>
    have hblock : ∀ b ∈ used, ∃ t block, tiles.grid.lookup tile = some t ∧ (b, block) ∈ t.bits := by
      intro b hb
      obtain ⟨c, ⟨a, _, _, bits, hf, hc⟩, rfl⟩ := (hu b).1 hb
      exact featureBits_bus hf c hc
    obtain ⟨t, _, ht, _⟩ := hblock b0 (by rw [hue]; simp)
    obtain ⟨fr2, h7, h8⟩ := buses_ok t (hok tile t ht) (ord.buses i used) (by
      intro b hb
      obtain ⟨t', block, ht', hm⟩ := hblock b ((hord.buses i used).mem_iff.1 hb)
      rw [ht] at ht'; cases ht'
      exact ⟨block, hm⟩) fr1 hg.sorted
    refine ⟨db', fr2, ?_, h5, (hg.trans h8).congr ?_ ?_⟩
    · have hne : used.isEmpty = false := by rw [hue]; rfl
      rw [hpf, hne, if_neg (by simp), (reachable_cache hdb).1, ht]
      dsimp only
      rw [h7]; rfl
    · intro k w b; rw [← hB]; simp
    · intro k
      constructor
      · rintro (⟨c, h, e⟩ | ⟨b, block, j, hb, hm, hj, e⟩)
        · exact ⟨tile, c, (hl tile c).2 ⟨rfl, h⟩, Or.inl e⟩
        · obtain ⟨c, hc, rfl⟩ := (hu b).1 ((hord.buses i used).mem_iff.1 hb)
          exact ⟨tile, c, (hl tile c).2 ⟨rfl, hc⟩, Or.inr ⟨t, block, j, ht, hm, hj, e⟩⟩
      · rintro ⟨tl, c, h, h'⟩
        obtain ⟨rfl, hc⟩ := (hl tl c).1 h
        rcases h' with e | ⟨t', block, j, ht', hm, hj, e⟩
        · exact Or.inl ⟨c, hc, e⟩
        · rw [ht] at ht'; cases ht'
          exact Or.inr ⟨c.bus, block, j, (hord.buses i used).mem_iff.2 ((hu _).2 ⟨c, hc, rfl⟩), hm, hj, e⟩

theorem feature_inv (F : FasmFeature) (i : Nat) (db : PartDatabase) (hdb : Reachable tiles db) (fr : Frames)
    (hs : fr.Sorted) (r : PartDatabase × Frames) (h : processFeature ord (db, fr) (F, i) = .ok r) : FeatureOk tiles F := by
  unfold processFeature at h
  dsimp only at h
  rcases splitMax_one 0x2e F.name with ⟨tile, feature, he, hn, hsp⟩ | ⟨hn, hsp⟩
  · rw [hsp] at h
    dsimp only at h
    obtain ⟨r1, h1, _⟩ := Outcome.bind_eq_ok.1 h
    have hbit := loop_inv hok (ord.bits i) (fun a l => hord.bits i a l) F tile feature _ db hdb ([], fr) hs r1 h1
    have hbit' : ∀ a : Nat, (a : Int) < F.width → BitOk tiles F tile feature a := by
      intro a ha
      exact hbit a (by rw [List.mem_range]; omega)
    refine ⟨fun a ha => (hbit' a ha).1, by rw [he]; simp, ?_⟩
    rintro tile' feature' addr ⟨e, hn', a, ha, ht, rfl⟩
    rw [he] at e
    obtain ⟨rfl, rfl⟩ := cut_unique e hn hn'
    exact (hbit' a ha).2 ht
  · rw [hsp] at h
    cases h

theorem features_ok (Fs : List (FasmFeature × Nat)) (db : PartDatabase) (hdb : Reachable tiles db) (fr : Frames) (hs : fr.Sorted)
    (hF : ∀ e ∈ Fs, FeatureOk tiles e.1) : ∃ db' fr', Fs.foldlM (processFeature ord) (db, fr) = .ok (db', fr') ∧ Reachable tiles db' ∧
      Grows (BOf tiles fun G => G ∈ Fs.map (·.1)) (XOf tiles fun G => G ∈ Fs.map (·.1)) fr fr' := by
  induction Fs generalizing db fr with
  | nil =>
    refine ⟨db, fr, rfl, hdb, (Grows.refl hs).congr ?_ ?_⟩
    · intro k w b
      constructor
      · exact False.elim
      · rintro ⟨_, _, ⟨F, _, _, _, h, _⟩, _⟩; cases h
    · intro k
      constructor
      · exact False.elim
      · rintro ⟨_, _, ⟨F, _, _, _, h, _⟩, _⟩; cases h
  | cons e Fs ih =>
    obtain ⟨F, i⟩ := e
    obtain ⟨db1, fr1, h1, h2, h3⟩ := feature_ok hok ord hord F i db hdb fr hs (hF (F, i) (by simp))
    obtain ⟨db2, fr2, h4, h5, h6⟩ := ih db1 h2 fr1 h3.sorted fun e he => hF e (List.mem_cons_of_mem _ he)
    have hd : (fun G => G ∈ ((F, i) :: Fs).map (·.1)) = fun G => G = F ∨ G ∈ Fs.map (·.1) := by
      funext G; simp
    refine ⟨db2, fr2, ?_, h5, (h3.trans h6).congr ?_ ?_⟩
    · rw [List.foldlM_cons, h1]; exact h4
    · intro k w b; rw [hd, bof_or]
    · intro k; rw [hd, xof_or]

theorem features_inv (Fs : List (FasmFeature × Nat)) (db : PartDatabase) (hdb : Reachable tiles db)
    (fr : Frames) (hs : fr.Sorted) (r : PartDatabase × Frames) (h : Fs.foldlM (processFeature ord) (db, fr) = .ok r) :
    ∀ e ∈ Fs, FeatureOk tiles e.1 := by
  induction Fs generalizing db fr with
  | nil => simp
  | cons e Fs ih =>
    obtain ⟨F, i⟩ := e
    rw [List.foldlM_cons] at h
    obtain ⟨⟨db1, fr1⟩, h1, h2⟩ := Outcome.bind_eq_ok.1 h
    have hF := feature_inv hok ord hord F i db hdb fr hs _ h1
    obtain ⟨db1', fr1', h3, h4, h5⟩ := feature_ok hok ord hord F i db hdb fr hs hF
    rw [h3] at h1
    have := Outcome.ok.inj h1
    rw [Prod.mk.injEq] at this
    obtain ⟨rfl, rfl⟩ := this
    intro x hx
    rcases List.mem_cons.1 hx with rfl | hx
    · exact hF
    · exact ih db1' h4 fr1' h5.sorted h2 x hx

/-- All features that can be assembled: the frames grow by them. -/
theorem process_ok (Fs : List FasmFeature) (db : PartDatabase) (hdb : Reachable tiles db) (fr : Frames) (hs : fr.Sorted)
    (hF : ∀ F ∈ Fs, FeatureOk tiles F) : ∃ db' fr', processFeatures ord Fs db fr = .ok (db', fr') ∧ Reachable tiles db' ∧
      Grows (BOf tiles fun G => G ∈ Fs) (XOf tiles fun G => G ∈ Fs) fr fr' := by
  have h := features_ok hok ord hord Fs.zipIdx db hdb fr hs (by
    intro e he
    have : e.1 ∈ Fs.zipIdx.map (·.1) := List.mem_map.2 ⟨e, he, rfl⟩
    rw [zipIdx_fst] at this
    exact hF _ this)
  rw [zipIdx_fst] at h
  exact h

/-- If it returns, all features can be assembled. -/
theorem process_inv (Fs : List FasmFeature) (db : PartDatabase) (hdb : Reachable tiles db)
    (fr : Frames) (hs : fr.Sorted) (r : PartDatabase × Frames) (h : processFeatures ord Fs db fr = .ok r) :
    ∀ F ∈ Fs, FeatureOk tiles F := by
  intro F hF
  have h' := features_inv hok ord hord Fs.zipIdx db hdb fr hs r h
  rw [← zipIdx_fst Fs 0] at hF
  obtain ⟨e, he, rfl⟩ := List.mem_map.1 hF
  exact h' e he

end Process

end Verif.Asm
