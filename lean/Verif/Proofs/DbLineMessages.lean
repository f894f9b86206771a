import Verif.Proofs.DbMessages
import Verif.Proofs.FasmText
import Verif.Spec.DbMessages
/-! # Messages of the files of lines -/
namespace Verif.Db
open Verif.Text Verif.Spec
open Verif.Fasm (lit printU)
open Said

/-- Feeding numbered lines to a sink. -/
def feedM {σ : Type} (sink : σ → Nat → Bytes → Said σ) : Nat → List Bytes → σ → Said σ
  | _, [], st => .ok st
  | n, l :: ls, st => do
    let st' ← sink st ((n + 1) % 2 ^ 32) l
    feedM sink (n + 1) ls st'

theorem linesLoopM_unlines {σ : Type} (after : Option UInt8) (sink : σ → Nat → Bytes → Said σ) (ls : List Bytes)
    (tail : Bytes) (hl : ∀ l ∈ ls, (0x0a : UInt8) ∉ l) (fuel n : Nat) (st : σ)
    (hf : (unlines ls ++ tail).length ≤ fuel) :
    ∃ fuel', tail.length ≤ fuel' ∧
    linesLoopM after sink fuel (unlines ls ++ tail) (n % 2 ^ 32) st =
      (feedM sink n ls st >>= fun st' => linesLoopM after sink fuel' tail ((n + ls.length) % 2 ^ 32) st') := by
  induction ls generalizing fuel n st with
  | nil => exact ⟨fuel, by simpa [unlines] using hf, by simp [unlines, feedM]⟩
  | cons l ls ih =>
    have e : unlines (l :: ls) ++ tail = l ++ 0x0a :: (unlines ls ++ tail) := by
      simp [unlines, List.append_assoc]
    rw [e] at hf ⊢
    cases fuel with
    | zero => simp at hf
    | succ fuel =>
      have hlen : (unlines ls ++ tail).length ≤ fuel := by simp at hf ⊢; omega
      have hsk := skipToEol_line after l (unlines ls ++ tail) (hl l (by simp))
      have hstep : linesLoopM after sink (fuel + 1) (l ++ 0x0a :: (unlines ls ++ tail)) (n % 2 ^ 32) st =
          (sink st ((n + 1) % 2 ^ 32) l >>= fun st' =>
            linesLoopM after sink fuel (unlines ls ++ tail) ((n + 1) % 2 ^ 32) st') := by
        have hm : (n % 2 ^ 32 + 1) % 2 ^ 32 = (n + 1) % 2 ^ 32 := by omega
        rw [linesLoopM.eq_def]
        dsimp only
        split
        · rename_i h; simp at h
        · rename_i h
          rw [hsk, hm]
          simp only [Said.ofOutcome, Said.bind_ok, List.tail_cons]
      rw [hstep]
      simp only [feedM]
      cases hs : sink st ((n + 1) % 2 ^ 32) l with
      | err m => exact ⟨tail.length, Nat.le_refl _, rfl⟩
      | abort => exact ⟨tail.length, Nat.le_refl _, rfl⟩
      | ub => exact ⟨tail.length, Nat.le_refl _, rfl⟩
      | ok st' =>
        obtain ⟨f', hf', h⟩ := ih (fun l hl' => hl l (by simp [hl'])) fuel (n + 1) st' hlen
        refine ⟨f', hf', ?_⟩
        simp only [Said.bind_ok, h, List.length_cons]
        rw [show n + 1 + ls.length = n + (ls.length + 1) by omega]

theorem feedM_append {σ : Type} (sink : σ → Nat → Bytes → Said σ) (n : Nat) (a b : List Bytes) (st : σ) :
    feedM sink n (a ++ b) st = (feedM sink n a st >>= fun st' => feedM sink (n + a.length) b st') := by
  induction a generalizing n st with
  | nil => simp [feedM]
  | cons l a ih =>
    simp only [List.cons_append, feedM, List.length_cons]
    cases sink st ((n + 1) % 2 ^ 32) l with
    | ok st' => simp only [Said.bind_ok, ih]; rw [show n + 1 + a.length = n + (a.length + 1) by omega]
    | _ => rfl

theorem linesGeneratorM_lines {σ : Type} (b : UInt8) (sink : σ → Nat → Bytes → Said σ) (content : Bytes)
    (ls : List Bytes) (h : LinesOf content ls) (st : σ) :
    linesGeneratorM (some b) content sink st = feedM sink 0 ls st := by
  obtain ⟨hnl, hc⟩ := h
  unfold linesGeneratorM
  have hnil : ∀ f n (s : σ), linesLoopM (some b) sink f [] n s = .ok s := by
    intro f n s; cases f <;> rfl
  rcases hc with rfl | ⟨init, last, rfl, hne, rfl⟩
  · obtain ⟨f', _, h⟩ := linesLoopM_unlines (some b) sink ls [] hnl (unlines ls).length 0 st (by simp)
    rw [List.append_nil] at h
    rw [show (0 : Nat) = 0 % 2 ^ 32 from rfl, h]
    simp only [hnil]
    cases feedM sink 0 ls st <;> rfl
  · obtain ⟨f', hf', h⟩ := linesLoopM_unlines (some b) sink init last (fun l hl => hnl l (by simp [hl]))
      (unlines init ++ last).length 0 st (Nat.le_refl _)
    rw [show (0 : Nat) = 0 % 2 ^ 32 from rfl, h, feedM_append]
    congr 1
    funext s
    cases hlast : last with
    | nil => exact absurd hlast hne
    | cons c r =>
      rw [hlast] at hf'
      cases f' with
      | zero => simp at hf'
      | succ f' =>
        have hsk := skipToEol_last b (c :: r) (by rw [← hlast]; exact hnl last (by simp))
        rw [linesLoopM]
        simp only [hsk, Said.ofOutcome, Said.bind_ok, feedM, List.tail_nil, hnil]
        have hm : ((0 + init.length) % 2 ^ 32 + 1) % 2 ^ 32 = (0 + init.length + 1) % 2 ^ 32 := by omega
        rw [hm]

/-- A sink that judges line by line. -/
theorem feedM_err_iff {σ : Type} (sink : σ → Nat → Bytes → Said σ) (good : Nat → Bytes → Prop) (bad : Nat → Bytes → Bytes → Prop)
    (hg : ∀ st n l, (∃ st', sink st n l = .ok st') ↔ good n l) (hb : ∀ st n l m, sink st n l = .err m ↔ bad n l m)
    (n : Nat) (ls : List Bytes) (st : σ) (m : Bytes) :
    feedM sink n ls st = .err m ↔ ∃ pre l post, ls = pre ++ l :: post ∧
      (∀ i p, pre[i]? = some p → good ((n + i + 1) % 2 ^ 32) p) ∧ bad ((n + pre.length + 1) % 2 ^ 32) l m := by
  induction ls generalizing n st with
  | nil =>
    constructor
    · intro h; cases h
    · rintro ⟨pre, l, post, h, _⟩
      simp at h
  | cons l ls ih =>
    rw [feedM, bind_eq_err]
    constructor
    · rintro (h | ⟨st', h1, h2⟩)
      · exact ⟨[], l, ls, rfl, by simp, (hb _ _ _ _).1 h⟩
      · obtain ⟨pre, l', post, rfl, h3, h4⟩ := (ih (n + 1) st').1 h2
        refine ⟨l :: pre, l', post, rfl, ?_, ?_⟩
        · intro i p hp
          cases i with
          | zero =>
            simp only [List.getElem?_cons_zero, Option.some.injEq] at hp
            subst hp
            exact (hg st _ _).1 ⟨st', h1⟩
          | succ i =>
            have := h3 i p (by simpa using hp)
            rwa [show n + (i + 1) + 1 = n + 1 + i + 1 by omega]
        · rwa [List.length_cons, show n + (pre.length + 1) + 1 = n + 1 + pre.length + 1 by omega]
    · rintro ⟨pre, l', post, he, h3, h4⟩
      cases pre with
      | nil =>
        simp only [List.nil_append, List.cons.injEq] at he
        obtain ⟨rfl, rfl⟩ := he
        exact Or.inl ((hb _ _ _ _).2 h4)
      | cons p pre =>
        simp only [List.cons_append, List.cons.injEq] at he
        obtain ⟨rfl, rfl⟩ := he
        obtain ⟨st', hst⟩ := (hg st _ _).2 (h3 0 l rfl)
        refine Or.inr ⟨st', hst, (ih (n + 1) st').2 ⟨pre, l', post, rfl, ?_, ?_⟩⟩
        · intro i q hq
          have := h3 (i + 1) q (by simpa using hq)
          rwa [show n + (i + 1) + 1 = n + 1 + i + 1 by omega] at this
        · rwa [List.length_cons, show n + (pre.length + 1) + 1 = n + 1 + pre.length + 1 by omega] at h4

theorem mapM_err_iff {α β : Type} (f : α → Said β) (l : List α) (m : Bytes) :
    l.mapM f = .err m ↔ ∃ pre x post, l = pre ++ x :: post ∧ (∀ p ∈ pre, ∃ v, f p = .ok v) ∧ f x = .err m := by
  induction l with
  | nil =>
    constructor
    · intro h; cases h
    · rintro ⟨pre, l, post, h, _⟩
      simp at h
  | cons a l ih =>
    rw [List.mapM_cons, bind_eq_err]
    constructor
    · rintro (h | ⟨v, h1, h2⟩)
      · exact ⟨[], a, l, rfl, by simp, h⟩
      · rw [bind_eq_err] at h2
        rcases h2 with h2 | ⟨_, _, h2⟩
        · obtain ⟨pre, x, post, rfl, h3, h4⟩ := ih.1 h2
          refine ⟨a :: pre, x, post, rfl, ?_, h4⟩
          intro p hp
          rcases List.mem_cons.1 hp with rfl | hp
          · exact ⟨v, h1⟩
          · exact h3 p hp
        · cases h2
    · rintro ⟨pre, x, post, he, h3, h4⟩
      cases pre with
      | nil =>
        simp only [List.nil_append, List.cons.injEq] at he
        obtain ⟨rfl, rfl⟩ := he
        exact Or.inl h4
      | cons p pre =>
        simp only [List.cons_append, List.cons.injEq] at he
        obtain ⟨rfl, rfl⟩ := he
        obtain ⟨v, hv⟩ := h3 a (by simp)
        refine Or.inr ⟨v, hv, bind_eq_err.2 (Or.inl (ih.2 ⟨pre, x, post, rfl, fun p hp => h3 p (by simp [hp]), h4⟩))⟩

theorem length_splitBy (p : UInt8 → Bool) (s : Bytes) : (splitBy p s).length = s.countP p + 1 := by
  induction s with
  | nil => rfl
  | cons c s ih =>
    rw [splitBy.eq_def]
    dsimp only
    cases hp : p c with
    | true => simp [hp, ih]
    | false =>
      cases hs : splitBy p s with
      | nil => exact absurd hs (splitBy_ne_nil p s)
      | cons x xs => rw [hs] at ih; simp_all

/-! ## Segment bits -/

theorem quoting_lit (what : String) (l : Bytes) : quoting what l = lit what ++ lit " \"" ++ l ++ lit "\"" := rfl

theorem msgInvalidLine_eq (l : Bytes) : msgInvalidLine l = quoting "invalid line" l := rfl
theorem msgCoordinate_eq (l : Bytes) : msgCoordinate l = quoting "could not parse coordinate" l := rfl

theorem invalidLineStatus_eq {α : Type} (n : Nat) (m : Bytes) : (invalidLineStatus n m : Said α) = .err (atLine n m) := by
  unfold invalidLineStatus atLine
  rw [Fasm.dec_eq]
  rfl

theorem segmentBitM_ok_iff (n : Nat) (line bit : Bytes) : (∃ v, segmentBitM n line bit = .ok v) ↔ ∃ v, BitText bit v := by
  constructor
  · rintro ⟨v, h⟩
    exact ⟨v, (segmentBit_iff _ _).1 (by rw [← segmentBitM_forget n line, h]; rfl)⟩
  · rintro ⟨v, h⟩
    exact ⟨v, forget_eq_ok.1 (by rw [segmentBitM_forget]; exact (segmentBit_iff _ _).2 h)⟩

theorem segmentBitM_err_iff (n : Nat) (line bit m : Bytes) : segmentBitM n line bit = .err m ↔
    (bit.count 0x5f ≠ 1 ∧ m = atLine n (quoting "invalid line" line)) ∨
    (bit.count 0x5f = 1 ∧ (∀ v, ¬ BitText bit v) ∧ m = atLine n (quoting "could not parse coordinate" line)) := by
  have hcount : (splitBy (fun x => decide (x = 0x5f)) (if bit.head? ≠ some 0x21 then bit else bit.drop 1)).length =
      bit.count 0x5f + 1 := by
    rw [length_splitBy]
    have : ∀ s : Bytes, s.countP (fun x => decide (x = 0x5f)) = s.count 0x5f := by
      intro s; rw [List.count]; congr 1
    rw [this]
    split
    · rfl
    · rename_i h
      cases bit with
      | nil => rfl
      | cons c r =>
        have : c = 0x21 := by simpa using h
        subst this
        simp
  have hno := segmentBitM_ok_iff n line bit
  have key : segmentBitM n line bit = .err m ↔
      (bit.count 0x5f ≠ 1 ∧ m = atLine n (quoting "invalid line" line)) ∨
      (bit.count 0x5f = 1 ∧ (¬ ∃ v, segmentBitM n line bit = .ok v) ∧ m = atLine n (quoting "could not parse coordinate" line)) := by
    unfold segmentBitM
    dsimp only
    revert hcount
    generalize splitBy (fun x => decide (x = 0x5f)) (if bit.head? ≠ some 0x21 then bit else bit.drop 1) = L
    intro hcount
    rw [← msgInvalidLine_eq, ← msgCoordinate_eq]
    rcases L with _ | ⟨a, _ | ⟨b, _ | ⟨c, r⟩⟩⟩
    · simp at hcount
    · have : bit.count 0x5f = 0 := by simpa using hcount.symm
      simp only [invalidLineStatus_eq, this, Said.err.injEq]
      constructor
      · rintro rfl; exact Or.inl ⟨by decide, rfl⟩
      · rintro (⟨_, rfl⟩ | ⟨h, _⟩)
        · rfl
        · cases h
    · have : bit.count 0x5f = 1 := by simpa using hcount.symm
      simp only [invalidLineStatus_eq, this]
      cases ha : atoiU32 a with
      | none =>
        simp only [Said.err.injEq]
        constructor
        · rintro rfl; exact Or.inr ⟨trivial, by simp, rfl⟩
        · rintro (⟨h, _⟩ | ⟨_, _, rfl⟩)
          · exact absurd rfl h
          · rfl
      | some u =>
        cases hb : atoiU32 b with
        | none =>
          simp only [Said.err.injEq]
          constructor
          · rintro rfl; exact Or.inr ⟨trivial, by simp, rfl⟩
          · rintro (⟨h, _⟩ | ⟨_, _, rfl⟩)
            · exact absurd rfl h
            · rfl
        | some w => simp
    · have : bit.count 0x5f = r.length + 2 := by
        simp only [List.length_cons] at hcount
        omega
      simp only [invalidLineStatus_eq, Said.err.injEq]
      constructor
      · rintro rfl; exact Or.inl ⟨by omega, rfl⟩
      · rintro (⟨_, rfl⟩ | ⟨h, _⟩)
        · rfl
        · omega
  rw [key, hno]
  simp only [not_exists]

theorem segComplaint_iff (junk : Bytes → Nat) (st : SegmentsBits) (n : Nat) (l m : Bytes) :
    segbitsLineM junk st n l = .err m ↔ ∃ what, SegComplaint l what ∧ m = atLine n what := by
  have hf := fields_spec l
  unfold segbitsLineM
  constructor
  · intro h
    revert hf h
    cases hL : fields l with
    | nil => intro _ h; cases h
    | cons name bits =>
      cases bits with
      | nil =>
        intro hf h
        dsimp only at h
        rw [invalidLineStatus_eq] at h
        cases h
        exact ⟨_, SegComplaint.alone name hf, rfl⟩
      | cons b bits =>
        intro hf h
        dsimp only at h
        rcases bind_eq_err.1 h with h | ⟨_, _, h⟩
        · obtain ⟨pre, x, post, he, h3, h4⟩ := (mapM_err_iff _ _ _).1 h
          rw [he] at hf
          have hg : ∀ b ∈ pre, ∃ v, BitText b v := fun b hb => (segmentBitM_ok_iff n l b).1 (h3 b hb)
          rcases (segmentBitM_err_iff _ _ _ _).1 h4 with ⟨h5, rfl⟩ | ⟨h5, h6, rfl⟩
          · exact ⟨_, SegComplaint.shape name pre x post hf hg h5, rfl⟩
          · exact ⟨_, SegComplaint.number name pre x post hf hg h5 h6, rfl⟩
        · cases h
  · rintro ⟨what, h, rfl⟩
    have many : ∀ name good bad rest, fields l = name :: (good ++ bad :: rest) → (∀ b ∈ good, ∃ v, BitText b v) →
        segmentBitM n l bad = .err (atLine n what) →
        (match fields l with
          | [] => Said.ok st
          | [_] => invalidLineStatus n (msgInvalidLine l)
          | name :: bits => do
            let bs ← bits.mapM (segmentBitM n l)
            pure (insertNew st (featureNameAndAddress junk name) bs)) = .err (atLine n what) := by
      intro name good bad rest he hg hb
      rw [he]
      have hm : (good ++ bad :: rest).mapM (segmentBitM n l) = .err (atLine n what) :=
        (mapM_err_iff _ _ _).2 ⟨good, bad, rest, rfl, fun b hb => (segmentBitM_ok_iff n l b).2 (hg b hb), hb⟩
      cases good with
      | nil => simp only [List.nil_append] at hm ⊢; rw [hm]; rfl
      | cons g good => simp only [List.cons_append] at hm ⊢; rw [hm]; rfl
    cases h with
    | alone name h =>
      rw [fields_unique h]
      exact invalidLineStatus_eq _ _
    | shape name good bad rest h hg hb =>
      exact many name good bad rest (fields_unique h) hg ((segmentBitM_err_iff _ _ _ _).2 (Or.inl ⟨hb, rfl⟩))
    | number name good bad rest h hg h1 hb =>
      exact many name good bad rest (fields_unique h) hg ((segmentBitM_err_iff _ _ _ _).2 (Or.inr ⟨h1, hb, rfl⟩))

theorem segComplaint_bad (l : Bytes) : (∃ what, SegComplaint l what) ↔ BadSegLine l := by
  constructor
  · rintro ⟨what, h⟩
    cases h with
    | alone name h => exact ⟨name, [], h, Or.inl rfl⟩
    | shape name good bad rest h hg hb =>
      refine ⟨name, _, h, Or.inr ⟨bad, by simp, ?_⟩⟩
      intro v hv
      rcases (segmentBitM_err_iff 0 l bad (atLine 0 (quoting "invalid line" l))).2 (Or.inl ⟨hb, rfl⟩) with he
      obtain ⟨w, hw⟩ := (segmentBitM_ok_iff 0 l bad).2 ⟨v, hv⟩
      rw [hw] at he; cases he
    | number name good bad rest h hg h1 hb => exact ⟨name, _, h, Or.inr ⟨bad, by simp, hb⟩⟩
  · intro h
    have he := segEntry_bad (fun _ => 0) h
    have : (segbitsLineM (fun _ => 0) [] 0 l).forget = .err := by
      rw [segbitsLineM_forget, segbitsLine_eq]
      exact entrySink_bad he _ _
    obtain ⟨m, hm⟩ := forget_eq_err.1 this
    obtain ⟨what, hw, _⟩ := (segComplaint_iff _ _ _ _ _).1 hm
    exact ⟨what, hw⟩

theorem segGood_iff (junk : Bytes → Nat) (st : SegmentsBits) (n : Nat) (l : Bytes) :
    (∃ st', segbitsLineM junk st n l = .ok st') ↔ ¬ BadSegLine l := by
  constructor
  · rintro ⟨st', h⟩ hb
    obtain ⟨what, hw⟩ := (segComplaint_bad l).2 hb
    rw [(segComplaint_iff junk st n l _).2 ⟨what, hw, rfl⟩] at h
    cases h
  · intro h
    rcases entrySink_cases (segEntry_cases junk) l st n with ⟨s, hs⟩ | hs
    · rw [← segbitsLine_eq, ← segbitsLineM_forget] at hs
      exact ⟨s, forget_eq_ok.1 hs⟩
    · rw [← segbitsLine_eq, ← segbitsLineM_forget] at hs
      obtain ⟨m, hm⟩ := forget_eq_err.1 hs
      obtain ⟨what, hw, _⟩ := (segComplaint_iff _ _ _ _ _).1 hm
      exact absurd ((segComplaint_bad l).1 ⟨what, hw⟩) h

/-! ## Pseudo PIPs -/

theorem pipComplaint_iff (st : PseudoPIPs) (n : Nat) (l m : Bytes) :
    ppipLineM st n l = .err m ↔ PipComplaint n l m := by
  have hf := fields_spec l
  have htype : ∀ t m, ppipTypeM t = .err m ↔ (∀ w, t ≠ pipWord w) ∧ m = quoting "invalid pseudo pip state" t := by
    intro t m
    rw [quoting_lit]
    have hno : (∀ w, t ≠ pipWord w) ↔ ¬ t = bytes!"always" ∧ ¬ t = bytes!"default" ∧ ¬ t = bytes!"hint" := by
      constructor
      · intro h; exact ⟨h .always, h .default, h .hint⟩
      · rintro ⟨h1, h2, h3⟩ w
        cases w
        · exact h1
        · exact h2
        · exact h3
    rw [hno]
    unfold ppipTypeM
    by_cases h1 : t = bytes!"always"
    · simp [h1]
    by_cases h2 : t = bytes!"default"
    · simp [h2]
    by_cases h3 : t = bytes!"hint"
    · simp [h3]
    rw [if_neg h1, if_neg h2, if_neg h3]
    simp only [Said.err.injEq, h1, h2, h3, not_false_eq_true, true_and, and_self]
    have : lit "invalid pseudo pip state \"" = lit "invalid pseudo pip state" ++ lit " \"" := by decide +kernel
    rw [this]
    exact eq_comm
  unfold ppipLineM
  constructor
  · intro h
    split at h
    · cases h
    · rename_i hne
      have other : (∀ a b, fields l ≠ [a, b]) → m = atLine n (quoting "invalid line" l) → PipComplaint n l m := by
        rintro h1 rfl
        exact PipComplaint.shape hne (fun a b h2 => h1 a b (fields_unique h2))
      split at h
      · rename_i a t he
        rw [he] at hf
        rcases bind_eq_err.1 h with h | ⟨_, _, h⟩
        · obtain ⟨h1, rfl⟩ := (htype _ _).1 h
          exact PipComplaint.state a t hf h1
        · cases h
      · rename_i hn
        rw [invalidLineStatus_eq] at h
        cases h
        exact other (fun a b h => hn a b h) rfl
  · intro h
    cases h with
    | shape hne h =>
      rw [if_neg hne]
      split
      · rename_i a t he
        rw [he] at hf
        exact absurd hf (h a t)
      · exact invalidLineStatus_eq _ _
    | state a t h ht =>
      have hne : l ≠ [] := by
        rintro rfl
        have := fields_unique h
        simp [fields, splitBy, skipEmpty] at this
      rw [if_neg hne, fields_unique h]
      simp only [(htype t _).2 ⟨ht, rfl⟩, Said.bind_err]

theorem pipGood_iff (st : PseudoPIPs) (n : Nat) (l : Bytes) :
    (∃ st', ppipLineM st n l = .ok st') ↔ ∃ e, PipLine l e := by
  constructor
  · rintro ⟨st', h⟩
    have h1 : ppipLine st n l = .ok st' := by rw [← ppipLineM_forget, h]; rfl
    rw [ppipLine_eq] at h1
    unfold entrySink at h1
    obtain ⟨e, he, _⟩ := Outcome.bind_eq_ok.1 h1
    exact ⟨e, (pipEntry_iff _ _).1 he⟩
  · rintro ⟨e, h⟩
    have : ∃ s, ppipLine st n l = .ok s := by
      rw [ppipLine_eq]
      unfold entrySink
      rw [(pipEntry_iff _ _).2 h]
      cases e <;> exact ⟨_, rfl⟩
    obtain ⟨s, hs⟩ := this
    exact ⟨s, forget_eq_ok.1 (by rw [ppipLineM_forget]; exact hs)⟩

/-! ## Package pins -/

/-- What a line of a pins file is judged by: the first by the header, the others by their cells. -/
def PinGood (n : Nat) (l : Bytes) : Prop := if n = 1 then Cells l headerCells else ∃ e, PinRow l e

def PinBad (n : Nat) (l m : Bytes) : Prop :=
  if n = 1 then ¬ Cells l headerCells ∧ m = atLine 1 (ascii "missing header") else ∃ what, PinComplaint l what ∧ m = atLine n what

theorem pinGood_iff (st : PackagePins) (n : Nat) (l : Bytes) : (∃ st', csvLineM st n l = .ok st') ↔ PinGood n l := by
  have hfor : (∃ st', csvLineM st n l = .ok st') ↔ ∃ st', csvLine st n l = .ok st' := by
    constructor
    · rintro ⟨s, h⟩; exact ⟨s, by rw [← csvLineM_forget, h]; rfl⟩
    · rintro ⟨s, h⟩; exact ⟨s, forget_eq_ok.1 (by rw [csvLineM_forget]; exact h)⟩
  rw [hfor]
  unfold PinGood
  by_cases hn : n = 1
  · subst hn
    rw [if_pos rfl, csvHeader_line]
    constructor
    · rintro ⟨s, h⟩
      split at h
      · rename_i he; rw [← he]; exact cells_spec l
      · cases h
    · intro h
      rw [if_pos (cells_unique h)]
      exact ⟨_, rfl⟩
  · rw [if_neg hn]
    constructor
    · rintro ⟨s, h⟩; exact csvRow_inv hn h
    · rintro ⟨e, h⟩; exact ⟨_, csvRow_ok h st n hn⟩

theorem pinBad_iff (st : PackagePins) (n : Nat) (l m : Bytes) : csvLineM st n l = .err m ↔ PinBad n l m := by
  have hc := cells_spec l
  have hu : ∀ cs, Cells l cs → segs l = cs := fun cs h => cells_unique h
  unfold csvLineM PinBad
  change (if n = 1 then if segs l = csvHeader then _ else _ else _) = _ ↔ _
  by_cases hn : n = 1
  · subst hn
    rw [if_pos rfl, if_pos rfl]
    by_cases hh : segs l = csvHeader
    · rw [if_pos hh]
      constructor
      · intro h; cases h
      · rintro ⟨h, _⟩
        exact absurd (by rw [hh] at hc; exact hc) h
    · rw [if_neg hh, invalidLineStatus_eq]
      constructor
      · intro h; cases h
        exact ⟨fun h => hh (hu _ h), rfl⟩
      · rintro ⟨_, rfl⟩; rfl
  · rw [if_neg hn, if_neg hn]
    change (match segs l with
      | [] => Said.ok st
      | [s0, s1, s2, s3, s4] => _
      | _ => _) = _ ↔ _
    have bad : ∀ cs, segs l = cs → cs ≠ [] → cs.length ≠ 5 →
        ((invalidLineStatus n (msgInvalidLine l) : Said PackagePins) = .err m ↔ ∃ what, PinComplaint l what ∧ m = atLine n what) := by
      intro cs he h0 h5
      rw [invalidLineStatus_eq]
      constructor
      · intro h; cases h
        exact ⟨_, PinComplaint.shape cs (he ▸ hc) h0 h5, rfl⟩
      · rintro ⟨what, h, rfl⟩
        cases h with
        | shape => rfl
        | bank a b c d e h _ =>
          rw [hu _ h] at he
          subst he
          exact absurd rfl h5
    cases hL : segs l with
    | nil =>
      dsimp only
      constructor
      · intro h; cases h
      · rintro ⟨what, h, rfl⟩
        cases h with
        | shape cs h h0 h5 => rw [hu _ h] at hL; exact absurd hL h0
        | bank a b c d e h _ => rw [hu _ h] at hL; cases hL
    | cons a L =>
      rcases L with _ | ⟨b, _ | ⟨c, _ | ⟨d, _ | ⟨e, _ | ⟨f, r⟩⟩⟩⟩⟩
      · exact bad _ hL (by simp) (by simp)
      · exact bad _ hL (by simp) (by simp)
      · exact bad _ hL (by simp) (by simp)
      · exact bad _ hL (by simp) (by simp)
      · dsimp only
        rw [hL] at hc
        cases hb : atoiU32 b with
        | none =>
          dsimp only
          rw [invalidLineStatus_eq]
          have hnone : ∀ k, ¬ UIntText b k := by
            intro k hk
            rw [(atoiU32_iff _ _).2 hk] at hb; cases hb
          have e1 : lit "could not parse bank (second column) \"" ++ l ++ lit "\"" = quoting "could not parse bank (second column)" l := by
            rw [quoting_lit]
            have : lit "could not parse bank (second column) \"" = lit "could not parse bank (second column)" ++ lit " \"" := by decide +kernel
            rw [this]
          rw [e1]
          constructor
          · intro h; cases h
            exact ⟨_, PinComplaint.bank a b c d e hc hnone, rfl⟩
          · rintro ⟨what, h, rfl⟩
            cases h with
            | shape cs h h0 h5 => rw [hu _ h] at hL; subst hL; exact absurd rfl h5
            | bank => rfl
        | some k =>
          dsimp only
          constructor
          · intro h; cases h
          · rintro ⟨what, h, rfl⟩
            cases h with
            | shape cs h h0 h5 => rw [hu _ h] at hL; subst hL; exact absurd rfl h5
            | bank a' b' c' d' e' h hb' =>
              rw [hu _ h] at hL
              cases hL
              exact absurd ((atoiU32_iff _ _).1 hb) (hb' k)
      · exact bad _ hL (by simp) (by simp)

end Verif.Db
