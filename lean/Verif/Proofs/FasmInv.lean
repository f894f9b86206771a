import Verif.Proofs.FasmWf2
/-! # Invariants of the FASM parser, for any content -/
namespace Verif.Fasm
open Verif.Spec

/-- A state predicate preserved by everything the parser does to its state. -/
structure Closed (cb : List Event → Bool) (Inv : St → Prop) : Prop where
  report : ∀ st line sev, sev ≠ .success → Inv st → Inv (st.report line sev)
  feature : ∀ st line name start (w bits : Nat), 1 ≤ w → w ≤ 64 → bits < 2 ^ w → Inv st →
    Inv { st with
      trace := st.trace ++ [.feature line name start (w : Int) bits],
      result := if cb (st.trace ++ [.feature line name start (w : Int) bits]) then st.result
        else st.result.max .userAbort }
  annotation : ∀ st line feature name value, Inv st →
    Inv { st with trace := st.trace ++ [.annotation line feature name value] }

/-- The predicate holds of the outcome, if there is one. -/
def OkInv {α : Type} (Inv : St → Prop) (π : α → St) : Res α → Prop
  | .ok a => Inv (π a)
  | _ => True

theorem OkInv.bind {α β : Type} {Inv : St → Prop} {ρ : α → St} {π : β → St} {r : Res α} {f : α → Res β}
    (h : OkInv Inv ρ r) (hf : ∀ a, Inv (ρ a) → OkInv Inv π (f a)) : OkInv Inv π (r >>= f) := by
  match r, h with
  | .ok a, h => exact hf a h
  | .oob, _ => trivial
  | .shift, _ => trivial

/-- A step that does not involve the state. -/
theorem OkInv.pre {α β : Type} {Inv : St → Prop} {π : β → St} (r : Res α) {f : α → Res β}
    (hf : ∀ a, OkInv Inv π (f a)) : OkInv Inv π (r >>= f) := by
  cases r with
  | ok a => exact hf a
  | oob => trivial
  | shift => trivial

variable {cb : List Event → Bool} {Inv : St → Prop}

theorem Closed.reportIf (h : Closed cb Inv) (st : St) (line : Nat) (sev : Sev) (hs : sev ≠ .success) (p : Prop)
    [Decidable p] (hi : Inv st) : Inv (if p then st.report line sev else st) := by
  split
  · exact h.report st line sev hs hi
  · exact hi

theorem Closed.clamp (h : Closed cb Inv) (st : St) (line w : Nat) (i : Bool) (hi : Inv st) :
    Inv (clampWidth st line w i).1 := by
  unfold clampWidth
  split
  · exact h.report _ _ _ (by decide) hi
  · exact hi

theorem Closed.value (h : Closed cb Inv) (st : St) (line : Nat) (f : UInt8) (s : Bytes) (hi : Inv st) :
    OkInv Inv (fun r => r.1) (parseValue st line f s) := by
  unfold parseValue
  split
  · exact OkInv.pre _ fun _ => hi
  · split
    · exact OkInv.pre _ fun _ => hi
    · split
      · exact OkInv.pre _ fun _ => hi
      · split
        · exact OkInv.pre _ fun _ => hi
        · exact OkInv.pre _ fun _ => h.report _ _ _ (by decide) hi

theorem Closed.ticked (h : Closed cb Inv) (st : St) (line w d : Nat) (s : Bytes) (hi : Inv st) :
    OkInv Inv (fun r => r.1) (parseTicked st line w d s) := by
  unfold parseTicked
  refine OkInv.pre _ fun t => OkInv.pre _ fun f => ?_
  have h1 := h.reportIf st line .nonCritical (by decide) (d > w) hi
  have h2 := h.clamp _ line w (f = 0x64 ∨ f = 0x6f) h1
  exact (h.value _ line f (adv t) h2).bind fun a ha => OkInv.pre _ fun _ => ha

theorem Closed.assign (h : Closed cb Inv) (st : St) (line mx mn : Nat) (s : Bytes) (hi : Inv st) :
    OkInv Inv (fun r => r.1) (parseAssign st line mx mn s) := by
  unfold parseAssign
  refine OkInv.pre _ fun c => ?_
  split
  · refine OkInv.pre _ fun t => OkInv.pre _ fun v => OkInv.pre _ fun u => OkInv.pre _ fun c => ?_
    split
    · exact h.ticked st line _ _ _ hi
    · exact h.clamp st line _ true hi
  · exact h.reportIf st line .info (by decide) _ hi

theorem Closed.chunks (h : Closed cb Inv) (line : Nat) (name : Bytes) (mn w total : Nat) :
    ∀ (cs : List Nat) (i : Nat) (st : St), Inv st → OkInv Inv id (reportChunks cb line name mn w total i cs st) := by
  intro cs
  induction cs with
  | nil => intro i st hi; exact hi
  | cons c cs ih =>
    intro i st hi
    unfold reportChunks
    dsimp only
    split
    · trivial
    · rename_i ha
      have hlt : valueWidth w total i < 2 ^ 32 := by
        unfold valueWidth; split
        · exact BitVec.isLt _
        · decide
      have hw := (amount_lt_iff _ hlt).1 (by omega)
      have hf := h.feature st line name (toInt32 (mn + i * 64)) (valueWidth w total i)
        (c % 2 ^ valueWidth w total i) hw.1 hw.2 (Nat.mod_lt _ (Nat.two_pow_pos _)) hi
      rw [mask_eq _ _ hw.1 hw.2, toInt32_small (valueWidth w total i) (by omega)]
      split
      · rename_i hcb
        rw [if_pos hcb] at hf
        exact ih _ _ hf
      · rename_i hcb
        rw [if_neg hcb] at hf
        exact hf

theorem Closed.annots (h : Closed cb Inv) (line : Nat) (feature : Bytes) : ∀ (fuel : Nat) (st : St) (s : Bytes),
    Inv st → OkInv Inv Prod.fst (annotations line feature fuel st s) := by
  intro fuel
  induction fuel with
  | zero => intro st s _; trivial
  | succ fuel ih =>
    intro st s hi
    unfold annotations
    refine OkInv.pre _ fun _ => OkInv.pre _ fun a => OkInv.pre _ fun _ => OkInv.pre _ fun c => ?_
    split
    · exact h.report _ _ _ (by decide) hi
    · refine OkInv.pre _ fun _ => OkInv.pre _ fun c => ?_
      split
      · exact h.report _ _ _ (by decide) hi
      · refine OkInv.pre _ fun q => OkInv.pre _ fun c => ?_
        split
        · exact h.report _ _ _ (by decide) hi
        · have := h.annotation st line feature a.1 q.1 hi
          refine OkInv.pre _ fun _ => OkInv.pre _ fun c => ?_
          split
          · exact ih _ _ this
          · exact this

theorem Closed.parseEnd (h : Closed cb Inv) (st : St) (line : Nat) (s : Bytes) (hi : Inv st) :
    OkInv Inv Prod.fst (parseEnd st line s) := by
  unfold Verif.Fasm.parseEnd
  refine OkInv.pre _ fun c => ?_
  split
  · exact OkInv.pre _ fun _ => hi
  · split
    · exact OkInv.pre _ fun _ => h.report _ _ _ (by decide) hi
    · exact hi

theorem Closed.tail (h : Closed cb Inv) (ann : Bool) (st : St) (line : Nat) (feature s : Bytes) (hi : Inv st) :
    OkInv Inv Prod.fst (parseTail ann st line feature s) := by
  unfold parseTail
  refine OkInv.pre _ fun c => ?_
  split
  · have : OkInv Inv Prod.fst (parseAnnotations ann st line feature s) := by
      unfold parseAnnotations
      split
      · refine (h.annots line feature _ st s hi).bind fun a ha => OkInv.pre _ fun c => ?_
        have := h.reportIf a.1 line .error (by decide) (c ≠ chRBrace) ha
        exact OkInv.pre _ fun _ => this
      · exact OkInv.pre _ fun _ => hi
    exact this.bind fun a ha => h.parseEnd _ _ _ ha
  · exact h.parseEnd _ _ _ hi

theorem Closed.line (h : Closed cb Inv) (ann : Bool) (st : St) (line : Nat) (s : Bytes) (hi : Inv st) :
    OkInv Inv Prod.fst (parseLine ann cb st line s) := by
  unfold parseLine
  refine OkInv.pre _ fun _ => OkInv.pre _ fun a => OkInv.pre _ fun _ => ?_
  split
  · exact h.tail _ _ _ _ _ hi
  · refine OkInv.pre _ fun r => ?_
    obtain ⟨r, s2⟩ := r
    cases r with
    | noBracket => exact OkInv.pre _ fun _ => h.report _ _ _ (by decide) hi
    | inverted => exact OkInv.pre _ fun _ => h.report _ _ _ (by decide) hi
    | bits mx mn =>
      refine OkInv.pre _ fun _ => (h.assign st line mx mn _ hi).bind fun b hb => ?_
      exact (h.chunks line a.1 mn _ _ _ 0 _ hb).bind fun st' hst' => h.tail _ _ _ _ _ hst'

theorem Closed.lines (h : Closed cb Inv) (ann : Bool) : ∀ (fuel line : Nat) (st : St) (s : Bytes),
    Inv st → OkInv Inv id (parseLines ann cb fuel line st s) := by
  intro fuel
  induction fuel with
  | zero =>
    intro line st s hi
    cases s with
    | nil => exact hi
    | cons c cs => trivial
  | succ fuel ih =>
    intro line st s hi
    cases s with
    | nil => exact hi
    | cons c cs => exact (h.line ann st _ _ hi).bind fun a ha => ih _ _ _ ha

/-- An invariant that holds initially holds of the result of any parse. -/
theorem Closed.parse (h : Closed cb Inv) (ann : Bool) (content : Bytes) (st : St) (h0 : Inv {})
    (hp : Verif.Fasm.parse ann cb content = .ok st) : Inv st := by
  unfold Verif.Fasm.parse at hp
  split at hp
  · cases hp; exact h0
  · split at hp
    · cases hp; exact h.report _ _ _ (by decide) h0
    · have := h.lines ann content.length 0 {} content h0
      rw [hp] at this
      exact this

/-! ## Instances -/

/-- A well-formed feature call. -/
def GoodEvent : Event → Prop
  | .feature _ _ _ w b => 1 ≤ w ∧ w ≤ 64 ∧ (b : Int) < 2 ^ w.toNat
  | .annotation .. => True

theorem closed_good (cb : List Event → Bool) : Closed cb fun st => ∀ e ∈ st.trace, GoodEvent e where
  report := by intro st _ _ _ h; exact h
  feature := by
    intro st line name start w bits h1 h2 h3 h e he
    rcases List.mem_append.1 he with he | he
    · exact h e he
    · rw [List.mem_singleton.1 he]
      refine ⟨by omega, by omega, ?_⟩
      rw [Int.toNat_natCast]
      exact_mod_cast h3
  annotation := by
    intro st line f n v h e he
    rcases List.mem_append.1 he with he | he
    · exact h e he
    · rw [List.mem_singleton.1 he]; trivial

theorem worst_append (a b : List Sev) : worst (a ++ b) = (worst a).max (worst b) := by
  induction a with
  | nil => cases h : worst b <;> simp [worst, Sev.max, h, Sev.rank]
  | cons x xs ih =>
    simp only [List.cons_append, worst, ih]
    cases x <;> cases worst xs <;> cases worst b <;> rfl

theorem max_comm' (a b : Sev) : a.max b = b.max a := by cases a <;> cases b <;> rfl

theorem worst_single (s : Sev) : worst [s] = s := by cases s <;> rfl

theorem filterMap_congr' {α β : Type} {f g : α → Option β} : ∀ {l : List α}, (∀ a ∈ l, f a = g a) →
    l.filterMap f = l.filterMap g
  | [], _ => rfl
  | a :: l, h => by
    rw [List.filterMap_cons, List.filterMap_cons, h a List.mem_cons_self,
      filterMap_congr' fun x hx => h x (List.mem_cons_of_mem _ hx)]

theorem abortsOf_snoc (cb : List Event → Bool) (tr : List Event) (e : Event) :
    abortsOf cb (tr ++ [e]) = abortsOf cb tr ++
      (if isFeature e && !cb (tr ++ [e]) then [.userAbort] else []) := by
  unfold abortsOf
  rw [List.length_append, List.length_singleton, List.range_succ, List.filterMap_append]
  congr 1
  · refine filterMap_congr' fun i hi => ?_
    have : i + 1 ≤ tr.length := List.mem_range.1 hi
    rw [List.take_append_of_le_length this]
  · have : (tr ++ [e]).take (tr.length + 1) = tr ++ [e] := List.take_of_length_le (by simp)
    simp only [List.filterMap_cons, List.filterMap_nil, this, List.getLast?_append, List.getLast?_singleton,
      Option.some_or, Option.any_some]
    by_cases h : isFeature e && !cb (tr ++ [e]) <;> simp [h]

/-- The result is the worst of the diagnostics and the aborts. -/
def ResultInv (cb : List Event → Bool) (st : St) : Prop :=
  st.result = worst (st.diags.map Prod.snd ++ abortsOf cb st.trace) ∧ ∀ d ∈ st.diags, d.2 ≠ .success

theorem closed_result (cb : List Event → Bool) : Closed cb (ResultInv cb) where
  report := by
    intro st line sev hs ⟨h1, h2⟩
    constructor
    · simp only [St.report, h1, List.map_append, List.map_cons, List.map_nil]
      simp only [worst_append, worst_single, max_assoc]
      rw [max_comm' sev]
    · intro d hd
      rcases List.mem_append.1 hd with hd | hd
      · exact h2 d hd
      · rw [List.mem_singleton.1 hd]; exact hs
  feature := by
    intro st line name start w bits _ _ _ ⟨h1, h2⟩
    refine ⟨?_, h2⟩
    simp only [abortsOf_snoc, isFeature, Bool.true_and]
    by_cases hcb : cb (st.trace ++ [.feature line name start (w : Int) bits]) = true
    · simp only [hcb, if_true, Bool.not_true, Bool.false_eq_true, if_false, List.append_nil]; exact h1
    · simp only [Bool.not_eq_true] at hcb
      simp only [hcb, Bool.false_eq_true, if_false, Bool.not_false, if_true, ← List.append_assoc]
      rw [worst_append _ [Sev.userAbort], worst_single, ← h1]
  annotation := by
    intro st line f n v ⟨h1, h2⟩
    refine ⟨?_, h2⟩
    simp only [abortsOf_snoc, isFeature, Bool.false_and, Bool.false_eq_true, if_false, List.append_nil]
    exact h1

theorem worst_success (l : List Sev) : worst l = .success ↔ ∀ s ∈ l, s = .success := by
  induction l with
  | nil => simp [worst]
  | cons x xs ih =>
    rw [show x :: xs = [x] ++ xs from rfl, worst_append, worst_single]
    have : x.max (worst xs) = .success ↔ x = .success ∧ worst xs = .success := by
      cases x <;> cases worst xs <;> decide
    rw [this, ih]
    simp

theorem closed_rank (cb : List Event → Bool) (k : Nat) : Closed cb fun st => k ≤ st.result.rank where
  report := by
    intro st line sev _ h
    refine Nat.le_trans h ?_
    simp only [St.report]
    cases st.result <;> cases sev <;> decide
  feature := by
    intro st line name start w bits _ _ _ h
    refine Nat.le_trans h ?_
    dsimp only
    split
    · exact Nat.le_refl _
    · cases st.result <;> decide
  annotation := by intro st _ _ _ _ h; exact h

end Verif.Fasm
