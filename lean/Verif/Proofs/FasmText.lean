import Verif.Model.FasmText
import Verif.Spec.FasmText
import Verif.Proofs.FasmTotal4
/-! # The texts of the FASM parser: same parser, and the texts of a line -/
namespace Verif.Fasm
open Verif.Spec

/-! ## The same parser -/

/-- Same outcome, when the texts are forgotten. -/
def Er {γ : Type} : Res (Log × γ) → Res (St × γ) → Prop
  | .ok (o, x), .ok (st, y) => o.st = st ∧ x = y
  | .oob, .oob => True
  | .shift, .shift => True
  | _, _ => False

theorem Er.bind {γ δ : Type} {r1 : Res (Log × γ)} {r2 : Res (St × γ)} {f : Log × γ → Res (Log × δ)} {g : St × γ → Res (St × δ)}
    (h : Er r1 r2) (hf : ∀ o x, Er (f (o, x)) (g (o.st, x))) : Er (r1 >>= f) (r2 >>= g) := by
  match r1, r2, h with
  | .ok (a, x), .ok (b, y), ⟨h1, h2⟩ => subst h1; subst h2; exact hf a x
  | .oob, .oob, _ => trivial
  | .shift, .shift, _ => trivial

theorem Er.pre {α δ : Type} (r : Res α) {f : α → Res (Log × δ)} {g : α → Res (St × δ)}
    (hf : ∀ x, Er (f x) (g x)) : Er (r >>= f) (r >>= g) := by
  cases r with
  | ok a => exact hf a
  | oob => trivial
  | shift => trivial

theorem clamp_er (o : Log) (line : Nat) (name : Bytes) (mx mn w : Nat) (i : Bool) :
    (clampWidthM o line name mx mn w i).1.st = (clampWidth o.st line w i).1 ∧
      (clampWidthM o line name mx mn w i).2 = (clampWidth o.st line w i).2 := by
  unfold clampWidthM clampWidth
  split <;> exact ⟨rfl, rfl⟩

theorem printIf_st (o : Log) (line : Nat) (sev : Sev) (t : Bytes) (p : Prop) [Decidable p] :
    (if p then o.print line sev t else o).st = if p then o.st.report line sev else o.st := by split <;> rfl

theorem value_er (o : Log) (line : Nat) (f : UInt8) (s : Bytes) : Er (parseValueM o line f s) (parseValue o.st line f s) := by
  unfold parseValueM parseValue
  split
  · exact Er.pre _ fun _ => ⟨rfl, rfl⟩
  · split
    · exact Er.pre _ fun _ => ⟨rfl, rfl⟩
    · split
      · exact Er.pre _ fun _ => ⟨rfl, rfl⟩
      · split
        · exact Er.pre _ fun _ => ⟨rfl, rfl⟩
        · exact Er.pre _ fun _ => ⟨rfl, rfl⟩

theorem ticked_er (o : Log) (line : Nat) (name : Bytes) (mx mn w d : Nat) (s : Bytes) :
    Er (parseTickedM o line name mx mn w d s) (parseTicked o.st line w d s) := by
  unfold parseTickedM parseTicked
  refine Er.pre _ fun t => Er.pre _ fun f => ?_
  dsimp only
  rw [← printIf_st o line .nonCritical (msgMoreBits line d name mx mn w)]
  have h2 := clamp_er (if d > w then o.print line .nonCritical (msgMoreBits line d name mx mn w) else o) line name mx mn w
    (f = 0x64 ∨ f = 0x6f)
  rw [← h2.1, ← h2.2]
  exact (value_er _ line f (adv t)).bind fun o x => Er.pre _ fun _ => ⟨rfl, rfl⟩

theorem assign_er (o : Log) (line : Nat) (name : Bytes) (mx mn : Nat) (s : Bytes) :
    Er (parseAssignM o line name mx mn s) (parseAssign o.st line mx mn s) := by
  unfold parseAssignM parseAssign
  refine Er.pre _ fun c => ?_
  split
  · refine Er.pre _ fun t => Er.pre _ fun v => Er.pre _ fun u => Er.pre _ fun c => ?_
    split
    · exact ticked_er o line name _ _ _ _ _
    · have h2 := clamp_er o line name mx mn (mx - mn + 1) true
      dsimp only
      rw [← h2.2]
      exact ⟨h2.1, rfl⟩
  · exact ⟨printIf_st o line .info _ _, rfl⟩

theorem annotations_er (line : Nat) (feature : Bytes) : ∀ (fuel : Nat) (o : Log) (s : Bytes),
    Er (annotationsM line feature fuel o s) (annotations line feature fuel o.st s) := by
  intro fuel
  induction fuel with
  | zero => intro o s; trivial
  | succ fuel ih =>
    intro o s
    unfold annotationsM annotations
    refine Er.pre _ fun t => Er.pre _ fun v => Er.pre _ fun u => Er.pre _ fun c => ?_
    split
    · exact ⟨rfl, rfl⟩
    · refine Er.pre _ fun t => Er.pre _ fun c => ?_
      split
      · exact ⟨rfl, rfl⟩
      · refine Er.pre _ fun q => Er.pre _ fun c => ?_
        split
        · exact ⟨rfl, rfl⟩
        · refine Er.pre _ fun t => Er.pre _ fun c => ?_
          split
          · exact ih _ _
          · exact ⟨rfl, rfl⟩

theorem anns_er (ann : Bool) (o : Log) (line : Nat) (feature s : Bytes) :
    Er (parseAnnotationsM ann o line feature s) (parseAnnotations ann o.st line feature s) := by
  unfold parseAnnotationsM parseAnnotations
  split
  · refine (annotations_er line feature _ o s).bind fun o x => Er.pre _ fun c => ?_
    exact Er.pre _ fun t => ⟨printIf_st o line .error _ _, rfl⟩
  · exact Er.pre _ fun t => ⟨rfl, rfl⟩

theorem end_er (o : Log) (line : Nat) (s : Bytes) : Er (parseEndM o line s) (parseEnd o.st line s) := by
  unfold parseEndM parseEnd
  refine Er.pre _ fun c => ?_
  split
  · exact Er.pre _ fun t => ⟨rfl, rfl⟩
  · split
    · exact Er.pre _ fun t => ⟨rfl, rfl⟩
    · exact ⟨rfl, rfl⟩

theorem tail_er (ann : Bool) (o : Log) (line : Nat) (feature s : Bytes) :
    Er (parseTailM ann o line feature s) (parseTail ann o.st line feature s) := by
  unfold parseTailM parseTail
  refine Er.pre _ fun c => ?_
  split
  · exact (anns_er ann o line feature s).bind fun o x => end_er o line x
  · exact end_er o line s

/-- The range, when the numbers of an inverted one are forgotten. -/
def RangeM.plain : RangeM → Range
  | .bits a b => .bits a b
  | .noBracket => .noBracket
  | .inverted _ _ => .inverted

theorem range_er (s : Bytes) : parseRange s = (parseRangeM s).bind fun r => .ok (r.1.plain, r.2) := by
  unfold parseRange parseRangeM
  cases cur s with
  | oob => rfl
  | shift => rfl
  | ok c =>
    simp only [Res.bind_ok]
    split
    · cases number 10 16 0 (adv s) with
      | oob => rfl
      | shift => rfl
      | ok a =>
        simp only [Res.bind_ok]
        cases skipBlank a.2 with
        | oob => rfl
        | shift => rfl
        | ok t =>
          simp only [Res.bind_ok]
          cases rangeMin a.1 t with
          | oob => rfl
          | shift => rfl
          | ok b =>
            simp only [Res.bind_ok]
            cases cur b.2 with
            | oob => rfl
            | shift => rfl
            | ok c =>
              simp only [Res.bind_ok]
              split
              · rfl
              · split <;> rfl
    · rfl

theorem line_er (ann : Bool) (cb : List Event → Bool) (o : Log) (line : Nat) (s : Bytes) :
    Er (parseLineM ann cb o line s) (parseLine ann cb o.st line s) := by
  unfold parseLineM parseLine
  refine Er.pre _ fun t => Er.pre _ fun v => Er.pre _ fun u => ?_
  dsimp only
  split
  · exact tail_er ann o line _ _
  · rw [range_er]
    cases parseRangeM u with
    | oob => trivial
    | shift => trivial
    | ok r =>
      obtain ⟨r, u2⟩ := r
      cases r with
      | noBracket => exact Er.pre (skipToEol u2) fun t => ⟨rfl, rfl⟩
      | inverted a b => exact Er.pre (skipToEol u2) fun t => ⟨rfl, rfl⟩
      | bits mx mn =>
        refine Er.pre _ fun t => (assign_er o line v.1 mx mn t).bind fun o x => ?_
        exact Er.pre _ fun st => tail_er ann { o with st := st } line v.1 x.2.2

theorem lines_er (ann : Bool) (cb : List Event → Bool) : ∀ (fuel line : Nat) (o : Log) (s : Bytes),
    (parseLinesM ann cb fuel line o s).bind (fun o => .ok o.st) = parseLines ann cb fuel line o.st s := by
  intro fuel
  induction fuel with
  | zero => intro line o s; cases s <;> rfl
  | succ fuel ih =>
    intro line o s
    cases s with
    | nil => rfl
    | cons c cs =>
      unfold parseLinesM parseLines
      dsimp only
      have h := line_er ann cb o ((line + 1) % 2 ^ 32) (c :: cs)
      revert h
      cases parseLineM ann cb o ((line + 1) % 2 ^ 32) (c :: cs) <;>
        cases parseLine ann cb o.st ((line + 1) % 2 ^ 32) (c :: cs) <;> intro h
      · rename_i x y
        obtain ⟨x1, x2⟩ := x
        obtain ⟨y1, y2⟩ := y
        obtain ⟨rfl, rfl⟩ := h
        exact ih _ _ _
      all_goals first | exact h.elim | rfl

theorem parse_er (ann : Bool) (cb : List Event → Bool) (content : Bytes) :
    (parseM ann cb content).bind (fun o => .ok o.st) = parse ann cb content := by
  unfold parseM parse
  cases content.getLast? with
  | none => rfl
  | some c =>
    dsimp only
    split
    · rfl
    · exact lines_er ann cb _ _ _ _

/-! ## Decimal numbers -/

theorem dec_eq (n : Nat) : printU n = dec n := by
  unfold printU dec ascii
  congr 1
  exact (String.toList_ofList).symm

theorem printD_small (n : Nat) (h : n < 2 ^ 31) : printD n = dec n := by
  unfold printD
  rw [toInt32_small n h, if_neg (by omega), ← dec_eq]
  rfl

theorem printS_ident (s : Bytes) (h : ∀ c ∈ s, NameChar c) : printS s = s := by
  unfold printS
  induction s with
  | nil => rfl
  | cons c cs ih =>
    have hc : c ≠ 0 := by
      rintro rfl
      exact absurd (h 0 List.mem_cons_self) (by decide)
    rw [List.takeWhile_cons, if_pos (by simpa using hc), ih fun x hx => h x (List.mem_cons_of_mem _ hx)]

end Verif.Fasm
