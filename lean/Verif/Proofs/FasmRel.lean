import Verif.Proofs.FasmAnn
/-! # The annotation callback does not influence the features, for every input -/
namespace Verif.Fasm
open Verif.Spec

/-- Two outcomes that agree on everything but annotation calls and diagnostics. -/
def SameA {γ : Type} : Res (St × γ) → Res (St × γ) → Prop
  | .ok (a, x), .ok (b, y) => SameFeats a b ∧ x = y
  | .oob, .oob => True
  | .shift, .shift => True
  | _, _ => False

theorem SameA.bind {γ δ : Type} {r1 r2 : Res (St × γ)} {f g : St × γ → Res (St × δ)} (h : SameA r1 r2)
    (hf : ∀ a b x, SameFeats a b → SameA (f (a, x)) (g (b, x))) : SameA (r1 >>= f) (r2 >>= g) := by
  match r1, r2, h with
  | .ok (a, x), .ok (b, y), ⟨h1, h2⟩ => subst h2; exact hf a b x h1
  | .oob, .oob, _ => trivial
  | .shift, .shift, _ => trivial

theorem SameA.pre {α δ : Type} (r : Res α) {f g : α → Res (St × δ)}
    (hf : ∀ x, SameA (f x) (g x)) : SameA (r >>= f) (r >>= g) := by
  cases r with
  | ok a => exact hf a
  | oob => trivial
  | shift => trivial

theorem sameFeats_report {a b : St} (h : SameFeats a b) (line : Nat) (sev : Sev) :
    SameFeats (a.report line sev) (b.report line sev) := h

theorem sameFeats_reportIf {a b : St} (h : SameFeats a b) (line : Nat) (sev : Sev) (p : Prop) [Decidable p] :
    SameFeats (if p then a.report line sev else a) (if p then b.report line sev else b) := by
  split <;> exact h

theorem sameFeats_clamp {a b : St} (h : SameFeats a b) (line w : Nat) (i : Bool) :
    SameFeats (clampWidth a line w i).1 (clampWidth b line w i).1 ∧
      (clampWidth a line w i).2 = (clampWidth b line w i).2 := by
  unfold clampWidth
  split
  · exact ⟨h, rfl⟩
  · exact ⟨h, rfl⟩

theorem value_same {a b : St} (h : SameFeats a b) (line : Nat) (f : UInt8) (s : Bytes) :
    SameA (parseValue a line f s) (parseValue b line f s) := by
  unfold parseValue
  split
  · exact SameA.pre _ fun _ => ⟨h, rfl⟩
  · split
    · exact SameA.pre _ fun _ => ⟨h, rfl⟩
    · split
      · exact SameA.pre _ fun _ => ⟨h, rfl⟩
      · split
        · exact SameA.pre _ fun _ => ⟨h, rfl⟩
        · exact SameA.pre _ fun _ => ⟨h, rfl⟩

theorem ticked_same {a b : St} (h : SameFeats a b) (line w d : Nat) (s : Bytes) :
    SameA (parseTicked a line w d s) (parseTicked b line w d s) := by
  unfold parseTicked
  refine SameA.pre _ fun t => SameA.pre _ fun f => ?_
  have h1 := sameFeats_reportIf h line .nonCritical (d > w)
  have h2 := sameFeats_clamp h1 line w (f = 0x64 ∨ f = 0x6f)
  dsimp only
  rw [h2.2]
  exact (value_same h2.1 line f (adv t)).bind fun a b x hx => SameA.pre _ fun _ => ⟨hx, rfl⟩

theorem assign_same {a b : St} (h : SameFeats a b) (line mx mn : Nat) (s : Bytes) :
    SameA (parseAssign a line mx mn s) (parseAssign b line mx mn s) := by
  unfold parseAssign
  refine SameA.pre _ fun c => ?_
  split
  · refine SameA.pre _ fun t => SameA.pre _ fun v => SameA.pre _ fun u => SameA.pre _ fun c => ?_
    split
    · exact ticked_same h line _ _ _
    · have h2 := sameFeats_clamp h line (mx - mn + 1) true
      dsimp only
      rw [h2.2]
      exact ⟨h2.1, rfl⟩
  · exact ⟨sameFeats_reportIf h line .info _, rfl⟩

theorem skipToEol_oob : ∀ (s : Bytes), chNl ∉ s → skipToEol s = .oob := by
  intro s
  induction s with
  | nil => intro _; rfl
  | cons c cs ih =>
    intro h
    have hc : c ≠ chNl := by rintro rfl; exact h List.mem_cons_self
    rw [skipToEol, if_neg hc]
    exact ih fun hm => h (List.mem_cons_of_mem _ hm)

/-- A piece of code that never shifts and returns a suffix. -/
def SufR {α : Type} (s : Bytes) (π : α → Bytes) : Res α → Prop
  | .ok a => π a <:+ s
  | .oob => True
  | .shift => False

theorem SufR.bind {α β : Type} {s : Bytes} {ρ : α → Bytes} {π : β → Bytes} {r : Res α} {f : α → Res β}
    (h : SufR s ρ r) (hf : ∀ a, ρ a <:+ s → SufR s π (f a)) : SufR s π (r >>= f) := by
  match r, h with
  | .ok a, h => exact hf a h
  | .oob, _ => trivial

theorem skipBlank_suf : ∀ (s u : Bytes), u <:+ s → SufR s id (skipBlank u) := by
  intro s u
  induction u with
  | nil => intro _; trivial
  | cons c cs ih =>
    intro h
    unfold skipBlank
    split
    · exact ih ((List.suffix_cons c cs).trans h)
    · exact h

theorem ident_suf : ∀ (s u : Bytes), u <:+ s → SufR s Prod.snd (ident u) := by
  intro s u
  induction u with
  | nil => intro _; trivial
  | cons c cs ih =>
    intro h
    unfold ident
    split
    · exact (ih ((List.suffix_cons c cs).trans h)).bind fun a ha => ha
    · exact h

theorem quoted_suf (s : Bytes) : ∀ (u : Bytes) (prev : UInt8), u <:+ s → SufR s Prod.snd (quoted prev u) := by
  intro u
  induction u with
  | nil => intro _ _; trivial
  | cons c cs ih =>
    intro prev h
    unfold quoted
    split
    · exact h
    · split
      · exact h
      · exact (ih c ((List.suffix_cons c cs).trans h)).bind fun a ha => ha

theorem cur_suf {α : Type} (s u : Bytes) (π : α → Bytes) (f : UInt8 → Res α) (h : ∀ c, SufR s π (f c)) :
    SufR s π (cur u >>= f) := by
  cases u with
  | nil => trivial
  | cons c cs => exact h c

theorem adv_suf {s u : Bytes} (h : u <:+ s) : adv u <:+ s := (tail_suffix' u).trans h

theorem annotations_suf (line : Nat) (feature : Bytes) (s : Bytes) : ∀ (fuel : Nat) (st : St) (u : Bytes),
    u <:+ s → SufR s Prod.snd (annotations line feature fuel st u) := by
  intro fuel
  induction fuel with
  | zero => intro st u _; trivial
  | succ fuel ih =>
    intro st u h
    unfold annotations
    refine (skipBlank_suf s _ (adv_suf h)).bind fun a ha => ?_
    refine (ident_suf s _ ha).bind fun b hb => ?_
    refine (skipBlank_suf s _ hb).bind fun c hc => ?_
    refine cur_suf _ _ _ _ fun ch => ?_
    split
    · exact hc
    · refine (skipBlank_suf s _ (adv_suf hc)).bind fun d hd => ?_
      refine cur_suf _ _ _ _ fun ch => ?_
      split
      · exact hd
      · refine (quoted_suf s _ _ (adv_suf hd)).bind fun q hq => ?_
        refine cur_suf _ _ _ _ fun ch => ?_
        split
        · exact hq
        · refine (skipBlank_suf s _ (adv_suf hq)).bind fun t ht => ?_
          refine cur_suf _ _ _ _ fun ch => ?_
          split
          · exact ih _ _ ht
          · exact ht

theorem parseEnd_oob (st : St) (line : Nat) (s : Bytes) (h : chNl ∉ s) : parseEnd st line s = .oob := by
  unfold parseEnd
  cases s with
  | nil => rfl
  | cons c cs =>
    have hc : c ≠ chNl := by rintro rfl; exact h List.mem_cons_self
    simp only [cur, Res.bind_ok, skipToEol_oob _ h, Res.bind_oob, hc, ne_eq, not_false_eq_true, if_true, ite_self]

theorem parseTail_oob (ann : Bool) (st : St) (line : Nat) (feature s : Bytes) (h : chNl ∉ s) :
    parseTail ann st line feature s = .oob := by
  unfold parseTail
  cases hs : cur s with
  | oob => rfl
  | shift => cases s <;> cases hs
  | ok c =>
    rw [Res.bind_ok]
    split
    · have : parseAnnotations ann st line feature s = .oob := by
        unfold parseAnnotations
        split
        · have ha := annotations_suf line feature s (s.length + 1) st s (List.suffix_refl s)
          revert ha
          cases annotations line feature (s.length + 1) st s with
          | oob => intro _; rfl
          | shift => intro h; exact absurd h (by simp [SufR])
          | ok a =>
            intro ha
            have hr : chNl ∉ a.2 := not_mem_suffix h ha
            obtain ⟨st2, u⟩ := a
            dsimp only [Res.bind_ok] at hr ⊢
            cases u with
            | nil => rfl
            | cons x xs => simp only [cur, Res.bind_ok, skipToEol_oob _ hr, Res.bind_oob]
        · rw [skipToEol_oob s h]; rfl
      rw [this]; rfl
    · exact parseEnd_oob st line s h

theorem parseTail_same (a1 a2 : Bool) {a b : St} (h : SameFeats a b) (line : Nat) (feature s : Bytes) :
    SameA (parseTail a1 a line feature s) (parseTail a2 b line feature s) := by
  by_cases hs : chNl ∈ s
  · obtain ⟨u, rest, rfl, hu⟩ := List.eq_append_cons_of_mem hs
    rw [parseTail_nl a1 a line feature u rest hu, parseTail_nl a2 b line feature u rest hu]
    refine ⟨?_, rfl⟩
    show feats _ = feats _
    rw [tailP_feats, tailP_feats]; exact h
  · rw [parseTail_oob a1 a line feature s hs, parseTail_oob a2 b line feature s hs]; trivial

theorem parseLine_same (cb : List Event → Bool) (hcb : ∀ tr, cb tr = cb (feats tr)) (a1 a2 : Bool) {a b : St}
    (h : SameFeats a b) (line : Nat) (s : Bytes) :
    SameA (parseLine a1 cb a line s) (parseLine a2 cb b line s) := by
  unfold parseLine
  refine SameA.pre _ fun _ => SameA.pre _ fun fe => SameA.pre _ fun u => ?_
  dsimp only
  split
  · exact parseTail_same a1 a2 h line _ _
  · refine SameA.pre _ fun r => ?_
    obtain ⟨r, s2⟩ := r
    cases r with
    | noBracket => exact SameA.pre _ fun _ => ⟨h, rfl⟩
    | inverted => exact SameA.pre _ fun _ => ⟨h, rfl⟩
    | bits mx mn =>
      refine SameA.pre _ fun t => ?_
      refine (assign_same h line mx mn t).bind fun a b x hx => ?_
      obtain ⟨w, bs, rest⟩ := x
      dsimp only
      have := reportChunks_same cb hcb line fe.1 mn w bs.length bs 0 a b hx
      revert this
      cases reportChunks cb line fe.1 mn w bs.length 0 bs a <;>
        cases reportChunks cb line fe.1 mn w bs.length 0 bs b <;> intro this <;>
        simp only [SameRes] at this
      · exact parseTail_same a1 a2 this line _ _
      all_goals trivial

theorem parseLines_same (cb : List Event → Bool) (hcb : ∀ tr, cb tr = cb (feats tr)) (a1 a2 : Bool) :
    ∀ (fuel line : Nat) (a b : St) (s : Bytes), SameFeats a b →
      SameRes (parseLines a1 cb fuel line a s) (parseLines a2 cb fuel line b s) := by
  intro fuel
  induction fuel with
  | zero =>
    intro line a b s h
    cases s with
    | nil => exact h
    | cons c cs => trivial
  | succ fuel ih =>
    intro line a b s h
    cases s with
    | nil => exact h
    | cons c cs =>
      unfold parseLines
      dsimp only
      have := parseLine_same cb hcb a1 a2 h ((line + 1) % 2 ^ 32) (c :: cs)
      revert this
      cases parseLine a1 cb a ((line + 1) % 2 ^ 32) (c :: cs) <;>
        cases parseLine a2 cb b ((line + 1) % 2 ^ 32) (c :: cs) <;> intro this
      · rename_i x y
        obtain ⟨x1, x2⟩ := x
        obtain ⟨y1, y2⟩ := y
        obtain ⟨h1, rfl⟩ := this
        exact ih _ _ _ _ h1
      all_goals first | exact this | trivial

theorem parse_same (cb : List Event → Bool) (hcb : ∀ tr, cb tr = cb (feats tr)) (a1 a2 : Bool) (content : Bytes) :
    SameRes (parse a1 cb content) (parse a2 cb content) := by
  unfold parse
  split
  · exact rfl
  · split
    · exact rfl
    · exact parseLines_same cb hcb a1 a2 _ _ _ _ _ rfl

end Verif.Fasm
