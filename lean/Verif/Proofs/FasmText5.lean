import Verif.Proofs.FasmText4
/-! # Every message belongs to a diagnostic -/
namespace Verif.Fasm
open Verif.Spec

/-- As many messages as diagnostics, and each belongs to its diagnostic. -/
def Good (o : Log) : Prop :=
  o.out.length = o.st.diags.length ∧ ∀ d t, (d, t) ∈ o.st.diags.zip o.out → Belongs d.1 d.2 t

theorem Good.empty : Good {} := ⟨rfl, fun _ _ h => by cases h⟩

theorem Good.print {o : Log} (h : Good o) {line : Nat} {sev : Sev} {t : Bytes} (hb : Belongs line sev t) : Good (o.print line sev t) := by
  refine ⟨by simp [Log.print, St.report, h.1], fun d u hu => ?_⟩
  have : (o.st.diags ++ [(line, sev)]).zip (o.out ++ [t]) = o.st.diags.zip o.out ++ [((line, sev), t)] := by
    rw [List.zip_append h.1.symm]; rfl
  rw [show (o.print line sev t).st.diags.zip (o.print line sev t).out = _ from this, List.mem_append, List.mem_singleton] at hu
  rcases hu with hu | hu
  · exact h.2 d u hu
  · cases hu; exact hb

theorem Good.st {o : Log} (h : Good o) (st : St) (hd : st.diags = o.st.diags) : Good { o with st := st } := by
  unfold Good
  dsimp only
  rw [hd]
  exact h

theorem Good.ite {o o' : Log} {p : Prop} [Decidable p] (h : Good o) (h' : Good o') : Good (if p then o' else o) := by
  split
  · exact h'
  · exact h

/-! ## Messages -/

theorem belongs_of {line : Nat} (h0 : line ≠ 0) {sev : Sev} {t : Bytes} (body : Bytes) (h : t = about line body)
    (h1 : sev = .skipped → ascii "SKIP " <+: body) (h2 : sev = .info → ascii "INFO " <+: body)
    (h3 : sev = .nonCritical → ascii "WARN " <+: body) : Belongs line sev t := by
  unfold Belongs
  rw [if_neg h0]
  exact ⟨body, h, h1, h2, h3⟩

theorem belongs_error {line : Nat} (h0 : line ≠ 0) {t : Bytes} (h : ∃ body, t = about line body) : Belongs line .error t := by
  obtain ⟨body, h⟩ := h
  exact belongs_of h0 body h (by rintro ⟨⟩) (by rintro ⟨⟩) (by rintro ⟨⟩)

/-- The number in front, the newline behind. -/
theorem about_of (p : Bytes) (line : Nat) (hp : p = dec line) (a b : String) (m : Bytes) :
    p ++ (ascii (": " ++ a) ++ (m ++ ascii (b ++ "\n"))) = about line (ascii a ++ (m ++ ascii b)) := by
  unfold about
  rw [← ascii_append, ← ascii_append, hp]
  simp only [List.append_assoc]

theorem tag_bracket {line : Nat} (h0 : line ≠ 0) (shown : Bytes) : Belongs line .error (msgBracket line shown) :=
  belongs_error h0 ⟨_, msgBracket_eq line shown⟩

theorem tag_inverted {line : Nat} (h0 : line ≠ 0) (name : Bytes) (mx mn : Nat) : Belongs line .skipped (msgInverted line name mx mn) := by
  refine belongs_of h0 (ascii "SKIP inverted range " ++ (printRange name mx mn ++ ascii "")) ?_ ?_ (by rintro ⟨⟩) (by rintro ⟨⟩)
  · unfold msgInverted
    rw [List.append_assoc, List.append_assoc]
    exact about_of _ line (dec_eq line) "SKIP inverted range " "" _
  · intro _
    exact ⟨ascii "inverted range " ++ (printRange name mx mn ++ ascii ""), by rw [← List.append_assoc, ascii_append]; rfl⟩

theorem tag_noAssignment {line : Nat} (h0 : line ≠ 0) (name : Bytes) (mx mn : Nat) :
    Belongs line .info (msgNoAssignment line name mx mn) := by
  refine belongs_of h0 (ascii "INFO Range of bits " ++ (printRange name mx mn ++ ascii ", but no assignment")) ?_ (by rintro ⟨⟩) ?_
    (by rintro ⟨⟩)
  · unfold msgNoAssignment
    rw [List.append_assoc, List.append_assoc]
    exact about_of _ line (dec_eq line) "INFO Range of bits " ", but no assignment" _
  · intro _
    exact ⟨ascii "Range of bits " ++ (printRange name mx mn ++ ascii ", but no assignment"),
      by rw [← List.append_assoc, ascii_append]; rfl⟩

theorem tag_moreBits {line : Nat} (h0 : line ≠ 0) (d : Nat) (name : Bytes) (mx mn w : Nat) :
    Belongs line .nonCritical (msgMoreBits line d name mx mn w) := by
  refine belongs_of h0 (ascii "WARN Attempt to assign more bits (" ++ ((printU d ++ lit "') for " ++ printRange name mx mn ++
    lit " with supported bit width of " ++ printU w) ++ ascii "")) ?_ (by rintro ⟨⟩) (by rintro ⟨⟩) ?_
  · unfold msgMoreBits
    simp only [List.append_assoc]
    have := about_of _ line (dec_eq line) "WARN Attempt to assign more bits (" "" (printU d ++ lit "') for " ++ printRange name mx mn ++
      lit " with supported bit width of " ++ printU w)
    simp only [List.append_assoc] at this
    exact this
  · intro _
    exact ⟨ascii "Attempt to assign more bits (" ++ _, by rw [← List.append_assoc, ascii_append]; rfl⟩

theorem tag_tooWide {line : Nat} (h0 : line ≠ 0) (name : Bytes) (mx mn w : Nat) : Belongs line .error (msgTooWide line name mx mn w) := by
  refine belongs_error h0 ⟨ascii "ERR: Sorry, can only deal with ranges <= 64 bit currently for integers " ++
    ((printRange name mx mn ++ lit "; trimming width " ++ printU w) ++ ascii " to 64"), ?_⟩
  unfold msgTooWide
  simp only [List.append_assoc]
  have := about_of _ line (dec_eq line) "ERR: Sorry, can only deal with ranges <= 64 bit currently for integers " " to 64"
    (printRange name mx mn ++ lit "; trimming width " ++ printU w)
  simp only [List.append_assoc] at this
  exact this

theorem tag_base {line : Nat} (h0 : line ≠ 0) (c : UInt8) : Belongs line .error (msgBase line c) :=
  belongs_error h0 ⟨_, msgBase_eq line c⟩

theorem tag_annotationEq {line : Nat} (h0 : line ≠ 0) (hl : line < 2 ^ 31) (name : Bytes) :
    Belongs line .error (msgAnnotationEq line name) := by
  refine belongs_error h0 ⟨ascii "annotation " ++ (printS name ++ ascii ": expected '='"), ?_⟩
  unfold msgAnnotationEq
  rw [List.append_assoc, List.append_assoc]
  exact about_of _ line (printD_small line hl) "annotation " ": expected '='" _

theorem tag_notQuoted {line : Nat} (h0 : line ≠ 0) (hl : line < 2 ^ 31) (feature name : Bytes) :
    Belongs line .error (msgNotQuoted line feature name) := by
  refine belongs_error h0 ⟨printS feature ++ (lit " : annotation '" ++ (printS name ++ lit "': value not quoted")), ?_⟩
  unfold msgNotQuoted about
  rw [printD_small line hl]
  simp only [List.append_assoc]
  rfl

theorem tag_unfinished {line : Nat} (h0 : line ≠ 0) (hl : line < 2 ^ 31) : Belongs line .error (msgUnfinished line) :=
  belongs_error h0 ⟨_, msgUnfinished_eq line hl⟩

theorem tag_brace {line : Nat} (h0 : line ≠ 0) (hl : line < 2 ^ 31) (c : UInt8) : Belongs line .error (msgBrace line c) :=
  belongs_error h0 ⟨_, msgBrace_eq line hl c⟩

theorem tag_newline {line : Nat} (h0 : line ≠ 0) (hl : line < 2 ^ 31) (c : UInt8) : Belongs line .error (msgNewline line c) :=
  belongs_error h0 ⟨_, msgNewline_eq line hl c⟩

/-! ## The parser -/

/-- Every outcome is good. -/
def Keeps {γ : Type} (r : Res (Log × γ)) : Prop := ∀ o x, r = .ok (o, x) → Good o

theorem Keeps.ok {γ : Type} {o : Log} {x : γ} (h : Good o) : Keeps (.ok (o, x)) := by
  intro o' x' e; cases e; exact h

theorem Keeps.bind {γ δ : Type} {r : Res (Log × γ)} {f : Log × γ → Res (Log × δ)} (h : Keeps r)
    (hf : ∀ o x, Good o → Keeps (f (o, x))) : Keeps (r >>= f) := by
  match r, h with
  | .ok (a, x), h => exact hf a x (h a x rfl)
  | .oob, _ => intro o x e; cases e
  | .shift, _ => intro o x e; cases e

theorem Keeps.pre {α δ : Type} (r : Res α) {f : α → Res (Log × δ)} (hf : ∀ x, r = .ok x → Keeps (f x)) : Keeps (r >>= f) := by
  cases r with
  | ok a => exact hf a rfl
  | oob => intro o x e; cases e
  | shift => intro o x e; cases e

theorem reportChunks_diags {cb : List Event → Bool} {line : Nat} {name : Bytes} {mn w total : Nat} : ∀ {vs : List Nat} {k : Nat}
    {st st' : St}, reportChunks cb line name mn w total k vs st = .ok st' → st'.diags = st.diags := by
  intro vs
  induction vs with
  | nil => intro k st st' h; cases h; rfl
  | cons v vs ih =>
    intro k st st' h
    rw [reportChunks] at h
    dsimp only at h
    split at h
    · cases h
    · split at h
      · exact (ih h).trans rfl
      · cases h; rfl

section
variable {line : Nat} (h0 : line ≠ 0) (hl : line < 2 ^ 31)

include h0 in
theorem clamp_good {o : Log} (h : Good o) (name : Bytes) (mx mn w : Nat) (i : Bool) : Good (clampWidthM o line name mx mn w i).1 := by
  unfold clampWidthM
  split
  · exact h.print (tag_tooWide h0 name mx mn w)
  · exact h

include h0 in
theorem value_good {o : Log} (h : Good o) (f : UInt8) (s : Bytes) : Keeps (parseValueM o line f s) := by
  unfold parseValueM
  split
  · exact Keeps.pre _ fun _ _ => Keeps.ok h
  · split
    · exact Keeps.pre _ fun _ _ => Keeps.ok h
    · split
      · exact Keeps.pre _ fun _ _ => Keeps.ok h
      · split
        · exact Keeps.pre _ fun _ _ => Keeps.ok h
        · exact Keeps.pre _ fun _ _ => Keeps.ok (h.print (tag_base h0 f))

include h0 in
theorem ticked_good {o : Log} (h : Good o) (name : Bytes) (mx mn w d : Nat) (s : Bytes) :
    Keeps (parseTickedM o line name mx mn w d s) := by
  unfold parseTickedM
  refine Keeps.pre _ fun t _ => Keeps.pre _ fun f _ => ?_
  dsimp only
  refine (value_good h0 (clamp_good h0 (h.ite (h.print (tag_moreBits h0 d name mx mn w))) name mx mn w _) f (adv t)).bind fun o x ho => ?_
  exact Keeps.pre _ fun _ _ => Keeps.ok ho

include h0 in
theorem assign_good {o : Log} (h : Good o) (name : Bytes) (mx mn : Nat) (s : Bytes) : Keeps (parseAssignM o line name mx mn s) := by
  unfold parseAssignM
  refine Keeps.pre _ fun c _ => ?_
  split
  · refine Keeps.pre _ fun t _ => Keeps.pre _ fun v _ => Keeps.pre _ fun u _ => Keeps.pre _ fun c _ => ?_
    split
    · exact ticked_good h0 h name _ _ _ _ _
    · exact Keeps.ok (clamp_good h0 h name mx mn (mx - mn + 1) true)
  · exact Keeps.ok (h.ite (h.print (tag_noAssignment h0 name mx mn)))

include h0 hl in
theorem annotations_good (feature : Bytes) : ∀ (fuel : Nat) (o : Log) (s : Bytes), Good o → Keeps (annotationsM line feature fuel o s) := by
  intro fuel
  induction fuel with
  | zero => intro o s _ o' x e; cases e
  | succ fuel ih =>
    intro o s h
    unfold annotationsM
    refine Keeps.pre _ fun t _ => Keeps.pre _ fun v _ => Keeps.pre _ fun u _ => Keeps.pre _ fun c _ => ?_
    split
    · exact Keeps.ok (h.print (tag_annotationEq h0 hl v.1))
    · refine Keeps.pre _ fun t _ => Keeps.pre _ fun c _ => ?_
      split
      · exact Keeps.ok (h.print (tag_notQuoted h0 hl feature v.1))
      · refine Keeps.pre _ fun q _ => Keeps.pre _ fun c _ => ?_
        split
        · exact Keeps.ok (h.print (tag_unfinished h0 hl))
        · refine Keeps.pre _ fun t _ => Keeps.pre _ fun c _ => ?_
          split
          · exact ih _ _ (h.st _ rfl)
          · exact Keeps.ok (h.st _ rfl)

include h0 hl in
theorem anns_good (ann : Bool) {o : Log} (h : Good o) (feature s : Bytes) : Keeps (parseAnnotationsM ann o line feature s) := by
  unfold parseAnnotationsM
  split
  · refine (annotations_good h0 hl feature _ o s h).bind fun o x ho => Keeps.pre _ fun c _ => ?_
    exact Keeps.pre _ fun t _ => Keeps.ok (ho.ite (ho.print (tag_brace h0 hl c)))
  · exact Keeps.pre _ fun t _ => Keeps.ok h

include h0 hl in
theorem end_good {o : Log} (h : Good o) (s : Bytes) : Keeps (parseEndM o line s) := by
  unfold parseEndM
  refine Keeps.pre _ fun c _ => ?_
  split
  · exact Keeps.pre _ fun t _ => Keeps.ok h
  · split
    · exact Keeps.pre _ fun t _ => Keeps.ok (h.print (tag_newline h0 hl c))
    · exact Keeps.ok h

include h0 hl in
theorem tail_good (ann : Bool) {o : Log} (h : Good o) (feature s : Bytes) : Keeps (parseTailM ann o line feature s) := by
  unfold parseTailM
  refine Keeps.pre _ fun c _ => ?_
  split
  · exact (anns_good h0 hl ann h feature s).bind fun o x ho => end_good h0 hl ho x
  · exact end_good h0 hl h s

include h0 hl in
theorem line_good (ann : Bool) (cb : List Event → Bool) {o : Log} (h : Good o) (s : Bytes) : Keeps (parseLineM ann cb o line s) := by
  unfold parseLineM
  refine Keeps.pre _ fun start _ => Keeps.pre _ fun v _ => Keeps.pre _ fun u _ => ?_
  split
  · exact tail_good h0 hl ann h _ _
  · refine Keeps.pre _ fun r _ => ?_
    dsimp only
    split
    · exact Keeps.pre _ fun t _ => Keeps.ok (h.print (tag_bracket h0 _))
    · exact Keeps.pre _ fun t _ => Keeps.ok (h.print (tag_inverted h0 _ _ _))
    · refine Keeps.pre _ fun t _ => (assign_good h0 h _ _ _ _).bind fun o x ho => Keeps.pre _ fun st hst => ?_
      exact tail_good h0 hl ann (ho.st st (reportChunks_diags hst)) _ _

end

theorem lines_good (ann : Bool) (cb : List Event → Bool) : ∀ (fuel line : Nat) (o : Log) (s : Bytes), line + fuel < 2 ^ 31 → Good o →
    ∀ o', parseLinesM ann cb fuel line o s = .ok o' → Good o' := by
  intro fuel
  induction fuel with
  | zero =>
    intro line o s _ h o' e
    cases s with
    | nil => cases e; exact h
    | cons c cs => cases e
  | succ fuel ih =>
    intro line o s hlt h o' e
    cases s with
    | nil => cases e; exact h
    | cons c cs =>
      have hline : (line + 1) % 2 ^ 32 = line + 1 := Nat.mod_eq_of_lt (by omega)
      rw [parseLinesM.eq_def] at e
      dsimp only at e
      rw [hline] at e
      have hk := line_good (line := line + 1) (by omega) (by omega) ann cb h (c :: cs)
      revert e hk
      cases parseLineM ann cb o (line + 1) (c :: cs) with
      | oob => intro e; cases e
      | shift => intro e; cases e
      | ok x => intro e hk; exact ih _ _ _ (by omega) (hk x.1 x.2 rfl) _ e

theorem parse_good (ann : Bool) (cb : List Event → Bool) (content : Bytes) (hlen : content.length < 2 ^ 31) (o : Log)
    (h : parseM ann cb content = .ok o) : Good o := by
  unfold parseM at h
  revert h
  cases content.getLast? with
  | none => intro h; cases h; exact Good.empty
  | some c =>
    dsimp only
    split
    · intro h
      cases h
      exact Good.empty.print (by unfold Belongs; rw [if_pos rfl]; rfl)
    · intro h
      exact lines_good ann cb _ _ _ _ (by omega) Good.empty _ h

end Verif.Fasm
