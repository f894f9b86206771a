import Verif.Proofs.FasmLine
import Verif.Spec.Fasm
/-! # The FASM parser on whole files -/
namespace Verif.Fasm
open Verif.Spec

theorem dropWhile_nil_all (p : UInt8 → Bool) : ∀ (s : Bytes), s.dropWhile p = [] → ∀ c ∈ s, p c = true := by
  intro s
  induction s with
  | nil => intro _ c hc; cases hc
  | cons x xs ih =>
    intro h c hc
    rw [List.dropWhile_cons] at h
    split at h
    · rename_i hx
      rcases List.mem_cons.1 hc with rfl | hc
      · exact hx
      · exact ih h c hc
    · cases h

theorem tickOk_of {s : Bytes} (h : NoDanglingTick s) : TickOk s := by
  intro pre blanks e hp hb
  refine hp (h pre blanks ?_ e)
  intro c hc
  have h1 := dropWhile_nil_all isBlank blanks hb c hc
  simpa [isBlank] using h1

/-- Effect of the line bodies `ls`, the first being number `line + 1`. -/
def linesP (ann : Bool) (cb : List Event → Bool) : Nat → St → List Bytes → Res St
  | _, st, [] => .ok st
  | line, st, l :: ls => (lineP ann cb st ((line + 1) % 2 ^ 32) l).bind fun st =>
      linesP ann cb ((line + 1) % 2 ^ 32) st ls

theorem unlines_cons (l : Bytes) (ls : List Bytes) : unlines (l :: ls) = l ++ chNl :: unlines ls := by
  simp [unlines]

theorem parseLines_eq (ann : Bool) (cb : List Event → Bool) (ls : List Bytes) (hl : ∀ l ∈ ls, Line l) :
    ∀ (fuel line : Nat) (st : St), (unlines ls).length ≤ fuel →
      parseLines ann cb fuel line st (unlines ls) = linesP ann cb line st ls := by
  induction ls with
  | nil => intro fuel line st _; cases fuel <;> rfl
  | cons l ls ih =>
    intro fuel line st hf
    have hl0 := hl l List.mem_cons_self
    rw [unlines_cons] at hf ⊢
    have hpos : (l ++ chNl :: unlines ls).length = l.length + 1 + (unlines ls).length := by simp; omega
    cases fuel with
    | zero => omega
    | succ fuel =>
      rw [parseLines.eq_def]
      cases hs : l ++ chNl :: unlines ls with
      | nil => simp at hs
      | cons c cs =>
        dsimp only
        rw [← hs, parseLine_nl ann cb st _ l (unlines ls) hl0.1 (tickOk_of hl0.2), linesP]
        cases lineP ann cb st ((line + 1) % 2 ^ 32) l with
        | oob => rfl
        | shift => rfl
        | ok st' =>
          simp only [Res.bind, Res.bind_ok]
          exact ih (fun x hx => hl x (List.mem_cons_of_mem _ hx)) _ _ _ (by omega)

theorem unlines_append (a b : List Bytes) : unlines (a ++ b) = unlines a ++ unlines b := by
  simp [unlines]

theorem getLast_unlines (ls : List Bytes) (h : ls ≠ []) : (unlines ls).getLast? = some chNl := by
  obtain ⟨as, l, rfl⟩ : ∃ as l, ls = as ++ [l] := ⟨ls.dropLast, ls.getLast h, (List.dropLast_concat_getLast h).symm⟩
  rw [unlines_append, unlines_cons]
  show (unlines as ++ (l ++ [chNl])).getLast? = _
  rw [← List.append_assoc, List.getLast?_append]
  simp

theorem parse_unlines (ann : Bool) (cb : List Event → Bool) (ls : List Bytes) (hl : ∀ l ∈ ls, Line l) :
    parse ann cb (unlines ls) = linesP ann cb 0 {} ls := by
  by_cases h : ls = []
  · subst h; rfl
  · unfold parse
    rw [getLast_unlines ls h]
    exact parseLines_eq ann cb ls hl _ 0 {} (Nat.le_refl _)

theorem linesP_append (ann : Bool) (cb : List Event → Bool) (b : List Bytes) : ∀ (a : List Bytes) (line : Nat) (st : St),
    line < 2 ^ 32 →
    linesP ann cb line st (a ++ b) =
      (linesP ann cb line st a).bind fun st => linesP ann cb ((line + a.length) % 2 ^ 32) st b := by
  intro a
  induction a with
  | nil => intro line st h; simp [linesP, Nat.mod_eq_of_lt h]
  | cons x xs ih =>
    intro line st h
    simp only [List.cons_append, linesP]
    cases lineP ann cb st ((line + 1) % 2 ^ 32) x with
    | oob => rfl
    | shift => rfl
    | ok st' =>
      simp only [Res.bind]
      rw [ih _ _ (Nat.mod_lt _ (by decide))]
      have : ((line + 1) % 2 ^ 32 + xs.length) % 2 ^ 32 = (line + (x :: xs).length) % 2 ^ 32 := by
        simp only [List.length_cons]; omega
      rw [this]
      rfl

/-! ## Relocating a line -/

def Res.map {α β : Type} (f : α → β) : Res α → Res β
  | .ok a => .ok (f a)
  | .oob => .oob
  | .shift => .shift

theorem max_eq (a b : Sev) : Sev.max a b = if severity a < severity b then b else a := by cases a <;> cases b <;> rfl

theorem max_assoc (a b c : Sev) : (a.max b).max c = a.max (b.max c) := by
  cases a <;> cases b <;> cases c <;> rfl

theorem combine_report (k : Nat) (a b : St) (line : Nat) (s : Sev) :
    (combine k a b).report (line + k) s = combine k a (b.report line s) := by
  simp only [combine, St.report, St.mk.injEq, List.map_append, List.append_assoc, List.map_cons, List.map_nil,
    and_true, ← max_eq]
  exact max_assoc _ _ _

theorem combine_if (k : Nat) (a b : St) (line : Nat) (s : Sev) (p : Prop) [Decidable p] :
    (if p then (combine k a b).report (line + k) s else combine k a b) =
      combine k a (if p then b.report line s else b) := by
  split
  · exact combine_report k a b line s
  · rfl

theorem combine_if' (k : Nat) (a b : St) (line : Nat) (s : Sev) (p : Prop) [Decidable p] :
    (if p then combine k a b else (combine k a b).report (line + k) s) =
      combine k a (if p then b else b.report line s) := by
  split
  · rfl
  · exact combine_report k a b line s

theorem clamp_combine (k : Nat) (a b : St) (line w : Nat) (i : Bool) :
    clampWidth (combine k a b) (line + k) w i =
      (combine k a (clampWidth b line w i).1, (clampWidth b line w i).2) := by
  unfold clampWidth
  split
  · rw [combine_report]
  · rfl

theorem valueP_combine (k : Nat) (a b : St) (line : Nat) (f : UInt8) (s : Bytes) :
    valueP (combine k a b) (line + k) f s =
      (combine k a (valueP b line f s).1, (valueP b line f s).2) := by
  unfold valueP
  split
  · rfl
  · split
    · rfl
    · split
      · rfl
      · split
        · rfl
        · rw [combine_report]

theorem tickedP_combine (k : Nat) (a b : St) (line w d : Nat) (s : Bytes) :
    tickedP (combine k a b) (line + k) w d s =
      (combine k a (tickedP b line w d s).1, (tickedP b line w d s).2) := by
  unfold tickedP
  simp only [combine_if, clamp_combine, valueP_combine]

theorem assignP_combine (k : Nat) (a b : St) (line mx mn : Nat) (s : Bytes) :
    assignP (combine k a b) (line + k) mx mn s =
      (combine k a (assignP b line mx mn s).1, (assignP b line mx mn s).2) := by
  unfold assignP
  simp only [tickedP_combine, clamp_combine, combine_if]
  split
  · split <;> rfl
  · rfl

theorem reportChunks_combine (cb : List Event → Bool) (k : Nat) (a : St) (line : Nat) (name : Bytes) (mn w total : Nat) :
    ∀ (vs : List Nat) (chunk : Nat) (b : St),
    reportChunks cb (line + k) name mn w total chunk vs (combine k a b) =
      (reportChunks (fun tr => cb (a.trace ++ tr.map (renumber k))) line name mn w total chunk vs b).map
        (combine k a) := by
  intro vs
  induction vs with
  | nil => intro chunk b; rfl
  | cons v vs ih =>
    intro chunk b
    unfold reportChunks
    dsimp only
    split
    · rfl
    · have e : ∀ ev : Event, (combine k a b).trace ++ [renumber k ev] = a.trace ++ (b.trace ++ [ev]).map (renumber k) := by
        intro ev; simp [combine]
      have e' := e (.feature line name (toInt32 (mn + chunk * 64)) (toInt32 (valueWidth w total chunk))
        (v &&& (2 ^ 64 - 1) >>> (64#32 - BitVec.ofNat 32 (valueWidth w total chunk)).toNat))
      simp only [renumber] at e'
      rw [e']
      split
      · rw [← ih]; rfl
      · simp only [Res.map, combine, ← max_eq, max_assoc]

theorem annP_combine (k : Nat) (a : St) (line : Nat) (feature : Bytes) : ∀ (n : Nat) (b : St) (s : Bytes),
    annP (line + k) feature n (combine k a b) s =
      (combine k a (annP line feature n b s).1, (annP line feature n b s).2) := by
  intro n
  induction n with
  | zero => intro b s; rfl
  | succ n ih =>
    intro b s
    unfold annP
    dsimp only
    split
    · rw [combine_report]
    · split
      · rw [combine_report]
      · split
        · rw [combine_report]
        · rename_i q _
          have e : ∀ an v, ({ combine k a b with trace := (combine k a b).trace ++ [.annotation (line + k) feature an v] } : St) =
              combine k a { b with trace := b.trace ++ [.annotation line feature an v] } := by
            intro an v; simp [combine, renumber]
          rw [e]
          split
          · exact ih _ _
          · rfl

theorem tailP_combine (ann : Bool) (k : Nat) (a b : St) (line : Nat) (feature s : Bytes) :
    tailP ann (combine k a b) (line + k) feature s = combine k a (tailP ann b line feature s) := by
  unfold tailP annsP endP
  simp only [annP_combine, combine_if]
  split
  · split <;> rfl
  · split <;> rfl

theorem lineP_combine (ann : Bool) (cb : List Event → Bool) (k : Nat) (a b : St) (line : Nat) (s : Bytes) :
    lineP ann cb (combine k a b) (line + k) s =
      (lineP ann (fun tr => cb (a.trace ++ tr.map (renumber k))) b line s).map (combine k a) := by
  unfold lineP
  dsimp only
  split
  · rw [tailP_combine]; rfl
  · split
    · rw [combine_report]; rfl
    · rw [combine_report]; rfl
    · simp only [assignP_combine, reportChunks_combine]
      generalize reportChunks _ line _ _ _ _ _ _ _ = r
      cases r with
      | oob => rfl
      | shift => rfl
      | ok st => simp only [Res.map, Res.bind, tailP_combine]

theorem combine_empty (k : Nat) (a : St) : combine k a {} = a := by
  simp only [combine, List.map_nil, List.append_nil]
  cases a with
  | mk r t d => cases r <;> rfl

/-- Appending one line. -/
theorem parse_snoc (ann : Bool) (cb : List Event → Bool) (ls : List Bytes) (l : Bytes)
    (hls : ∀ x ∈ ls, Line x) (hl : Line l) (hn : ls.length + 1 < 2 ^ 32) :
    parse ann cb (unlines (ls ++ [l])) =
      (parse ann cb (unlines ls)).bind fun st =>
        (parse ann (fun tr => cb (st.trace ++ tr.map (renumber ls.length))) (unlines [l])).bind fun st1 =>
          .ok (combine ls.length st st1) := by
  have h1 : ∀ x ∈ ls ++ [l], Line x := by
    intro x hx
    rcases List.mem_append.1 hx with h | h
    · exact hls x h
    · rw [List.mem_singleton.1 h]; exact hl
  rw [parse_unlines ann cb _ h1, parse_unlines ann cb _ hls, linesP_append _ _ _ _ _ _ (by decide)]
  congr 1
  funext st
  rw [parse_unlines ann _ [l] (by intro x hx; rw [List.mem_singleton.1 hx]; exact hl)]
  simp only [linesP, Nat.zero_add]
  have e1 : (ls.length % 2 ^ 32 + 1) % 2 ^ 32 = 1 + ls.length := by omega
  have e2 : 1 % 2 ^ 32 = 1 := by decide
  rw [e1, e2]
  have := lineP_combine ann cb ls.length st {} 1 l
  rw [combine_empty] at this
  rw [this]
  generalize lineP ann _ _ 1 l = r
  cases r <;> rfl

end Verif.Fasm
