import Verif.Proofs.DbText
import Verif.Proofs.DbCsv
import Verif.Proofs.AssembleTrail
import Verif.Proofs.JsonCrlf
/-! # Database files with carriage returns in front of the newlines -/
namespace Verif.Db
open Verif.Text Verif.Spec

/-! ## Splitting -/

theorem splitBy_snoc (p : UInt8 → Bool) (c : UInt8) (hc : p c = false) : ∀ l : Bytes, ∃ init last, splitBy p l = init ++ [last] ∧
    splitBy p (l ++ [c]) = init ++ [last ++ [c]] ∧ (last = [] ↔ l = [] ∨ ∃ x, l.getLast? = some x ∧ p x = true) := by
  intro l
  induction l with
  | nil => exact ⟨[], [], rfl, by simp [splitBy, hc], by simp⟩
  | cons x l ih =>
    obtain ⟨init, last, h1, h2, h3⟩ := ih
    by_cases hx : p x = true
    · refine ⟨[] :: init, last, by rw [splitBy_sep hx, h1]; rfl, by rw [List.cons_append, splitBy_sep hx, h2]; rfl, ?_⟩
      rw [h3]
      cases l with
      | nil => simp [hx]
      | cons y l => simp [List.getLast?_cons_cons]
    · have hx' : p x = false := by simpa using hx
      cases init with
      | nil =>
        refine ⟨[], x :: last, ?_, ?_, ?_⟩
        · rw [splitBy, if_neg hx, h1]; rfl
        · rw [List.cons_append, splitBy, if_neg hx, h2]; rfl
        · constructor
          · intro h; cases h
          · rintro (h | ⟨y, h, hy⟩)
            · cases h
            · exfalso
              cases l with
              | nil => cases h; exact hx hy
              | cons z l =>
                rw [List.getLast?_cons_cons] at h
                have h4 := h3.2 (Or.inr ⟨y, h, hy⟩)
                subst h4
                have : splitBy p (z :: l) = [[]] := h1
                unfold splitBy at this
                split at this
                · exact splitBy_ne_nil p l (by simpa using this)
                · split at this <;> simp at this
      | cons i init =>
        refine ⟨(x :: i) :: init, last, ?_, ?_, ?_⟩
        · rw [splitBy, if_neg hx, h1]; rfl
        · rw [List.cons_append, splitBy, if_neg hx, h2]; rfl
        · rw [h3]
          cases l with
          | nil => exact absurd h1 (by simp [splitBy])
          | cons z l => simp [List.getLast?_cons_cons]

theorem splitBy_snoc_sep (p : UInt8 → Bool) (c : UInt8) (hc : p c = true) : ∀ l : Bytes, splitBy p (l ++ [c]) = splitBy p l ++ [[]] := by
  intro l
  induction l with
  | nil => simp [splitBy, hc]
  | cons x l ih =>
    rw [List.cons_append, splitBy, splitBy, ih]
    split
    · rfl
    · cases h : splitBy p l with
      | nil => exact absurd h (splitBy_ne_nil p l)
      | cons a t => rfl

theorem fields_cr (l : Bytes) : fields (l ++ [0x0d]) = fields l := by
  unfold fields skipEmpty
  rw [splitBy_snoc_sep isSpace 0x0d (by decide), List.filter_append]
  simp

theorem strip_cr (s : Bytes) : strip (s ++ [0x0d]) = strip s := by
  obtain ⟨w, w', h, hw, hw', h1, h2⟩ := strip_spec s
  refine strip_padded ⟨w, w' ++ [0x0d], ?_, hw, ?_, h1, h2⟩
  · rw [← List.append_assoc, ← h]
  · rw [white_append]
    exact ⟨hw', by intro c hc; rw [List.mem_singleton.1 hc]; simp⟩

/-! ## Lines -/

/-- What is done with the text behind the last newline. -/
def lastStep {σ : Type} (after : Option UInt8) (sink : σ → Nat → Bytes → Outcome σ) (n : Nat) (last : Bytes) (st : σ) : Outcome σ :=
  if last = [] then .ok st else match after with
    | none => .ub
    | some _ => sink st ((n + 1) % 2 ^ 32) last

theorem linesGenerator_parts {σ : Type} (after : Option UInt8) (sink : σ → Nat → Bytes → Outcome σ) (ls : List Bytes) (last : Bytes)
    (hl : ∀ l ∈ ls, (0x0a : UInt8) ∉ l) (hlast : (0x0a : UInt8) ∉ last) (st : σ) :
    linesGenerator after (unlines ls ++ last) sink st = (feed sink 0 ls st >>= lastStep after sink ls.length last) := by
  unfold linesGenerator
  obtain ⟨f', hf', h⟩ := linesLoop_unlines after sink ls last hl (unlines ls ++ last).length 0 st (Nat.le_refl _)
  rw [show (0 : Nat) = 0 % 2 ^ 32 from rfl, h]
  show (feed sink 0 ls st >>= _) = _
  congr 1
  funext s
  unfold lastStep
  cases hc : last with
  | nil => cases f' <;> rfl
  | cons c r =>
    rw [hc] at hf'
    rw [if_neg (by simp)]
    cases f' with
    | zero => simp at hf'
    | succ f' =>
      have hm : ((0 + ls.length) % 2 ^ 32 + 1) % 2 ^ 32 = (ls.length + 1) % 2 ^ 32 := by omega
      cases after with
      | none =>
        rw [linesLoop]
        simp only [skipToEol_overread (c :: r) (by rw [← hc]; exact hlast)]
        rfl
      | some b =>
        have hsk := skipToEol_last b (c :: r) (by rw [← hc]; exact hlast)
        rw [linesLoop]
        simp only [hsk, Outcome.bind_ok, List.tail_nil, hm]
        have : ∀ f n (s : σ), linesLoop (some b) sink f [] n s = .ok s := by
          intro f n s; cases f <;> rfl
        simp only [this]
        cases sink s ((ls.length + 1) % 2 ^ 32) (c :: r) <;> rfl

theorem feed_same {σ : Type} (sink : σ → Nat → Bytes → Outcome σ) (ls : List Bytes)
    (h : ∀ l ∈ ls, ∀ st n, sink st n (l ++ [0x0d]) = sink st n l) : ∀ n st, feed sink n (ls.map (· ++ [0x0d])) st = feed sink n ls st := by
  induction ls with
  | nil => intro n st; rfl
  | cons l ls ih =>
    intro n st
    simp only [List.map_cons, feed, h l List.mem_cons_self]
    congr 1
    funext st'
    exact ih (fun x hx => h x (List.mem_cons_of_mem _ hx)) (n + 1) st'

/-- Lines that change the reading, and the text was read without the carriage returns. -/
theorem feed_bad {σ : Type} (sink : σ → Nat → Bytes → Outcome σ) (good : Bytes → Prop)
    (hgood : ∀ l, good l → ∀ st n, sink st n (l ++ [0x0d]) = sink st n l)
    (hbad : ∀ l, ¬ good l → ∀ st n st', sink st n l = .ok st' → sink st n (l ++ [0x0d]) = .err) (ls : List Bytes) :
    (∃ l ∈ ls, ¬ good l) → ∀ n st st', feed sink n ls st = .ok st' → feed sink n (ls.map (· ++ [0x0d])) st = .err := by
  induction ls with
  | nil => rintro ⟨l, h, _⟩; cases h
  | cons l ls ih =>
    rintro ⟨x, hx, hxg⟩ n st st' h
    simp only [feed, Outcome.bind_eq_ok] at h
    obtain ⟨s1, h1, h2⟩ := h
    simp only [List.map_cons, feed]
    by_cases hl : good l
    · rw [hgood l hl, h1, Outcome.bind_ok]
      refine ih ⟨x, ?_, hxg⟩ (n + 1) s1 st' h2
      rcases List.mem_cons.1 hx with rfl | hx
      · exact absurd hl hxg
      · exact hx
    · rw [hbad l hl st _ s1 h1]; rfl

theorem feed_never {σ : Type} (sink : σ → Nat → Bytes → Outcome σ) (ls : List Bytes) (x : Bytes) (hx : x ∈ ls)
    (h : ∀ st n, sink st n (x ++ [0x0d]) = .err) : ∀ n st st', feed sink n (ls.map (· ++ [0x0d])) st ≠ .ok st' := by
  induction ls with
  | nil => cases hx
  | cons l ls ih =>
    intro n st st' hf
    simp only [List.map_cons, feed, Outcome.bind_eq_ok] at hf
    obtain ⟨s1, h1, h2⟩ := hf
    rcases List.mem_cons.1 hx with rfl | hx
    · rw [h] at h1; cases h1
    · exact ih hx _ _ _ h2

theorem map_cr (ls : List Bytes) : ((ls.map fun l => (l, ([0x0d] : Bytes))).map fun x => x.1 ++ x.2) = ls.map (· ++ [0x0d]) := by
  rw [List.map_map]; rfl

theorem cr_lines {ls : List Bytes} (h : ∀ l ∈ ls, (0x0a : UInt8) ∉ l) : ∀ l ∈ ls.map (· ++ [0x0d]), (0x0a : UInt8) ∉ l := by
  intro l hl
  obtain ⟨x, hx, rfl⟩ := List.mem_map.1 hl
  intro hm
  rcases List.mem_append.1 hm with hm | hm
  · exact h x hx hm
  · exact absurd (List.mem_singleton.1 hm) (by decide)

/-- The two texts, line by line. -/
theorem generator_crlf {σ : Type} (after : Option UInt8) (sink : σ → Nat → Bytes → Outcome σ) (ls : List Bytes) (last : Bytes)
    (hl : ∀ l ∈ ls, (0x0a : UInt8) ∉ l) (hlast : (0x0a : UInt8) ∉ last) (st : σ) :
    linesGenerator after (crlf (unlines ls ++ last)) sink st =
      (feed sink 0 (ls.map (· ++ [0x0d])) st >>= lastStep after sink ls.length last) := by
  rw [Asm.crlf_lines ls last hl hlast, map_cr, linesGenerator_parts after sink _ last (cr_lines hl) hlast, List.length_map]

theorem crlf_nil_iff (s : Bytes) : crlf s = [] ↔ s = [] := by
  cases s with
  | nil => exact ⟨id, id⟩
  | cons c r =>
    constructor
    · intro h
      by_cases hc : c = 0x0a
      · subst hc; cases h
      · rw [JsonText.crlf_cons hc] at h; cases h
    · intro h; cases h

/-! ## The three kinds of lines -/

theorem segbitsLine_cr (junk : Bytes → Nat) (out : SegmentsBits) (n : Nat) (l : Bytes) :
    segbitsLine junk out n (l ++ [0x0d]) = segbitsLine junk out n l := by
  unfold segbitsLine
  rw [fields_cr]

theorem ppipLine_cr (out : PseudoPIPs) (n : Nat) (l : Bytes) (h : l ≠ []) : ppipLine out n (l ++ [0x0d]) = ppipLine out n l := by
  unfold ppipLine
  rw [fields_cr, if_neg (by simp), if_neg h]

theorem ppipLine_blank (out : PseudoPIPs) (n : Nat) : ppipLine out n ([] ++ [0x0d]) = .err := by
  unfold ppipLine
  rw [fields_cr, if_neg (by simp)]
  rfl

/-- The segments of a line of the pin file. -/
def segments (l : Bytes) : List Bytes := (skipEmpty (splitBy (fun c => decide (c = (0x2c : UInt8))) l)).map strip

theorem segments_cr (l : Bytes) :
    (l ≠ [] ∧ l.getLast? ≠ some 0x2c → segments (l ++ [0x0d]) = segments l) ∧
    (¬ (l ≠ [] ∧ l.getLast? ≠ some 0x2c) → segments (l ++ [0x0d]) = segments l ++ [[]]) := by
  obtain ⟨init, last, h1, h2, h3⟩ := splitBy_snoc (fun c => decide (c = (0x2c : UInt8))) 0x0d (by decide) l
  have h3 : last = [] ↔ ¬ (l ≠ [] ∧ l.getLast? ≠ some 0x2c) := by
    rw [h3]
    constructor
    · rintro (h | ⟨x, hx, hp⟩) ⟨ha, hb⟩
      · exact ha h
      · have : x = 0x2c := by simpa using hp
        rw [this] at hx; exact hb hx
    · intro h
      by_cases hl : l = []
      · exact Or.inl hl
      · right
        refine ⟨0x2c, ?_, by simp⟩
        by_cases hx : l.getLast? = some 0x2c
        · exact hx
        · exact absurd ⟨hl, hx⟩ h
  unfold segments skipEmpty
  rw [h1, h2, List.filter_append, List.filter_append]
  have e : [last ++ [0x0d]].filter (fun s => !s.isEmpty) = [last ++ [0x0d]] := by simp
  rw [e]
  constructor
  · intro h
    have hne : last ≠ [] := fun h' => h3.1 h' h
    have e2 : [last].filter (fun s => !s.isEmpty) = [last] := by simp [hne]
    rw [e2]
    simp [strip_cr]
  · intro h
    have := h3.2 h
    subst this
    simp only [List.nil_append, List.filter_cons, List.isEmpty_nil, Bool.not_true, Bool.false_eq_true, if_false, List.filter_nil,
      List.append_nil, List.map_append, List.map_cons, List.map_nil]
    congr 1

theorem csvLine_segments (out : PackagePins) (n : Nat) (l : Bytes) : csvLine out n l =
    if n = 1 then (if segments l = csvHeader then .ok out else .err)
    else match segments l with
      | [] => .ok out
      | [s0, s1, s2, s3, s4] =>
        match atoiU32 s1 with
        | none => .err
        | some bank => .ok (out ++ [{ pin := s0, bank := bank, site := s2, tile := s3, pinFunction := s4 }])
      | _ => .err := rfl

theorem csvLine_cr (l : Bytes) (h : l ≠ [] ∧ l.getLast? ≠ some 0x2c) (out : PackagePins) (n : Nat) :
    csvLine out n (l ++ [0x0d]) = csvLine out n l := by
  rw [csvLine_segments, csvLine_segments, (segments_cr l).1 h]

theorem csvLine_open (l : Bytes) (h : ¬ (l ≠ [] ∧ l.getLast? ≠ some 0x2c)) (out : PackagePins) (n : Nat) (out' : PackagePins)
    (hok : csvLine out n l = .ok out') : csvLine out n (l ++ [0x0d]) = .err := by
  rw [csvLine_segments] at hok
  rw [csvLine_segments, (segments_cr l).2 h]
  split
  · rw [if_neg]
    intro h'
    have := congrArg List.getLast? h'
    rw [List.getLast?_concat] at this
    exact absurd this (by decide)
  · rename_i hn
    rw [if_neg hn] at hok
    split at hok
    · rename_i e; rw [e]; rfl
    · rename_i e; rw [e]; rfl
    · cases hok

theorem yamlLine_cr {σ : Type} (sink : σ → Bytes → List (Bytes × Bytes) → Outcome σ) (st : YamlSt σ) (l : Bytes) :
    yamlLine sink st (l ++ [0x0d]) = yamlLine sink st l := by
  unfold yamlLine
  dsimp only
  rw [strip_cr]
  by_cases h : strip l = [] ∨ (strip l).head? = some 0x23
  · rw [if_pos h, if_pos h]
  · have hne : stripLeading l ≠ [] := by
      intro h'
      exact h (Or.inl (by unfold strip; rw [h']; rfl))
    have e : stripLeading (l ++ [0x0d]) = stripLeading l ++ [0x0d] := by
      unfold stripLeading at hne ⊢
      rw [List.dropWhile_append, if_neg (by simpa using hne)]
    rw [e, List.length_append, List.length_append]
    have e2 : l.length + ([0x0d] : Bytes).length - ((stripLeading l).length + ([0x0d] : Bytes).length) = l.length - (stripLeading l).length := by
      simp
    rw [e2]

theorem split_lines (ls : List Bytes) (last : Bytes) (hl : ∀ l ∈ ls, (0x0a : UInt8) ∉ l) (hlast : (0x0a : UInt8) ∉ last) :
    splitBy (fun c => decide (c = (0x0a : UInt8))) (unlines ls ++ last) = ls ++ [last] := by
  induction ls with
  | nil => exact splitBy_word last (notMem_decide hlast)
  | cons l ls ih =>
    have e : unlines (l :: ls) ++ last = l ++ 0x0a :: (unlines ls ++ last) := by simp [unlines, List.append_assoc]
    rw [e, splitBy_word_sep l (notMem_decide (hl l List.mem_cons_self)) (by decide),
      ih (fun l h => hl l (List.mem_cons_of_mem _ h))]
    rfl

theorem yaml_crlf {σ : Type} (content : Bytes) (sink : σ → Bytes → List (Bytes × Bytes) → Outcome σ) (st : σ) :
    parseMappingYAML (crlf content) sink st = parseMappingYAML content sink st := by
  obtain ⟨ls, last, rfl, hl, hlast⟩ := Asm.text_lines content
  unfold parseMappingYAML
  rw [Asm.crlf_lines ls last hl hlast, map_cr]
  show ((splitBy (fun c => decide (c = (0x0a : UInt8))) _).foldlM _ _ >>= _) = ((splitBy (fun c => decide (c = (0x0a : UInt8))) _).foldlM _ _ >>= _)
  rw [split_lines _ last (cr_lines hl) hlast, split_lines ls last hl hlast]
  congr 1
  have key : ∀ (ls tl : List Bytes) (s : YamlSt σ), (ls.map (· ++ [0x0d]) ++ tl).foldlM (yamlLine sink) s = (ls ++ tl).foldlM (yamlLine sink) s := by
    intro ls tl
    induction ls with
    | nil => intro s; rfl
    | cons l ls ih =>
      intro s
      rw [List.map_cons, List.cons_append, List.cons_append, List.foldlM_cons, List.foldlM_cons, yamlLine_cr]
      congr 1
      funext s'
      exact ih s'
  exact key ls [last] _

end Verif.Db
