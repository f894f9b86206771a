import Verif.Proofs.FasmTrail
import Verif.Proofs.Assembler
/-! # Lines with trailers, in the assembler -/
namespace Verif.Asm
open Verif.Db Verif.Spec Verif.Text

theorem not_mem_trailer {t : Bytes} (ht : Trailer t) : (0x0a : UInt8) ∉ t := by
  obtain ⟨g, e, rfl, hg, hn, _⟩ := ht
  intro h
  rcases List.mem_append.1 h with h | h
  · rcases hg _ h with h | h <;> exact absurd h (by decide)
  · exact hn h

theorem plainLine_dangling {l : Bytes} (hn : 0x0a ∉ l) (h : Dangles l) : plainLine (l ++ [0x0a]) = .ub := by
  have := Fasm.parse_lines' true (fun _ => true) (Reads.last l h) (by intro x hx; rw [List.mem_singleton.1 hx]; exact hn)
  rw [show unlines [l] = l ++ [0x0a] from by simp [unlines]] at this
  unfold plainLine
  rw [this]
  rfl

/-- The last white space longer. -/
def longer (g : Nat → Bytes) (b : Bytes) : Nat → Bytes := fun i => if i = 9 then g 9 ++ b else g i

theorem range_longer (r : RangeText) (g : Nat → Bytes) (b : Bytes) : r.text (longer g b) = r.text g := by
  cases r <;> rfl

theorem longer_blank {g : Nat → Bytes} {b : Bytes} (hg : ∀ i, Blank (g i)) (hb : Blank b) (i : Nat) : Blank (longer g b i) := by
  unfold longer
  split
  · intro c hc
    rcases List.mem_append.1 hc with h | h
    · exact hg 9 c h
    · exact hb c h
  · exact hg i

/-- A line that stops after the tick is refused with any trailer. -/
theorem plainLine_dangling_trail {l t : Bytes} (hn : 0x0a ∉ l) (h : Dangles l) (ht : Trailer t) (fs : List FasmFeature) :
    plainLine (l ++ t ++ [0x0a]) ≠ .ok fs := by
  obtain ⟨g', name, r, w, hok, rfl⟩ := h
  have hnt := not_mem_trailer ht
  obtain ⟨g, e, rfl, hg, hne, he⟩ := ht
  have hnt : (0x0a : UInt8) ∉ (LineShape.dangling g' name r w).text ++ (g ++ e) := by
    intro h
    rcases List.mem_append.1 h with h | h
    · exact hn h
    · exact hnt h
  cases e with
  | nil =>
    have hd : Dangles ((LineShape.dangling g' name r w).text ++ (g ++ [])) := by
      refine ⟨longer g' g, name, r, w, ⟨longer_blank hok.1 hg, hok.2⟩, ?_⟩
      simp only [LineShape.text, range_longer]
      simp [longer]
    rw [plainLine_dangling hnt hd]
    intro h; cases h
  | cons c e =>
    have hc : c = 0x23 ∨ c = 0x0d := by
      rcases he with h | h | h
      · cases h
      · cases h; exact Or.inl rfl
      · cases h; exact Or.inr rfl
    have e1 : (LineShape.dangling g' name r w).text ++ (g ++ c :: e) = (LineShape.badFormat (longer g' g) name r w c e).text := by
      simp only [LineShape.text, range_longer]
      simp [longer]
    have hbad : (LineShape.badFormat (longer g' g) name r w c e).Ok := by
      obtain ⟨hg', h2, hr, hinv, hw⟩ := hok
      refine ⟨longer_blank hg' hg, h2, hr, hinv, hw, ?_, ?_⟩
      · rcases hc with rfl | rfl <;> (unfold BlankChar; decide)
      · rintro ⟨b, hb⟩
        rcases hc with rfl | rfl <;> cases b <;> exact absurd hb (by decide)
    rw [e1] at hnt ⊢
    have h := Props.C71_bad_format true (fun _ => true) _ name r w c e hbad hnt
    unfold plainLine
    by_cases hs : r.size ≤ 64
    · rw [h.1 hs]
      intro h; cases h
    · rw [h.2 (by omega)]
      intro h; cases h

theorem plainLine_one {l : Bytes} (h : OneLine l) : plainLine (l ++ [0x0a]) =
    match Fasm.lineP true (fun _ => true) {} 1 l with
    | .ok st => if st.result = .userAbort ∨ st.result = .error then .err else .ok (st.trace.filterMap toFeature)
    | .oob => .ub
    | .shift => .ub := by
  unfold plainLine
  rw [Fasm.parse_one true _ l h]
  rfl

/-- A line that stands for itself, with a trailer. -/
theorem plainLine_trail {l t : Bytes} (hl : OneLine l) (ht : Trailer t) :
    plainLine (l ++ t ++ [0x0a]) = plainLine (l ++ [0x0a]) ∨ (0x22 ∈ t ∧ plainLine (l ++ [0x0a]) = .err) := by
  rw [plainLine_one (Fasm.oneLine_trail hl ht), plainLine_one hl]
  rcases Fasm.lineP_trailer hl ht true (fun _ => true) {} 1 with h | ⟨h, st, h1, h2⟩
  · rw [h]; exact Or.inl rfl
  · refine Or.inr ⟨h, ?_⟩
    rw [h1]
    dsimp only
    rw [if_pos (Or.inr h2)]

/-- Any line at all. -/
theorem plainLine_trail_ok {l t : Bytes} (hn : 0x0a ∉ l) (ht : Trailer t) (fs : List FasmFeature) :
    (plainLine (l ++ [0x0a]) = .ok fs → plainLine (l ++ t ++ [0x0a]) = .ok fs) ∧
    (0x22 ∉ t → plainLine (l ++ t ++ [0x0a]) = .ok fs → plainLine (l ++ [0x0a]) = .ok fs) := by
  by_cases hd : Dangles l
  · constructor
    · intro h; rw [plainLine_dangling hn hd] at h; cases h
    · intro _ h; exact absurd h (plainLine_dangling_trail hn hd ht fs)
  · rcases plainLine_trail ⟨hn, hd⟩ ht with h | ⟨h, h'⟩
    · rw [h]; exact ⟨id, fun _ => id⟩
    · constructor
      · intro h''; rw [h'] at h''; cases h''
      · intro h''; exact absurd h h''

/-! ## Whole texts -/

theorem getlines_unlines (ls : List Bytes) (last : Bytes) (h : ∀ l ∈ ls, 0x0a ∉ l) (hl : 0x0a ∉ last) :
    getlines (unlines ls ++ last) = ls.map (· ++ [0x0a]) ++ if last = [] then [] else [last] := by
  induction ls with
  | nil =>
    show getlines last = _
    split
    · rename_i h; rw [h]; rfl
    · rename_i h; rw [getlines_last last h hl]; rfl
  | cons l ls ih =>
    have e : unlines (l :: ls) ++ last = l ++ 0x0a :: (unlines ls ++ last) := by simp [unlines]
    rw [e, getlines_cut l _ (h l List.mem_cons_self), ih fun x hx => h x (List.mem_cons_of_mem _ hx)]
    rfl

theorem mapM_trail_ok (ls : List (Bytes × Bytes)) (tl : List Bytes) (h : ∀ x ∈ ls, 0x0a ∉ x.1 ∧ Trailer x.2) :
    ∀ r, (((ls.map (·.1)).map (· ++ [0x0a]) ++ tl).mapM plainLine = .ok r →
        ((ls.map fun x => x.1 ++ x.2).map (· ++ [0x0a]) ++ tl).mapM plainLine = .ok r) ∧
      ((∀ x ∈ ls, 0x22 ∉ x.2) → ((ls.map fun x => x.1 ++ x.2).map (· ++ [0x0a]) ++ tl).mapM plainLine = .ok r →
        ((ls.map (·.1)).map (· ++ [0x0a]) ++ tl).mapM plainLine = .ok r) := by
  induction ls with
  | nil => intro r; exact ⟨id, fun _ => id⟩
  | cons x ls ih =>
    intro r
    have ih := ih fun y hy => h y (List.mem_cons_of_mem _ hy)
    obtain ⟨hn, ht⟩ := h x List.mem_cons_self
    simp only [List.map_cons, List.cons_append, List.mapM_cons, Outcome.bind_eq_ok]
    constructor
    · rintro ⟨a, h1, b, h2, h3⟩
      exact ⟨a, (plainLine_trail_ok hn ht a).1 h1, b, (ih b).1 h2, h3⟩
    · rintro hq ⟨a, h1, b, h2, h3⟩
      exact ⟨a, (plainLine_trail_ok hn ht a).2 (hq x List.mem_cons_self) h1, b,
        (ih b).2 (fun y hy => hq y (List.mem_cons_of_mem _ hy)) h2, h3⟩

/-- Lines that do not stop after the tick are read without looking at what follows in the buffer. -/
theorem assembleLine_one (after : Bytes) {l : Bytes} (h : OneLine l) : assembleLine after (l ++ [0x0a]) = plainLine (l ++ [0x0a]) := by
  unfold assembleLine plainLine
  rw [show [(0x0a : UInt8)] = [Fasm.chNl] from rfl, Fasm.parseIn_one true _ l after h]
  rfl

theorem assembleLine_no_nl (after : Bytes) {l : Bytes} (h : 0x0a ∉ l) : assembleLine after l = plainLine l := by
  unfold assembleLine plainLine
  rw [Fasm.parseIn_no_nl true _ l after (fun e => h (List.mem_of_getLast? e))]
  rfl

theorem assembleLines_plain (ls : List Bytes) (h : ∀ l ∈ ls, (∃ b, l = b ++ [0x0a] ∧ OneLine b) ∨ 0x0a ∉ l) :
    ∀ buf, assembleLines buf ls = ls.mapM plainLine := by
  induction ls with
  | nil => intro buf; rfl
  | cons l ls ih =>
    intro buf
    have e : assembleLine ((getlineBuffer buf l).drop l.length) l = plainLine l := by
      rcases h l List.mem_cons_self with ⟨b, rfl, hb⟩ | hn
      · exact assembleLine_one _ hb
      · exact assembleLine_no_nl _ hn
    rw [assembleLines, List.mapM_cons, e]
    congr 1
    funext fs
    rw [ih fun x hx => h x (List.mem_cons_of_mem _ hx)]
    rfl

theorem mapM_trail_eq (ls : List (Bytes × Bytes)) (tl : List Bytes) (h : ∀ x ∈ ls, OneLine x.1 ∧ Trailer x.2 ∧ 0x22 ∉ x.2) :
    ((ls.map fun x => x.1 ++ x.2).map (· ++ [0x0a]) ++ tl).mapM plainLine =
      ((ls.map (·.1)).map (· ++ [0x0a]) ++ tl).mapM plainLine := by
  induction ls with
  | nil => rfl
  | cons x ls ih =>
    have ih := ih fun y hy => h y (List.mem_cons_of_mem _ hy)
    obtain ⟨hn, ht, hq⟩ := h x List.mem_cons_self
    simp only [List.map_cons, List.cons_append, List.mapM_cons]
    rw [ih]
    rcases plainLine_trail hn ht with h | ⟨h, _⟩
    · rw [h]
    · exact absurd h hq

/-- The text as lines and what is behind the last newline. -/
theorem text_lines (text : Bytes) : ∃ (ls : List Bytes) (last : Bytes), text = unlines ls ++ last ∧ (∀ l ∈ ls, 0x0a ∉ l) ∧ 0x0a ∉ last := by
  induction text with
  | nil => exact ⟨[], [], rfl, by simp, by simp⟩
  | cons c text ih =>
    obtain ⟨ls, last, rfl, h1, h2⟩ := ih
    by_cases hc : c = 0x0a
    · refine ⟨[] :: ls, last, by subst hc; simp [unlines], ?_, h2⟩
      intro l hl
      rcases List.mem_cons.1 hl with rfl | hl
      · simp
      · exact h1 l hl
    · cases ls with
      | nil =>
        refine ⟨[], c :: last, by simp [unlines], by simp, ?_⟩
        intro h
        rcases List.mem_cons.1 h with h | h
        · exact hc h.symm
        · exact h2 h
      | cons l ls =>
        refine ⟨(c :: l) :: ls, last, by simp [unlines], ?_, h2⟩
        intro x hx
        rcases List.mem_cons.1 hx with rfl | hx
        · intro h
          rcases List.mem_cons.1 h with h | h
          · exact hc h.symm
          · exact h1 l List.mem_cons_self h
        · exact h1 x (List.mem_cons_of_mem _ hx)

theorem crlf_append (a b : Bytes) : crlf (a ++ b) = crlf a ++ crlf b := by
  unfold crlf; rw [List.flatMap_append]

theorem crlf_none (a : Bytes) (h : 0x0a ∉ a) : crlf a = a := by
  induction a with
  | nil => rfl
  | cons c a ih =>
    have hc : c ≠ 0x0a := fun e => h (e ▸ List.mem_cons_self)
    show (if c = 0x0a then [0x0d, 0x0a] else [c]) ++ crlf a = _
    rw [if_neg hc, ih fun h' => h (List.mem_cons_of_mem _ h')]
    rfl

theorem crlf_lines (ls : List Bytes) (last : Bytes) (h : ∀ l ∈ ls, 0x0a ∉ l) (hl : 0x0a ∉ last) :
    crlf (unlines ls ++ last) = unlines ((ls.map fun l => (l, [0x0d])).map fun x => x.1 ++ x.2) ++ last := by
  induction ls with
  | nil => exact crlf_none last hl
  | cons l ls ih =>
    have e : unlines (l :: ls) ++ last = l ++ ([0x0a] ++ (unlines ls ++ last)) := by simp [unlines]
    rw [e, crlf_append, crlf_append, ih fun x hx => h x (List.mem_cons_of_mem _ hx), crlf_none l (h l List.mem_cons_self)]
    simp [unlines, crlf]

theorem trailer_cr : Trailer [0x0d] := ⟨[], [0x0d], rfl, (by intro c hc; cases hc), by decide, Or.inr (Or.inr rfl)⟩

end Verif.Asm
