import Verif.Model.Assembler
import Verif.Proofs.FasmIn
import Verif.Props.C71
/-! # The buffer of `getline` -/
namespace Verif.Asm
open Verif.Db Verif.Spec Verif.Text

/-- A line without regard to what follows it in the buffer. -/
def plainLine (line : Bytes) : Outcome (List FasmFeature) :=
  match Fasm.parse true (fun _ => true) line with
  | .ok st => if st.result = .userAbort ∨ st.result = .error then .err else .ok (st.trace.filterMap toFeature)
  | .oob => .ub
  | .shift => .ub

/-- One newline at the end, or none. -/
def LineLike (line : Bytes) : Prop := (∃ body, line = body ++ [0x0a] ∧ 0x0a ∉ body) ∨ 0x0a ∉ line

theorem assembleLine_plain (after line : Bytes) (hl : LineLike line)
    (h : plainLine line ≠ .ub) : assembleLine after line = plainLine line := by
  unfold plainLine at h ⊢
  unfold assembleLine
  cases hp : Fasm.parse true (fun _ => true) line with
  | oob => rw [hp] at h; exact absurd rfl h
  | shift => rw [hp] at h; exact absurd rfl h
  | ok st => rw [Fasm.parseIn_defined true _ line after hl st hp]

theorem first_nl : ∀ (s : Bytes), (0x0a : UInt8) ∈ s → ∃ a b, s = a ++ 0x0a :: b ∧ 0x0a ∉ a
  | [], h => by cases h
  | c :: s, h => by
    by_cases hc : c = 0x0a
    · exact ⟨[], s, by rw [hc]; rfl, by simp⟩
    · obtain ⟨a, b, h1, h2⟩ := first_nl s (by
        rcases List.mem_cons.1 h with h | h
        · exact absurd h.symm hc
        · exact h)
      refine ⟨c :: a, b, by rw [h1]; rfl, ?_⟩
      intro hm
      rcases List.mem_cons.1 hm with hm | hm
      · exact hc hm.symm
      · exact h2 hm

/-- A line that stops after the tick. -/
theorem assembleLine_dangling (after : Bytes) (g : Nat → Bytes) (name : Bytes) (r : RangeText) (w : Bytes)
    (hok : (LineShape.dangling g name r w).Ok) (hnl : 0x0a ∉ (LineShape.dangling g name r w).text) :
    assembleLine after ((LineShape.dangling g name r w).text ++ [0x0a]) =
      if 0x0a ∈ after ∧ r.size ≤ 64 then .err else .ub := by
  have hd : Dangles (LineShape.dangling g name r w).text := ⟨g, name, r, w, hok, rfl⟩
  unfold assembleLine
  by_cases ha : (0x0a : UInt8) ∈ after
  · obtain ⟨l2, rest, rfl, h2⟩ := first_nl after ha
    rw [show [(0x0a : UInt8)] = [Fasm.chNl] from rfl,
      show l2 ++ 0x0a :: rest = l2 ++ Fasm.chNl :: rest from rfl,
      Fasm.parseIn_swallow true (fun _ => true) _ l2 rest hnl hd h2]
    have hbad : (LineShape.badFormat g name r w 0x3f []).Ok := by
      obtain ⟨hg, hn, hr, hinv, hw⟩ := hok
      refine ⟨hg, hn, hr, hinv, hw, by unfold BlankChar; decide, ?_⟩
      rintro ⟨b, hb⟩
      cases b <;> exact absurd hb (by decide)
    have e1 : (LineShape.dangling g name r w).text ++ bytes!"?" = (LineShape.badFormat g name r w 0x3f []).text := by
      simp [LineShape.text]
    have h := Props.C71_bad_format true (fun _ => true) g name r w 0x3f [] hbad (by rw [← e1]; simp [hnl])
    rw [e1, show [Fasm.chNl] = [(0x0a : UInt8)] from rfl]
    by_cases hs : r.size ≤ 64
    · have hp : (0x0a : UInt8) ∈ l2 ++ Fasm.chNl :: rest ∧ r.size ≤ 64 := ⟨ha, hs⟩
      simp only [h.1 hs, if_pos hp]
      rfl
    · rw [h.2 (by omega), if_neg (fun h => hs h.2)]
  · rw [show [(0x0a : UInt8)] = [Fasm.chNl] from rfl, Fasm.parseIn_overrun true _ _ after hd ha, if_neg (fun h => ha h.1)]

/-- A line without a defined reading is never accepted; only one that stops after the tick can end in an error. -/
theorem assembleLine_ub (after line : Bytes) (hl : LineLike line) (h : plainLine line = .ub) :
    assembleLine after line = .ub ∨ assembleLine after line = .err := by
  rcases hl with ⟨body, rfl, hnl⟩ | hnl
  · by_cases hd : Dangles body
    · obtain ⟨g, name, r, w, hok, rfl⟩ := hd
      rw [assembleLine_dangling after g name r w hok hnl]
      split
      · exact Or.inr rfl
      · exact Or.inl rfl
    · left
      rw [← h]
      unfold assembleLine plainLine
      rw [show [(0x0a : UInt8)] = [Fasm.chNl] from rfl, Fasm.parseIn_one true _ body after ⟨hnl, hd⟩]
      rfl
  · left
    rw [← h]
    unfold assembleLine plainLine
    rw [Fasm.parseIn_no_nl true _ line after (fun e => hnl (List.mem_of_getLast? e))]
    rfl

theorem assembleLines_ok (ls : List Bytes) (hls : ∀ l ∈ ls, LineLike l) : ∀ (buf : Bytes) (r : List (List FasmFeature)),
    assembleLines buf ls = .ok r ↔ ls.mapM plainLine = .ok r := by
  induction ls with
  | nil => intro buf r; rfl
  | cons l ls ih =>
    intro buf r
    have ih := ih fun x hx => hls x (List.mem_cons_of_mem _ hx)
    have hl := hls l (List.mem_cons_self ..)
    rw [assembleLines, List.mapM_cons]
    cases hp : plainLine l with
    | ub =>
      rcases assembleLine_ub ((getlineBuffer buf l).drop l.length) l hl hp with h | h <;> rw [h] <;>
        exact ⟨(fun h => by cases h), (fun h => by cases h)⟩
    | err => rw [assembleLine_plain _ l hl (by rw [hp]; simp), hp]; rfl
    | abort => rw [assembleLine_plain _ l hl (by rw [hp]; simp), hp]; rfl
    | ok fs =>
      rw [assembleLine_plain _ l hl (by rw [hp]; simp), hp, Outcome.bind_ok, Outcome.bind_ok, Outcome.bind_eq_ok, Outcome.bind_eq_ok]
      exact exists_congr fun x => and_congr (ih _ _) Iff.rfl

theorem assembleLines_err (ls : List Bytes) (hls : ∀ l ∈ ls, LineLike l) : ∀ (buf : Bytes),
    ls.mapM plainLine = .err → assembleLines buf ls = .err := by
  induction ls with
  | nil => intro buf h; cases h
  | cons l ls ih =>
    intro buf h
    have ih := ih fun x hx => hls x (List.mem_cons_of_mem _ hx)
    have hl := hls l (List.mem_cons_self ..)
    rw [List.mapM_cons] at h
    rw [assembleLines]
    cases hp : plainLine l with
    | ub => rw [hp] at h; cases h
    | abort => rw [hp] at h; cases h
    | err => rw [assembleLine_plain _ l hl (by rw [hp]; simp), hp]; rfl
    | ok fs =>
      rw [hp, Outcome.bind_ok] at h
      rw [assembleLine_plain _ l hl (by rw [hp]; simp), hp, Outcome.bind_ok]
      cases hm : ls.mapM plainLine with
      | err => rw [ih _ hm]; rfl
      | ub => rw [hm] at h; cases h
      | abort => rw [hm] at h; cases h
      | ok r => rw [hm] at h; cases h

/-- What the buffer holds after the lines. -/
def bufferAfter (ls : List Bytes) : Bytes := ls.foldl getlineBuffer []

/-- The lines before are accepted: the buffer they leave. -/
theorem assembleLines_append (a b : List Bytes) : ∀ (buf : Bytes) (r : List (List FasmFeature)), assembleLines buf a = .ok r →
    assembleLines buf (a ++ b) = (assembleLines (a.foldl getlineBuffer buf) b >>= fun s => .ok (r ++ s)) := by
  induction a with
  | nil =>
    intro buf r h
    cases h
    show assembleLines buf b = (assembleLines buf b >>= fun s => .ok s)
    cases assembleLines buf b <;> rfl
  | cons l a ih =>
    intro buf r h
    rw [assembleLines] at h
    obtain ⟨fs, h1, h⟩ := Outcome.bind_eq_ok.1 h
    obtain ⟨r', h2, h⟩ := Outcome.bind_eq_ok.1 h
    cases h
    rw [List.cons_append, assembleLines, h1, Outcome.bind_ok, ih _ _ h2, List.foldl_cons]
    cases assembleLines (a.foldl getlineBuffer (getlineBuffer buf l)) b <;> rfl

/-- A newline is left behind position `n` of the buffer: some line was longer than `n + 1` and than every line after it
by two. -/
theorem leftover_iff (ls : List Bytes) (h : ∀ l ∈ ls, ∃ body, l = body ++ [0x0a] ∧ 0x0a ∉ body) : ∀ n : Nat,
    0x0a ∈ (bufferAfter ls).drop (n + 1) ↔
      ∃ a m b, ls = a ++ m :: b ∧ n + 2 ≤ m.length ∧ ∀ k ∈ b, k.length + 2 ≤ m.length := by
  obtain ⟨N, hN⟩ : ∃ N, N = ls.length := ⟨_, rfl⟩
  induction N generalizing ls with
  | zero =>
    cases ls with
    | cons => cases hN
    | nil =>
      intro n
      constructor
      · intro h; simp [bufferAfter] at h
      · rintro ⟨a, m, b, h, _⟩; simp at h
  | succ N ih0 =>
    intro n
    rcases List.eq_nil_or_concat ls with rfl | ⟨ls, k, rfl⟩
    · cases hN
    rw [List.concat_eq_append] at *
    have ih := ih0 ls (fun x hx => h x (List.mem_append.2 (Or.inl hx))) (by simp at hN; exact hN)
    obtain ⟨body, hk, hnl⟩ := h k (by simp)
    have hb : bufferAfter (ls ++ [k]) = k ++ 0 :: (bufferAfter ls).drop (k.length + 1) := by
      unfold bufferAfter
      rw [List.foldl_append]; rfl
    rw [hb]
    by_cases hlong : n + 2 ≤ k.length
    · constructor
      · intro _
        exact ⟨ls, k, [], rfl, hlong, by simp⟩
      · intro _
        rw [List.drop_append_of_le_length (by omega), List.mem_append]
        left
        subst hk
        rw [List.length_append] at hlong
        rw [List.drop_append_of_le_length (by simp at hlong; omega)]
        simp
    · have hstep : 0x0a ∈ (k ++ 0 :: (bufferAfter ls).drop (k.length + 1)).drop (n + 1) ↔
          0x0a ∈ (bufferAfter ls).drop (max n k.length + 1) := by
        rw [List.drop_append, List.drop_eq_nil_of_le (by omega), List.nil_append]
        by_cases he : n + 1 = k.length
        · rw [he, Nat.sub_self, List.drop_zero, show max n k.length = k.length by omega]
          constructor
          · intro h
            rcases List.mem_cons.1 h with h | h
            · exact absurd h (by decide)
            · exact h
          · exact List.mem_cons_of_mem _
        · rw [show n + 1 - k.length = (n - k.length) + 1 by omega, List.drop_succ_cons, List.drop_drop,
            show k.length + 1 + (n - k.length) = max n k.length + 1 by omega]
      rw [hstep, ih]
      constructor
      · rintro ⟨a, m, b, rfl, h1, h2⟩
        refine ⟨a, m, b ++ [k], by simp, by omega, ?_⟩
        intro x hx
        rcases List.mem_append.1 hx with hx | hx
        · exact h2 x hx
        · rw [List.mem_singleton.1 hx]; omega
      · rintro ⟨a, m, b, he, h1, h2⟩
        rcases List.eq_nil_or_concat b with rfl | ⟨b', k', rfl⟩
        · have := List.append_inj' he rfl
          have : k = m := List.cons.inj this.2 |>.1
          subst this
          omega
        · rw [List.concat_eq_append] at he h2
          rw [show a ++ m :: (b' ++ [k']) = (a ++ m :: b') ++ [k'] by simp] at he
          obtain ⟨e1, e2⟩ := List.append_inj' he rfl
          have : k = k' := List.cons.inj e2 |>.1
          subst this
          have := h2 k (by simp)
          exact ⟨a, m, b', e1, by omega, fun x hx => h2 x (List.mem_append.2 (Or.inl hx))⟩

end Verif.Asm
