import Verif.Proofs.Tidy.Check
import Verif.Spec.Tidy.Filter
/-! The lines kept by the filter. -/
namespace Verif.Tidy
open Verif.Spec.Tidy Re

/-! ## The order of ways -/

/-- Longer ways first. -/
def Longest (l : List Pos) : Prop := l.Pairwise fun a b => b.left.length < a.left.length

private theorem set_ways (p : UInt8 → Bool) (s : Pos) : ways (.set p) s = [] ∨ ∃ c r, s.rest = c :: r ∧ ways (.set p) s = [⟨c :: s.left, r, s.group⟩] := by
  simp only [ways]
  cases s.rest with
  | nil => exact Or.inl rfl
  | cons c r =>
    simp only
    split
    · exact Or.inr ⟨c, r, rfl, rfl⟩
    · exact Or.inl rfl

private theorem rounds_longest (p : UInt8 → Bool) (n : Nat) (s : Pos) :
    Longest (rounds (ways (.set p)) n s) ∧ ∀ t ∈ rounds (ways (.set p)) n s, s.left.length ≤ t.left.length := by
  induction n generalizing s with
  | zero => simp [rounds, Longest]
  | succ n ih =>
    rw [rounds]
    rcases set_ways p s with h | ⟨c, r, hr, h⟩
    · rw [h]
      simp [Longest]
    · rw [h]
      have : r.length < s.rest.length := by rw [hr]; simp
      simp only [List.filter_cons, List.filter_nil, this, decide_true, if_true, List.flatMap_cons, List.flatMap_nil, List.append_nil]
      obtain ⟨h1, h2⟩ := ih ⟨c :: s.left, r, s.group⟩
      constructor
      · refine List.pairwise_append.2 ⟨h1, by simp, fun a ha b hb => ?_⟩
        simp only [List.mem_singleton] at hb
        subst hb
        have := h2 a ha
        simp at this
        omega
      · intro t ht
        rcases List.mem_append.1 ht with ht | ht
        · have := h2 t ht
          simp at this
          omega
        · simp only [List.mem_singleton] at ht
          subst ht
          exact Nat.le_refl _

theorem star_longest (p : UInt8 → Bool) (s : Pos) : Longest (ways (.star (.set p)) s) := (rounds_longest p _ s).1

theorem plus_longest (p : UInt8 → Bool) (s : Pos) : Longest (ways (plus (.set p)) s) := by
  show Longest ((ways (.set p) s).flatMap (ways (.star (.set p))))
  rcases set_ways p s with h | ⟨c, r, hr, h⟩
  · rw [h]; simp [Longest]
  · rw [h]
    simp only [List.flatMap_cons, List.flatMap_nil, List.append_nil]
    exact star_longest p _

theorem cap_longest {a : Re} {s : Pos} (h : Longest (ways a s)) : Longest (ways (.cap a) s) := by
  show Longest ((ways a s).map _)
  unfold Longest
  rw [List.pairwise_map]
  exact h

theorem head_flatMap {L : List Pos} {f : Pos → List Pos} {t : Pos} (h : (L.flatMap f).head? = some t) :
    ∃ a ∈ L, (f a).head? = some t ∧ (Longest L → ∀ b ∈ L, a.left.length < b.left.length → f b = []) := by
  induction L with
  | nil => cases h
  | cons x L ih =>
    rw [List.flatMap_cons, List.head?_append] at h
    cases hx : (f x).head? with
    | some u =>
      rw [hx] at h
      cases h
      refine ⟨x, by simp, hx, fun hl b hb hlt => ?_⟩
      rcases List.mem_cons.1 hb with rfl | hb
      · omega
      · have := (List.pairwise_cons.1 hl).1 b hb
        omega
    | none =>
      rw [hx] at h
      obtain ⟨a, ha, h1, h2⟩ := ih (by simpa using h)
      refine ⟨a, List.mem_cons_of_mem _ ha, h1, fun hl b hb hlt => ?_⟩
      rcases List.mem_cons.1 hb with rfl | hb
      · exact List.head?_eq_none_iff.1 hx
      · exact h2 (List.pairwise_cons.1 hl).2 b hb hlt

/-! ## The pattern -/

/-- The pattern from the place on. -/
def placeRe : Re := all [chr 0x3a, plus (set isDigit), chr 0x3a, plus (set isDigit), chr 0x3a, star dot, checkName, eol]

theorem fileWithTidy_eq : fileWithTidy = .seq (star dot) (.seq (alt bol (chr 0x2f)) (.seq (cap (plus (set fun c => c ≠ 0x2f))) placeRe)) := rfl

theorem number_iff (w : Bytes) : Number w ↔ w ≠ [] ∧ ∀ c ∈ w, isDigit c = true := by
  unfold Number
  simp only [isDigit_iff]

theorem placeRe_iff (s t : Pos) : Derives placeRe s t ↔ Place s.rest ∧ t = s.move s.rest [] := by
  unfold placeRe
  simp only [all, derives_seq]
  constructor
  · rintro ⟨s1, h1, s2, h2, s3, h3, s4, h4, s5, h5, s6, h6, s7, h7, h8⟩
    obtain ⟨e1, f1⟩ := derives_chr.1 h1
    obtain ⟨a, na, ca, e2, f2⟩ := derives_plus_set.1 h2
    obtain ⟨e3, f3⟩ := derives_chr.1 h3
    obtain ⟨b, nb, cb, e4, f4⟩ := derives_plus_set.1 h4
    obtain ⟨e5, f5⟩ := derives_chr.1 h5
    obtain ⟨m, cm, e6, f6⟩ := derives_star_set.1 h6
    obtain ⟨w, hw, e7, f7⟩ := (checkName_iff _ _).1 h7
    obtain ⟨e8, f8⟩ := derives_eol.1 h8
    have hrest : s.rest = bytes!":" ++ a ++ bytes!":" ++ b ++ bytes!":" ++ m ++ w := by
      rw [e1, e2, e3, e4, e5, e6, e7, e8]
      simp
    refine ⟨⟨a, b, m, w, (number_iff a).2 ⟨na, ca⟩, (number_iff b).2 ⟨nb, cb⟩, fun c hc => (dotChar_iff c).1 (cm c hc), hw, hrest⟩, ?_⟩
    rw [hrest, f8, f7, f6, f5, f4, f3, f2, f1, e8]
    simp [Pos.move]
  · rintro ⟨⟨a, b, m, w, ha, hb, hm, hw, e⟩, f⟩
    obtain ⟨na, ca⟩ := (number_iff a).1 ha
    obtain ⟨nb, cb⟩ := (number_iff b).1 hb
    refine ⟨s.move bytes!":" (a ++ bytes!":" ++ b ++ bytes!":" ++ m ++ w), derives_chr.2 ⟨by rw [e]; simp [Pos.move], rfl⟩,
      s.move (bytes!":" ++ a) (bytes!":" ++ b ++ bytes!":" ++ m ++ w), derives_plus_set.2 ⟨a, na, ca, by simp [Pos.move], by simp [Pos.move]⟩,
      s.move (bytes!":" ++ a ++ bytes!":") (b ++ bytes!":" ++ m ++ w), derives_chr.2 ⟨by simp [Pos.move], by simp [Pos.move]⟩,
      s.move (bytes!":" ++ a ++ bytes!":" ++ b) (bytes!":" ++ m ++ w), derives_plus_set.2 ⟨b, nb, cb, by simp [Pos.move], by simp [Pos.move]⟩,
      s.move (bytes!":" ++ a ++ bytes!":" ++ b ++ bytes!":") (m ++ w), derives_chr.2 ⟨by simp [Pos.move], by simp [Pos.move]⟩,
      s.move (bytes!":" ++ a ++ bytes!":" ++ b ++ bytes!":" ++ m) w, derives_star_set.2 ⟨m, fun c hc => (dotChar_iff c).2 (hm c hc), by simp [Pos.move], by simp [Pos.move]⟩,
      s.move (bytes!":" ++ a ++ bytes!":" ++ b ++ bytes!":" ++ m ++ w) [], (checkName_iff _ _).2 ⟨w, hw, by simp [Pos.move], by simp [Pos.move]⟩,
      derives_eol.2 ⟨rfl, by rw [f, e]⟩⟩

/-- Up to the name. -/
private theorem dir_iff (line : Bytes) (b : Pos) :
    (∃ a, Derives (star dot) ⟨[], line, []⟩ a ∧ Derives (alt bol (chr 0x2f)) a b) ↔ ∃ dir, Directory dir ∧ line = dir ++ b.rest ∧ b = ⟨dir.reverse, b.rest, []⟩ := by
  constructor
  · rintro ⟨a, h1, h2⟩
    obtain ⟨w, hw, e1, f1⟩ := derives_star_set.1 h1
    rcases derives_alt.1 h2 with h2 | h2
    · obtain ⟨hl, rfl⟩ := derives_bol.1 h2
      have : w = [] := by
        rw [f1] at hl
        simpa [Pos.move] using hl
      subst this
      exact ⟨[], Or.inl rfl, e1, f1⟩
    · obtain ⟨e2, f2⟩ := derives_chr.1 h2
      refine ⟨w ++ bytes!"/", Or.inr ⟨w, fun c hc => (dotChar_iff c).1 (hw c hc), rfl⟩, ?_, ?_⟩
      · simp only at e1
        rw [e1, e2]
        simp
      · rw [f2, f1]
        simp [Pos.move]
  · rintro ⟨dir, hd, e, f⟩
    rcases hd with rfl | ⟨x, hx, rfl⟩
    · refine ⟨⟨[], line, []⟩, .stop, derives_alt.2 (Or.inl (derives_bol.2 ⟨rfl, ?_⟩))⟩
      rw [f, e]
      rfl
    · refine ⟨⟨x.reverse, 0x2f :: b.rest, []⟩, derives_star_set.2 ⟨x, fun c hc => (dotChar_iff c).2 (hx c hc), by rw [e]; simp, by simp [Pos.move]⟩,
        derives_alt.2 (Or.inr (derives_chr.2 ⟨rfl, ?_⟩))⟩
      rw [f]
      simp [Pos.move]

private theorem name_iff (b c : Pos) : Derives (cap (plus (set fun c => c ≠ 0x2f))) b c ↔
    ∃ name, name ≠ [] ∧ (0x2f : UInt8) ∉ name ∧ b.rest = name ++ c.rest ∧ c = ⟨name.reverse ++ b.left, c.rest, name⟩ := by
  rw [derives_cap]
  constructor
  · rintro ⟨u, w, h, e, k1, k2, f, g⟩
    obtain ⟨w', n, hw, e', f'⟩ := derives_plus_set.1 h
    have : w' = w := by rw [e, k1] at e'; exact (List.append_cancel_right e').symm
    subst this
    refine ⟨w', n, fun hm => by simpa using hw _ hm, e, ?_⟩
    obtain ⟨cl, cr, cg⟩ := c
    simp only at f g
    rw [f, g]
  · rintro ⟨name, n, hn, e, f⟩
    refine ⟨b.move name c.rest, name, derives_plus_set.2 ⟨name, n, fun d hd => by simp only [decide_eq_true_eq]; intro h; exact hn (h ▸ hd), e, rfl⟩, e, rfl, ?_, ?_, ?_⟩
    · rw [f]; rfl
    · rw [f]
    · rw [f]

/-- The ways of the whole pattern. -/
theorem mem_fileWithTidy (line : Bytes) (t : Pos) : t ∈ ways fileWithTidy ⟨[], line, []⟩ ↔ ∃ dir, Located dir t.group line ∧ t = ⟨line.reverse, [], t.group⟩ := by
  rw [mem_ways, fileWithTidy_eq]
  simp only [derives_seq]
  constructor
  · rintro ⟨a, h1, b, h2, c, h3, h4⟩
    obtain ⟨dir, hd, e1, f1⟩ := (dir_iff line b).1 ⟨a, h1, h2⟩
    obtain ⟨name, n, hn, e2, f2⟩ := (name_iff b c).1 h3
    obtain ⟨hp, f3⟩ := (placeRe_iff c t).1 h4
    have hg : t.group = name := by rw [f3]; simp only [Pos.move]; rw [f2]
    refine ⟨dir, ⟨c.rest, by rw [e1, e2, hg]; simp, hd, by rw [hg]; exact n, by rw [hg]; exact hn, hp⟩, ?_⟩
    rw [hg, f3]
    simp only [Pos.move]
    rw [f2]
    simp only
    rw [f1]
    simp only
    rw [e1, e2]
    simp
  · rintro ⟨dir, ⟨rest, e, hd, n, hn, hp⟩, f⟩
    obtain ⟨a, h1, h2⟩ := (dir_iff line ⟨dir.reverse, t.group ++ rest, []⟩).2 ⟨dir, hd, by rw [e]; simp, rfl⟩
    refine ⟨a, h1, _, h2, ⟨t.group.reverse ++ dir.reverse, rest, t.group⟩, (name_iff _ _).2 ⟨t.group, n, hn, rfl, rfl⟩, (placeRe_iff _ _).2 ⟨hp, ?_⟩⟩
    rw [f, e]
    simp [Pos.move]

/-- The first way. -/
theorem head_fileWithTidy (line : Bytes) (t : Pos) (h : (ways fileWithTidy ⟨[], line, []⟩).head? = some t) : About line t.group := by
  rw [fileWithTidy_eq] at h
  obtain ⟨a, ha, h1, hmax1⟩ := head_flatMap (L := ways (star dot) ⟨[], line, []⟩) (f := ways _) h
  obtain ⟨b, hb, h2, _⟩ := head_flatMap (L := ways (alt bol (chr 0x2f)) a) (f := ways _) h1
  obtain ⟨c, hc, h3, hmax3⟩ := head_flatMap (L := ways (cap (plus (set fun c => c ≠ 0x2f))) b) (f := ways _) h2
  have hmax1 := hmax1 (star_longest _ _)
  have hmax3 := hmax3 (cap_longest (plus_longest _ _))
  have h4 : Derives placeRe c t := (mem_ways _ _ _).1 (List.mem_of_mem_head? (by rw [h3]; rfl))
  have da := (mem_ways _ _ _).1 ha
  have db := (mem_ways _ _ _).1 hb
  have dc := (mem_ways _ _ _).1 hc
  obtain ⟨dir, hd, e1, f1⟩ := (dir_iff line b).1 ⟨a, da, db⟩
  obtain ⟨name, n, hn, e2, f2⟩ := (name_iff b c).1 dc
  obtain ⟨hp, f3⟩ := (placeRe_iff c t).1 h4
  have hg : t.group = name := by rw [f3]; simp only [Pos.move]; rw [f2]
  rw [hg]
  refine ⟨dir, ⟨c.rest, by rw [e1, e2]; simp, hd, n, hn, hp⟩, ?_⟩
  rintro dir' name' ⟨rest', e', hd', n', hn', hp'⟩
  -- lengths of the way before the name
  have ab : a.left.length = dir.length ∧ dir = [] ∨ a.left.length + 1 = dir.length := by
    obtain ⟨w, hw, ea, fa⟩ := derives_star_set.1 da
    have hdl : b.left.length = dir.length := by rw [f1]; simp
    rcases derives_alt.1 db with h' | h'
    · obtain ⟨hl, rfl⟩ := derives_bol.1 h'
      rw [hl] at hdl
      refine Or.inl ⟨by rw [hl]; exact hdl, List.length_eq_zero_iff.1 ?_⟩
      simpa using hdl.symm
    · obtain ⟨_, fb⟩ := derives_chr.1 h'
      refine Or.inr ?_
      rw [← hdl, fb]
      simp [Pos.move]
  obtain ⟨a', da', db'⟩ := (dir_iff line ⟨dir'.reverse, name' ++ rest', []⟩).2 ⟨dir', hd', by rw [e']; simp, rfl⟩
  have ab' : a'.left.length = dir'.length ∧ dir' = [] ∨ a'.left.length + 1 = dir'.length := by
    rcases derives_alt.1 db' with h' | h'
    · obtain ⟨hl, hb'⟩ := derives_bol.1 h'
      have hz : dir' = [] := by
        have := congrArg Pos.left hb'
        rw [hl] at this
        simpa using this
      exact Or.inl ⟨by rw [hl, hz], hz⟩
    · obtain ⟨_, fb⟩ := derives_chr.1 h'
      refine Or.inr ?_
      have := congrArg (fun p => p.left.length) fb
      simp [Pos.move] at this
      exact this.symm
  have dc' : Derives (cap (plus (set fun c => c ≠ 0x2f))) ⟨dir'.reverse, name' ++ rest', []⟩ ⟨name'.reverse ++ dir'.reverse, rest', name'⟩ := (name_iff _ _).2 ⟨name', n', hn', rfl, rfl⟩
  have dp' : Derives placeRe ⟨name'.reverse ++ dir'.reverse, rest', name'⟩ (Pos.move ⟨name'.reverse ++ dir'.reverse, rest', name'⟩ rest' []) := (placeRe_iff _ _).2 ⟨hp', rfl⟩
  -- no longer directory
  have hlen : a'.left.length ≤ a.left.length := by
    rcases Nat.lt_or_ge a.left.length a'.left.length with hlt | hge
    · have := hmax1 a' ((mem_ways _ _ _).2 da') hlt
      have hm := (mem_ways _ a' _).2 (Derives.seq db' (.seq dc' dp'))
      rw [this] at hm
      cases hm
    · exact hge
  have hle : dir'.length ≤ dir.length := by
    rcases ab with ⟨x1, x2⟩ | x1 <;> rcases ab' with ⟨y1, y2⟩ | y1
    · omega
    · -- both begin the line: a slash and no slash
      exfalso
      have hdz : dir.length = 0 := by rw [x2]; rfl
      have hz : a'.left.length = 0 := by omega
      have hd1 : dir'.length = 1 := by omega
      rcases hd' with hnil | ⟨x, hx, hd'⟩
      · rw [hnil] at hd1; cases hd1
      · have hx0 : x = [] := by
          rw [hd'] at hd1
          simp at hd1
          exact hd1
        rw [hd', hx0] at e'
        rw [x2] at e1
        rw [e1] at e'
        simp only [List.nil_append] at e'
        rw [e2] at e'
        cases name with
        | nil => exact n rfl
        | cons d name =>
          simp at e'
          exact hn (by rw [e'.1]; simp)
    · rw [y2]; simp
    · omega
  rcases Nat.lt_or_ge dir'.length dir.length with hlt | hge
  · exact Or.inl hlt
  · refine Or.inr ⟨by omega, ?_⟩
    -- the same directory
    have hdir : dir' = dir := by
      have hx : dir ++ b.rest = dir' ++ (name' ++ rest') := by rw [← e1, e']; simp
      exact (List.append_inj hx (by omega)).1.symm
    subst hdir
    have hb' : b.rest = name' ++ rest' := by
      have hx : dir' ++ b.rest = dir' ++ (name' ++ rest') := by rw [← e1, e']; simp
      exact List.append_cancel_left hx
    rcases Nat.lt_or_ge name.length name'.length with hlt | hge
    · exfalso
      have hbb : b = ⟨dir'.reverse, name' ++ rest', []⟩ := by rw [f1, hb']
      have := hmax3 ⟨name'.reverse ++ dir'.reverse, rest', name'⟩ ((mem_ways _ _ _).2 (hbb ▸ dc')) (by
        rw [f2]
        simp only [List.length_append, List.length_reverse]
        rw [f1]
        simp
        omega)
      have hm := (mem_ways _ _ _).2 dp'
      rw [this] at hm
      cases hm
    · exact hge

theorem _root_.Verif.Spec.Tidy.About.unique {line n n' : Bytes} (h : About line n) (h' : About line n') : n = n' := by
  obtain ⟨dir, ⟨rest, e, l1⟩, m⟩ := h
  obtain ⟨dir', ⟨rest', e', l1'⟩, m'⟩ := h'
  have a1 := m dir' n' ⟨rest', e', l1'⟩
  have a2 := m' dir n ⟨rest, e, l1⟩
  have hl : (dir ++ n).length = (dir' ++ n').length := by
    simp only [List.length_append]
    omega
  rw [e] at e'
  have := (List.append_inj e' hl).1
  exact (List.append_inj this (by omega)).2

theorem fullMatch_some {line n : Bytes} : fullMatch fileWithTidy line = some n ↔ About line n := by
  have hfilter : (ways fileWithTidy ⟨[], line, []⟩).filter (fun t => t.rest = []) = ways fileWithTidy ⟨[], line, []⟩ := by
    rw [List.filter_eq_self]
    intro t ht
    obtain ⟨_, _, f⟩ := (mem_fileWithTidy line t).1 ht
    rw [f]
    rfl
  unfold fullMatch
  rw [hfilter]
  constructor
  · intro h
    obtain ⟨t, h1, rfl⟩ := Option.map_eq_some_iff.1 h
    exact head_fileWithTidy line t h1
  · intro h
    obtain ⟨dir, hl, _⟩ := id h
    have hm := (mem_fileWithTidy line ⟨line.reverse, [], n⟩).2 ⟨dir, hl, rfl⟩
    cases hw : (ways fileWithTidy ⟨[], line, []⟩).head? with
    | none =>
      rw [List.head?_eq_none_iff.1 hw] at hm
      cases hm
    | some t =>
      have := head_fileWithTidy line t hw
      rw [Option.map_some, this.unique h]

theorem fullMatch_none {line : Bytes} : fullMatch fileWithTidy line = none ↔ ∀ dir n, ¬ Located dir n line := by
  constructor
  · intro h dir n hl
    have hm := (mem_fileWithTidy line ⟨line.reverse, [], n⟩).2 ⟨dir, hl, rfl⟩
    unfold fullMatch at h
    rw [Option.map_eq_none_iff, List.head?_eq_none_iff, List.filter_eq_nil_iff] at h
    exact h _ hm rfl
  · intro h
    cases hf : fullMatch fileWithTidy line with
    | none => rfl
    | some n =>
      obtain ⟨dir, hl, _⟩ := fullMatch_some.1 hf
      exact absurd hl (h dir n)

theorem aboutOf_eq (line : Bytes) : aboutOf line = fullMatch fileWithTidy line := by
  unfold aboutOf
  split
  · rename_i h
    exact (fullMatch_some.2 h.choose_spec).symm
  · rename_i h
    cases hf : fullMatch fileWithTidy line with
    | none => rfl
    | some n => exact absurd ⟨n, fullMatch_some.1 hf⟩ h

/-! ## The lines -/

theorem getlines_line (l r : Bytes) (h : (0x0a : UInt8) ∉ l) : getlines (l ++ 0x0a :: r) = l :: getlines r := by
  induction l with
  | nil => simp [getlines]
  | cons c l ih =>
    simp only [List.mem_cons, not_or] at h
    rw [List.cons_append, getlines, if_neg (fun e => h.1 e.symm), ih h.2]

theorem getlines_last (l : Bytes) (h : (0x0a : UInt8) ∉ l) (hne : l ≠ []) : getlines l = [l] := by
  induction l with
  | nil => exact absurd rfl hne
  | cons c l ih =>
    simp only [List.mem_cons, not_or] at h
    rw [getlines, if_neg (fun e => h.1 e.symm)]
    cases l with
    | nil => rfl
    | cons d l => rw [ih h.2 (by simp)]

theorem getlines_text (ls : List Bytes) (last : Bytes) (h : ∀ l ∈ ls, (0x0a : UInt8) ∉ l) (h' : (0x0a : UInt8) ∉ last) :
    getlines ((ls.flatMap (· ++ [0x0a])) ++ last) = ls ++ if last = [] then [] else [last] := by
  induction ls with
  | nil =>
    by_cases hl : last = []
    · subst hl; rfl
    · rw [if_neg hl]
      simpa using getlines_last last h' hl
  | cons l ls ih =>
    have : ((l :: ls).flatMap (· ++ [0x0a])) ++ last = l ++ 0x0a :: (ls.flatMap (· ++ [0x0a]) ++ last) := by simp
    rw [this, getlines_line _ _ (h l (by simp)), ih fun x hx => h x (by simp [hx])]
    rfl

open Classical in
/-- What the loop writes, line by line. -/
theorem filterLines_eq (file : Bytes) (before rest : List Bytes) (print : Bool) (hp : print = true ↔ Shown file before) :
    filterLines file print rest = (List.range rest.length).flatMap fun i => if Shown file (before ++ rest.take (i + 1)) then rest[i]?.getD [] ++ [0x0a] else [] := by
  induction rest generalizing before print with
  | nil => rfl
  | cons line rest ih =>
    rw [filterLines]
    have step : ∀ new : Bool, (new = true ↔ Shown file (before ++ [line])) →
        (if new = true then line ++ [0x0a] else []) ++ filterLines file new rest =
          (List.range (line :: rest).length).flatMap fun i => if Shown file (before ++ (line :: rest).take (i + 1)) then (line :: rest)[i]?.getD [] ++ [0x0a] else [] := by
      intro new hnew
      rw [ih (before ++ [line]) _ hnew, List.length_cons, List.range_succ_eq_map, List.flatMap_cons, List.flatMap_map]
      congr 1
      · have : before ++ (line :: rest).take (0 + 1) = before ++ [line] := by simp
        rw [this]
        by_cases hs : Shown file (before ++ [line])
        · rw [if_pos hs, if_pos (hnew.2 hs)]
          rfl
        · rw [if_neg hs, if_neg (fun h => hs (hnew.1 h))]
      · congr 1
        funext i
        have : before ++ [line] ++ rest.take (i + 1) = before ++ (line :: rest).take (i + 1 + 1) := by simp
        rw [this]
        rfl
    apply step
    unfold Shown
    rw [List.filterMap_append]
    cases hf : fullMatch fileWithTidy line with
    | some n =>
      have : [line].filterMap aboutOf = [n] := by simp [aboutOf_eq, hf]
      rw [this]
      simp only [List.getLast?_append, List.getLast?_singleton, Option.some_or, Option.some.injEq, decide_eq_true_eq]
      constructor
      · rintro rfl _ rfl; rfl
      · intro h; exact h n rfl
    | none =>
      have : [line].filterMap aboutOf = [] := by simp [aboutOf_eq, hf]
      rw [this, List.append_nil]
      exact hp

end Verif.Tidy
