import Verif.Proofs.Tidy.Include
/-! The file gatherer against its description. -/
namespace Verif.Tidy
open Verif.Spec.Tidy Re

/-! ## Directives -/

theorem directive_iff (l g text : Bytes) (path : Bytes) :
    Directive path text ↔ ∃ t, Derives includeRe ⟨l, text, g⟩ t ∧ t.group = path := by
  constructor
  · rintro ⟨ws, ws', rest, h1, h2, h3, ⟨stem, ext, hp, n1, n2, c2, c1⟩, ht⟩
    refine ⟨⟨(bytes!"#" ++ ws ++ bytes!"include" ++ ws' ++ bytes!"\"" ++ path ++ bytes!"\"").reverse ++ l, rest, path⟩,
      (includeRe_iff _ _).2 ⟨ws, ws', stem, ext, fun c hc => (isSpace_iff c).2 (h1 c hc), fun c hc => (isSpace_iff c).2 (h2 c hc), h3, n1, n2,
        fun c hc => (stemChar_iff c).2 (c1 c hc), fun c hc => (isLetter_iff c).2 (c2 c hc), hp, ht, rfl⟩, rfl⟩
  · rintro ⟨t, h, rfl⟩
    obtain ⟨ws, ws', stem, ext, h1, h2, h3, n1, n2, c1, c2, hg, hs, _⟩ := (includeRe_iff _ _).1 h
    exact ⟨ws, ws', t.rest, fun c hc => (isSpace_iff c).1 (h1 c hc), fun c hc => (isSpace_iff c).1 (h2 c hc), h3,
      ⟨stem, ext, hg, n1, n2, fun c hc => (isLetter_iff c).1 (c2 c hc), fun c hc => (stemChar_iff c).1 (c1 c hc)⟩, hs⟩

private theorem not_quote_stem : stemChar 0x22 = false := by decide
private theorem not_dot_stem : stemChar 0x2e = false := by decide
private theorem not_quote_letter : isLetter 0x22 = false := by decide

/-- Where the pattern ends is determined. -/
theorem includeRe_unique {s t t' : Pos} (h : Derives includeRe s t) (h' : Derives includeRe s t') : t = t' := by
  obtain ⟨ws, ws', stem, ext, h1, h2, h3, n1, n2, c1, c2, hg, hs, hl⟩ := (includeRe_iff _ _).1 h
  obtain ⟨xs, xs', stem', ext', k1, k2, k3, m1, m2, d1, d2, jg, js, jl⟩ := (includeRe_iff _ _).1 h'
  rw [hs] at js
  rw [hg, jg] at js
  have e1 : ws ++ 0x69 :: (bytes!"nclude" ++ ws' ++ bytes!"\"" ++ (stem ++ bytes!"." ++ ext) ++ bytes!"\"" ++ t.rest) =
      xs ++ 0x69 :: (bytes!"nclude" ++ xs' ++ bytes!"\"" ++ (stem' ++ bytes!"." ++ ext') ++ bytes!"\"" ++ t'.rest) := by
    simpa using js
  obtain ⟨f1, _, e2⟩ := span_unique h1 k1 (by decide) (by decide) e1
  have e3 : ws' ++ 0x22 :: ((stem ++ bytes!"." ++ ext) ++ bytes!"\"" ++ t.rest) = xs' ++ 0x22 :: ((stem' ++ bytes!"." ++ ext') ++ bytes!"\"" ++ t'.rest) := by
    simpa using e2
  obtain ⟨f2, _, e4⟩ := span_unique h2 k2 (by decide) (by decide) e3
  have e5 : stem ++ 0x2e :: (ext ++ bytes!"\"" ++ t.rest) = stem' ++ 0x2e :: (ext' ++ bytes!"\"" ++ t'.rest) := by simpa using e4
  obtain ⟨f3, _, e6⟩ := span_unique c1 d1 not_dot_stem not_dot_stem e5
  have e7 : ext ++ 0x22 :: t.rest = ext' ++ 0x22 :: t'.rest := by simpa using e6
  obtain ⟨f4, _, e8⟩ := span_unique c2 d2 not_quote_letter not_quote_letter e7
  have gg : t.group = t'.group := by rw [hg, jg, f3, f4]
  have ll : t.left = t'.left := by rw [hl, jl, f1, f2, gg]
  obtain ⟨a, b, c⟩ := t
  obtain ⟨a', b', c'⟩ := t'
  simp only at gg ll e8
  rw [gg, ll, e8]

theorem _root_.Verif.Spec.Tidy.Directive.unique {p p' text : Bytes} (h : Directive p text) (h' : Directive p' text) : p = p' := by
  obtain ⟨t, h1, rfl⟩ := (directive_iff [] [] text p).1 h
  obtain ⟨t', h2, rfl⟩ := (directive_iff [] [] text p').1 h'
  rw [includeRe_unique h1 h2]

theorem _root_.Verif.Spec.Tidy.Directive.head {p text : Bytes} (h : Directive p text) : ∃ r, text = 0x23 :: r := by
  obtain ⟨ws, ws', rest, _, _, _, _, rfl⟩ := h
  exact ⟨_, rfl⟩

/-- The directives of a text, in order. -/
def hits : Bytes → List Bytes
  | [] => []
  | c :: r => ((ways includeRe ⟨[], c :: r, []⟩).head?.map (·.group)).toList ++ hits r

theorem hits_cons_none {c : UInt8} {r : Bytes} (h : ∀ p, ¬ Directive p (c :: r)) : hits (c :: r) = hits r := by
  have : ways includeRe ⟨[], c :: r, []⟩ = [] := by
    rw [List.eq_nil_iff_forall_not_mem]
    intro t ht
    exact h t.group ((directive_iff [] [] _ _).2 ⟨t, (mem_ways _ _ _).1 ht, rfl⟩)
  rw [hits, this]
  rfl

theorem hits_cons_some {c : UInt8} {r p : Bytes} (h : Directive p (c :: r)) : hits (c :: r) = p :: hits r := by
  obtain ⟨t, h1, h2⟩ := (directive_iff [] [] _ _).1 h
  have : (ways includeRe ⟨[], c :: r, []⟩).head? = some t := by
    have hm := (mem_ways _ _ _).2 h1
    cases hw : ways includeRe ⟨[], c :: r, []⟩ with
    | nil => rw [hw] at hm; cases hm
    | cons u l =>
      have : u ∈ ways includeRe ⟨[], c :: r, []⟩ := by rw [hw]; simp
      rw [List.head?_cons, includeRe_unique ((mem_ways _ _ _).1 this) h1]
  rw [hits, this, ← h2]
  rfl

theorem hits_skip (b x : Bytes) (h : ∀ y z, y ++ z = b → z ≠ [] → ∀ p, ¬ Directive p (z ++ x)) : hits (b ++ x) = hits x := by
  induction b with
  | nil => rfl
  | cons c b ih =>
    rw [List.cons_append, hits_cons_none (c := c) (r := b ++ x) (h [] (c :: b) rfl (by simp))]
    exact ih fun y z e => h (c :: y) z (by rw [← e]; rfl)

theorem hits_iterate (n : Nat) (s : Pos) (hn : s.rest.length < n) : (iterate includeRe n s).map (·.2) = hits s.rest := by
  induction n generalizing s with
  | zero => omega
  | succ n ih =>
    rw [iterate]
    cases hs : search includeRe s.rest.length s with
    | none =>
      have : hits (s.rest ++ []) = hits [] := by
        apply hits_skip
        intro y z e hz p hd
        obtain ⟨t, ht, _⟩ := (directive_iff (y.reverse ++ s.left) s.group _ p).1 hd
        have := search_none (Nat.le_refl _) hs y z e
        have hm := (mem_ways includeRe (s.move y z) t).2 (by simpa [Pos.move] using ht)
        rw [this] at hm
        cases hm
      rw [List.append_nil] at this
      rw [this]
      rfl
    | some at' =>
      obtain ⟨a, t⟩ := at'
      obtain ⟨w, h1, h2, h3, h4⟩ := search_some hs
      have hd : Derives includeRe a t := (mem_ways _ _ _).1 (List.mem_of_mem_head? (by rw [h3]; rfl))
      obtain ⟨ws, ws', stem, ext, k1, k2, k3, n1, n2, c1, c2, hg, hr, hl⟩ := (includeRe_iff _ _).1 hd
      have e1 : hits s.rest = hits a.rest := by
        rw [h1]
        apply hits_skip
        intro y z e hz p hdir
        obtain ⟨u, hu, _⟩ := (directive_iff (y.reverse ++ s.left) s.group _ p).1 hdir
        have hm := (mem_ways includeRe (s.move y (z ++ a.rest)) u).2 (by simpa [Pos.move] using hu)
        rw [h4 y z e hz] at hm
        cases hm
      have e2 : hits a.rest = t.group :: hits (ws ++ bytes!"include" ++ ws' ++ bytes!"\"" ++ t.group ++ bytes!"\"" ++ t.rest) := by
        have hdir : Directive t.group a.rest := (directive_iff a.left a.group _ _).2 ⟨t, hd, rfl⟩
        have : a.rest = 0x23 :: (ws ++ bytes!"include" ++ ws' ++ bytes!"\"" ++ t.group ++ bytes!"\"" ++ t.rest) := by rw [hr]; simp
        rw [this] at hdir ⊢
        exact hits_cons_some hdir
      have e3 : hits (ws ++ bytes!"include" ++ ws' ++ bytes!"\"" ++ t.group ++ bytes!"\"" ++ t.rest) = hits t.rest := by
        apply hits_skip
        intro y z e hz p hdir
        obtain ⟨r, hr'⟩ := hdir.head
        have hmem : (0x23 : UInt8) ∈ ws ++ bytes!"include" ++ ws' ++ bytes!"\"" ++ t.group ++ bytes!"\"" := by
          cases z with
          | nil => exact absurd rfl hz
          | cons c z =>
            simp only [List.cons_append, List.cons.injEq] at hr'
            rw [← e, hr'.1]
            simp
        have q1 : (0x23 : UInt8) ∉ ws := fun h => by have := k1 _ h; revert this; decide
        have q2 : (0x23 : UInt8) ∉ ws' := fun h => by have := k2 _ h; revert this; decide
        have q3 : (0x23 : UInt8) ∉ stem := fun h => by have := c1 _ h; revert this; decide
        have q4 : (0x23 : UInt8) ∉ ext := fun h => by have := c2 _ h; revert this; decide
        rw [hg] at hmem
        simp [q1, q2, q3, q4] at hmem
      simp only [List.map_cons]
      rw [ih _ (by
        have := congrArg List.length h1
        have h5 := congrArg List.length hr
        simp only [List.length_append, List.length_cons, List.length_nil] at this h5 ⊢
        omega), e1, e2, e3]

theorem findAll_include (text : Bytes) : (findAll includeRe text).map (·.2) = hits text := hits_iterate _ _ (by simp)

open Classical in
theorem includes_eq (name text : Bytes) : includes name text = ((hits text).filter fun p => filename p = name).length := by
  induction text with
  | nil => rfl
  | cons c r ih =>
    rw [includes, ih]
    by_cases h : ∃ p, Directive p (c :: r)
    · obtain ⟨p, h⟩ := h
      rw [hits_cons_some h, List.filter_cons]
      by_cases hn : filename p = name
      · rw [if_pos ⟨p, h, hn⟩]
        simp [hn]
        omega
      · rw [if_neg]
        · simp [hn]
        · rintro ⟨q, hq, hn'⟩
          rw [hq.unique h] at hn'
          exact hn hn'
    · rw [hits_cons_none fun p hp => h ⟨p, hp⟩, if_neg]
      · simp
      · rintro ⟨q, hq, _⟩
        exact h ⟨q, hq⟩

/-! ## Endings -/

private theorem takeWhile_append_of_mem {p : UInt8 → Bool} {a b : Bytes} (ha : ∀ c ∈ a, p c = true) : (a ++ b).takeWhile p = a ++ b.takeWhile p := by
  induction a with
  | nil => rfl
  | cons c a ih => simp [ha c (by simp), ih fun d hd => ha d (by simp [hd])]

private theorem tail_of_dot {stem t : Bytes} (ht : ∀ c ∈ t, c ≠ 0x2e) :
    ((stem ++ 0x2e :: t).reverse.takeWhile (· ≠ 0x2e)).reverse = t := by
  have : (stem ++ 0x2e :: t).reverse = t.reverse ++ (0x2e :: stem.reverse) := by simp
  rw [this, takeWhile_append_of_mem (fun c hc => by simpa using ht c (by simpa using hc))]
  simp

theorem extension_eq_iff (path t : Bytes) (ht : ∀ c ∈ t, c ≠ 0x2e) (hne : t ≠ []) :
    extension path = 0x2e :: t ↔ ∃ stem, stem ≠ [] ∧ filename path = stem ++ 0x2e :: t := by
  unfold extension
  simp only
  generalize filename path = name
  constructor
  · intro h
    split at h
    · cases h
    · split at h
      · rename_i hl
        simp only [List.cons.injEq, true_and] at h
        rw [h] at hl
        -- the character before the tail is a dot
        have hsplit := List.takeWhile_append_dropWhile (p := fun c : UInt8 => decide (c ≠ 0x2e)) (l := name.reverse)
        have hrev : name.reverse.takeWhile (fun c : UInt8 => decide (c ≠ 0x2e)) = t.reverse := by rw [← h, List.reverse_reverse]
        rw [hrev] at hsplit
        cases hd : name.reverse.dropWhile (fun c : UInt8 => decide (c ≠ 0x2e)) with
        | nil =>
          rw [hd] at hsplit
          have := congrArg List.length hsplit
          simp at this
          omega
        | cons c u =>
          have hc : c = 0x2e := by
            have := List.head_dropWhile_not (fun c : UInt8 => decide (c ≠ 0x2e)) (l := name.reverse) (by rw [hd]; simp)
            simp only [hd, List.head_cons] at this
            simpa using this
          rw [hd, hc] at hsplit
          have e : name = u.reverse ++ 0x2e :: t := by
            have := congrArg List.reverse hsplit
            simpa using this.symm
          refine ⟨u.reverse, ?_, e⟩
          intro h0
          rw [e, h0] at hl
          simp at hl
      · cases h
  · rintro ⟨stem, hs, rfl⟩
    rw [if_neg, tail_of_dot ht, if_pos]
    · have := List.length_pos_iff.2 hs
      simp
      omega
    · intro h
      have hl := congrArg List.length h
      have h1 := List.length_pos_iff.2 hs
      have h2 := List.length_pos_iff.2 hne
      simp at hl
      omega

theorem ends_iff (path : Bytes) (tails : List Bytes) (ht : ∀ t ∈ tails, t ≠ [] ∧ ∀ c ∈ t, c ≠ 0x2e) :
    Ends path (tails.map (0x2e :: ·)) ↔ ∃ t ∈ tails, extension path = 0x2e :: t := by
  constructor
  · rintro ⟨stem, e, he, hs, hf⟩
    obtain ⟨t, h1, rfl⟩ := List.mem_map.1 he
    exact ⟨t, h1, (extension_eq_iff path t (ht t h1).2 (ht t h1).1).2 ⟨stem, hs, hf⟩⟩
  · rintro ⟨t, h1, h2⟩
    obtain ⟨stem, hs, hf⟩ := (extension_eq_iff path t (ht t h1).2 (ht t h1).1).1 h2
    exact ⟨stem, _, List.mem_map.2 ⟨t, h1, rfl⟩, hs, hf⟩

theorem isInclude_iff (path : Bytes) : isIncludeExtension (extension path) = true ↔ Ends path headerEndings := by
  have : headerEndings = ([bytes!"h", bytes!"hpp", bytes!"hxx", bytes!"inl"] : List Bytes).map (0x2e :: ·) := rfl
  rw [this, ends_iff _ _ (by decide)]
  unfold isIncludeExtension
  simp [or_assoc]

theorem consider_iff (path : Bytes) : considerExtension (extension path) = true ↔ Ends path (sourceEndings ++ headerEndings) := by
  have : sourceEndings ++ headerEndings = ([bytes!"cc", bytes!"cpp", bytes!"cxx", bytes!"h", bytes!"hpp", bytes!"hxx", bytes!"inl"] : List Bytes).map (0x2e :: ·) := rfl
  rw [this, ends_iff _ _ (by decide)]
  unfold considerExtension isIncludeExtension
  simp [or_assoc]

/-! ## Excluded paths -/

theorem derives_word (c : UInt8) (l : Bytes) (s t : Pos) : Derives (word (c :: l)) s t ↔ s.rest = (c :: l) ++ t.rest ∧ t = s.move (c :: l) t.rest := by
  induction l generalizing c s with
  | nil =>
    rw [show word [c] = chr c from rfl, derives_chr]
    rfl
  | cons d l ih =>
    rw [show word (c :: d :: l) = .seq (chr c) (word (d :: l)) from rfl, derives_seq]
    constructor
    · rintro ⟨u, h1, h2⟩
      obtain ⟨e1, f1⟩ := derives_chr.1 h1
      obtain ⟨e2, f2⟩ := (ih _ _).1 h2
      refine ⟨by rw [e1, e2]; rfl, ?_⟩
      rw [f2, f1]
      simp [Pos.move]
    · rintro ⟨e, f⟩
      refine ⟨s.move [c] ((d :: l) ++ t.rest), derives_chr.2 ⟨by rw [e]; rfl, rfl⟩, (ih _ _).2 ⟨rfl, ?_⟩⟩
      rw [f]
      simp [Pos.move]

theorem excludeRe_iff (s t : Pos) : Derives excludeRe s t ↔ s.left = [] ∧
    (t = s.move bytes!".git/" t.rest ∧ s.rest = bytes!".git/" ++ t.rest ∨
     t = s.move bytes!".github/" t.rest ∧ s.rest = bytes!".github/" ++ t.rest ∨
     t = s.move bytes!"build/" t.rest ∧ s.rest = bytes!"build/" ++ t.rest) := by
  unfold excludeRe
  simp only [all, derives_seq, derives_bol, derives_alt, derives_word, derives_chr]
  constructor
  · rintro ⟨u, ⟨hl, rfl⟩, v, h, e, f⟩
    refine ⟨hl, ?_⟩
    rcases h with ⟨e1, f1⟩ | ⟨e1, f1⟩ | ⟨e1, f1⟩
    · exact Or.inl ⟨by rw [f, f1]; simp [Pos.move], by rw [e1, e]; simp⟩
    · exact Or.inr (Or.inl ⟨by rw [f, f1]; simp [Pos.move], by rw [e1, e]; simp⟩)
    · exact Or.inr (Or.inr ⟨by rw [f, f1]; simp [Pos.move], by rw [e1, e]; simp⟩)
  · rintro ⟨hl, h⟩
    refine ⟨s, ⟨hl, rfl⟩, ?_⟩
    rcases h with ⟨f, e⟩ | ⟨f, e⟩ | ⟨f, e⟩
    · exact ⟨s.move bytes!".git" (0x2f :: t.rest), Or.inl ⟨by rw [e]; rfl, rfl⟩, rfl, by rw [f]; simp [Pos.move]⟩
    · exact ⟨s.move bytes!".github" (0x2f :: t.rest), Or.inr (Or.inl ⟨by rw [e]; rfl, rfl⟩), rfl, by rw [f]; simp [Pos.move]⟩
    · exact ⟨s.move bytes!"build" (0x2f :: t.rest), Or.inr (Or.inr ⟨by rw [e]; rfl, rfl⟩), rfl, by rw [f]; simp [Pos.move]⟩

theorem excluded_iff (path : Bytes) : (search excludeRe path.length ⟨[], path, []⟩).isSome = true ↔ Excluded path := by
  constructor
  · intro h
    obtain ⟨⟨a, t⟩, h⟩ := Option.isSome_iff_exists.1 h
    obtain ⟨w, h1, h2, h3, _⟩ := search_some h
    have hd : Derives excludeRe a t := (mem_ways _ _ _).1 (List.mem_of_mem_head? (by rw [h3]; rfl))
    obtain ⟨hl, hd⟩ := (excludeRe_iff _ _).1 hd
    have hw : w = [] := by
      rw [h2] at hl
      simpa [Pos.move] using hl
    have hp : path = a.rest := by rw [hw] at h1; exact h1
    refine ⟨t.rest, ?_⟩
    rw [hp]
    rcases hd with h | h | h
    · exact Or.inl h.2
    · exact Or.inr (Or.inl h.2)
    · exact Or.inr (Or.inr h.2)
  · rintro ⟨r, h⟩
    rw [Option.isSome_iff_ne_none]
    intro hn
    have h0 := search_none (s := ⟨[], path, []⟩) (Nat.le_refl _) hn [] path rfl
    obtain ⟨w, hw⟩ : ∃ w, path = w ++ r ∧ Derives excludeRe ((⟨[], path, []⟩ : Pos).move [] path) ((⟨[], path, []⟩ : Pos).move w r) := by
      rcases h with h | h | h
      · exact ⟨_, h, (excludeRe_iff _ _).2 ⟨rfl, Or.inl ⟨by simp [Pos.move], h⟩⟩⟩
      · exact ⟨_, h, (excludeRe_iff _ _).2 ⟨rfl, Or.inr (Or.inl ⟨by simp [Pos.move], h⟩)⟩⟩
      · exact ⟨_, h, (excludeRe_iff _ _).2 ⟨rfl, Or.inr (Or.inr ⟨by simp [Pos.move], h⟩)⟩⟩
    have := (mem_ways _ _ _).2 hw.2
    rw [h0] at this
    cases this

/-! ## Keys -/

theorem xorAll_append (a b : List (BitVec 64)) : xorAll (a ++ b) = xorAll a ^^^ xorAll b := by
  induction a with
  | nil => simp [xorAll]
  | cons x a ih =>
    have : ∀ (y : BitVec 64) l, xorAll (y :: l) = y ^^^ xorAll l := fun _ _ => rfl
    rw [List.cons_append, this, this, ih, BitVec.xor_assoc]

theorem xorAll_cons (x : BitVec 64) (l : List (BitVec 64)) : xorAll (x :: l) = x ^^^ xorAll l := rfl

theorem xorAll_replicate (n : Nat) (x : BitVec 64) : xorAll (List.replicate n x) = if n % 2 = 1 then x else 0 := by
  induction n with
  | zero => rfl
  | succ n ih =>
    rw [List.replicate_succ, xorAll_cons, ih]
    by_cases h : n % 2 = 1
    · rw [if_pos h, if_neg (by omega)]; simp
    · rw [if_neg h, if_pos (by omega)]; simp

theorem xorAll_perm {a b : List (BitVec 64)} (h : a.Perm b) : xorAll a = xorAll b := by
  induction h with
  | nil => rfl
  | cons x _ ih => rw [xorAll_cons, xorAll_cons, ih]
  | swap x y l =>
    rw [xorAll_cons, xorAll_cons, xorAll_cons, xorAll_cons, ← BitVec.xor_assoc, ← BitVec.xor_assoc, BitVec.xor_comm y x]
  | trans _ _ ih ih' => rw [ih, ih']

/-- The number under a key, 0 if there is none. -/
def look (m : List (Bytes × BitVec 64)) (k : Bytes) : BitVec 64 := ((m.find? fun e => e.1 = k).map (·.2)).getD 0

theorem look_xorAt (m : List (Bytes × BitVec 64)) (k k' : Bytes) (v : BitVec 64) :
    look (xorAt m k v) k' = if k = k' then look m k' ^^^ v else look m k' := by
  induction m with
  | nil =>
    simp only [xorAt, look, List.find?_cons, List.find?_nil]
    by_cases h : k = k'
    · simp [h]
    · simp [h]
  | cons e m ih =>
    rw [xorAt]
    by_cases he : e.1 = k
    · rw [if_pos he]
      by_cases h : k = k'
      · subst h
        simp [look, he]
      · have : e.1 ≠ k' := he ▸ h
        simp [look, h, this]
    · rw [if_neg he]
      by_cases h' : e.1 = k'
      · have : k ≠ k' := fun h => he (h'.trans h.symm)
        simp [look, h', this]
      · have e1 : ∀ m', look (e :: m') k' = look m' k' := fun m' => by simp [look, h']
        rw [e1, e1, ih]

/-- What the first loop has when it is done. -/
theorem gather_spec (hash : Bytes → BitVec 64) (tree : List (Bytes × Option Bytes)) (files : List (Bytes × Bytes)) (headers : List (Bytes × BitVec 64)) :
    (gather hash tree (files, headers)).1 = files ++ filesOf (sourceEndings ++ headerEndings) tree ∧
    ∀ k, look (gather hash tree (files, headers)).2 k =
      look headers k ^^^ xorAll (((filesOf headerEndings tree).filter fun h => filename h.1 = k).map fun h => hash h.2) := by
  induction tree generalizing files headers with
  | nil => simp [gather, filesOf, xorAll]
  | cons e tree ih =>
    obtain ⟨path, c⟩ := e
    have cons_eq : ∀ ends, filesOf ends ((path, c) :: tree) = (filesOf ends [(path, c)]) ++ filesOf ends tree := by
      intro ends
      rw [← List.singleton_append]
      unfold filesOf
      rw [List.filterMap_append]
    cases c with
    | none =>
      have hn : ∀ ends, filesOf ends [(path, none)] = [] := fun ends => by
        simp [filesOf]
      rw [cons_eq, cons_eq, hn, hn]
      exact ih files headers
    | some content =>
      rw [cons_eq, cons_eq]
      rw [gather]
      by_cases hx : Excluded path
      · rw [if_pos ((excluded_iff path).2 hx)]
        have hn : ∀ ends, filesOf ends [(path, some content)] = [] := fun ends => by
          simp [filesOf, hx]
        rw [hn, hn]
        exact ih files headers
      · rw [if_neg fun h => hx ((excluded_iff path).1 h)]
        have hy : ∀ ends, Ends path ends → filesOf ends [(path, some content)] = [(path, content)] := fun ends h => by
          simp [filesOf, hx, h]
        have hn : ∀ ends, ¬ Ends path ends → filesOf ends [(path, some content)] = [] := fun ends h => by
          simp [filesOf, h]
        simp only
        constructor
        · rw [(ih _ _).1]
          by_cases h : Ends path (sourceEndings ++ headerEndings)
          · rw [if_pos ((consider_iff path).2 h), hy _ h, List.append_assoc]
          · rw [if_neg (fun h' => h ((consider_iff path).1 h')), hn _ h]
            rfl
        · intro k
          rw [(ih _ _).2 k]
          by_cases h : Ends path headerEndings
          · rw [if_pos ((isInclude_iff path).2 h), hy _ h, look_xorAt]
            by_cases hk : filename path = k
            · simp [hk, xorAll_cons, BitVec.xor_assoc]
            · simp [hk]
          · rw [if_neg (fun h' => h ((isInclude_iff path).1 h')), hn _ h]
            rfl

private theorem foldl_xor (f : Bytes → BitVec 64) (l : List Bytes) (x : BitVec 64) : l.foldl (fun h p => h ^^^ f p) x = x ^^^ xorAll (l.map f) := by
  induction l generalizing x with
  | nil => simp [xorAll]
  | cons p l ih => rw [List.foldl_cons, ih, List.map_cons, xorAll_cons, BitVec.xor_assoc]

private theorem xorAll_map_xor {α : Type} (f g : α → BitVec 64) (l : List α) : xorAll (l.map fun a => f a ^^^ g a) = xorAll (l.map f) ^^^ xorAll (l.map g) := by
  induction l with
  | nil => simp [xorAll]
  | cons a l ih =>
    simp only [List.map_cons, xorAll_cons]
    rw [ih, BitVec.xor_assoc, BitVec.xor_assoc, ← BitVec.xor_assoc (g a), BitVec.xor_comm (g a), BitVec.xor_assoc]

/-- Sums over pairs in either order. -/
private theorem exchange (hash : Bytes → BitVec 64) (H : List (Bytes × Bytes)) (ps : List Bytes) :
    xorAll (ps.map fun p => xorAll ((H.filter fun h => filename h.1 = filename p).map fun h => hash h.2)) =
    xorAll ((H.filter fun h => (ps.filter fun p => filename p = filename h.1).length % 2 = 1).map fun h => hash h.2) := by
  induction H with
  | nil =>
    induction ps with
    | nil => rfl
    | cons p ps ih =>
      rw [List.map_cons, xorAll_cons]
      simp only [List.filter_nil, List.map_nil] at ih ⊢
      rw [ih]
      rfl
  | cons h H ih =>
    have e1 : (ps.map fun p => xorAll (((h :: H).filter fun h => filename h.1 = filename p).map fun h => hash h.2)) =
        ps.map fun p => (if filename h.1 = filename p then hash h.2 else 0) ^^^ xorAll ((H.filter fun h => filename h.1 = filename p).map fun h => hash h.2) := by
      apply List.map_congr_left
      intro p _
      by_cases hp : filename h.1 = filename p
      · rw [List.filter_cons_of_pos (by simpa using hp), List.map_cons, xorAll_cons, if_pos hp]
      · rw [List.filter_cons_of_neg (by simpa using hp), if_neg hp]
        simp
    rw [e1, xorAll_map_xor, ih]
    have e2 : xorAll (ps.map fun p => if filename h.1 = filename p then hash h.2 else 0) =
        if (ps.filter fun p => filename p = filename h.1).length % 2 = 1 then hash h.2 else 0 := by
      rw [← xorAll_replicate]
      clear e1 ih
      induction ps with
      | nil => rfl
      | cons p ps ih =>
        rw [List.map_cons, xorAll_cons, ih]
        by_cases hp : filename h.1 = filename p
        · rw [if_pos hp, List.filter_cons_of_pos (by simpa using hp.symm), List.length_cons, List.replicate_succ, xorAll_cons]
        · rw [if_neg hp, List.filter_cons_of_neg (by simpa using fun h => hp h.symm)]
          simp
    rw [e2]
    by_cases hodd : (ps.filter fun p => filename p = filename h.1).length % 2 = 1
    · rw [if_pos hodd, List.filter_cons_of_pos (by simpa using hodd), List.map_cons, xorAll_cons]
    · rw [if_neg hodd, List.filter_cons_of_neg (by simpa using hodd)]
      simp

theorem workHash_eq (hash : Bytes → BitVec 64) (m : List (Bytes × BitVec 64)) (content : Bytes) :
    workHash hash m content = hash content ^^^ xorAll ((hits content).map fun p => look m (filename p)) := by
  rw [← foldl_xor (fun p => look m (filename p)), ← findAll_include]
  unfold workHash
  generalize hash content = x
  generalize findAll includeRe content = l
  induction l generalizing x with
  | nil => rfl
  | cons e l ih =>
    rw [List.foldl_cons, ih, List.map_cons, List.foldl_cons]
    congr 1
    unfold look
    cases m.find? fun e' => e'.1 = filename e.2 with
    | none => simp
    | some e => simp

theorem workHash_eq_key (hash : Bytes → BitVec 64) (tree : List (Bytes × Option Bytes)) (content : Bytes) :
    workHash hash (gather hash tree ([], [])).2 content = key hash tree content := by
  have hl := (gather_spec hash tree [] []).2
  rw [workHash_eq]
  unfold key
  congr 1
  have e2 : ∀ p, look (gather hash tree ([], [])).2 (filename p) =
      xorAll (((filesOf headerEndings tree).filter fun h => filename h.1 = filename p).map fun h => hash h.2) := by
    intro p
    rw [hl]
    simp [look]
  rw [List.map_congr_left fun p _ => e2 p, exchange]
  congr 2
  apply List.filter_congr
  intro h _
  rw [includes_eq]

/-- The files of interest and their keys. -/
theorem filesOfInterest_eq (hash : Bytes → BitVec 64) (tree : List (Bytes × Option Bytes)) :
    filesOfInterest hash tree = (filesOf (sourceEndings ++ headerEndings) tree).map fun f => ⟨f.1, key hash tree f.2⟩ := by
  unfold filesOfInterest
  have h := (gather_spec hash tree [] []).1
  simp only [List.nil_append] at h
  simp only
  rw [h]
  apply List.map_congr_left
  intro f _
  rw [workHash_eq_key]

end Verif.Tidy
