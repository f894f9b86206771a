import Verif.Model.MappedFile
import Verif.Props.C35_C40
/-! # C65: reading files -/
namespace Verif.Props
open Verif.Db Verif.Spec Verif.Text

/-- The program's view of files is that of a disk: nothing for paths that cannot be opened, else content and the byte
behind it.  Nothing is said about directories. -/
def OnDisk (disk : Path → Node) (env : Env) : Prop :=
  ∀ p, (disk p = .missing → env.read p = none) ∧
    ∀ m, memoryMapFile (disk p) = .ok m → ∀ v, m.view = .ok v → env.read p = some v

theorem mapM_byte (d : Bytes) : ∀ (l : List Nat) (m : Mapping), m.data = some d → (∀ i ∈ l, i < d.length) →
    l.mapM m.byte = .ok (l.map fun i => d[i]?.getD 0) := by
  intro l m hm
  induction l with
  | nil => intro _; rfl
  | cons i l ih =>
    intro h
    rw [List.mapM_cons, ih fun j hj => h j (List.mem_cons_of_mem _ hj)]
    have hi := h i List.mem_cons_self
    have : m.byte i = .ok (d[i]?.getD 0) := by
      unfold Mapping.byte
      rw [hm, Option.bind_some, List.getElem?_eq_getElem hi]
      rfl
    rw [this]
    rfl

theorem map_range_getD (c : Bytes) : ∀ (e : Bytes), ((List.range c.length).map fun i => (c ++ e)[i]?.getD 0) = c := by
  intro e
  apply List.ext_getElem
  · simp
  · intro i h1 h2
    simp only [List.getElem_map, List.getElem_range]
    rw [List.getElem?_append_left h2, List.getElem?_eq_getElem h2]
    rfl

/-- A path that cannot be opened is an error. -/
theorem C65_missing (n : Node) : memoryMapFile n = .err ↔ n = .missing := by
  unfold memoryMapFile
  cases n <;> simp [Node.opens]

/-- A regular file: the view is its content; the byte behind can be read — and is 0 — exactly when the length is not
a multiple of the page size. -/
theorem C65_regular (content : Bytes) : ∃ m, memoryMapFile (.regular content) = .ok m ∧
    m.view = .ok (content, if content.length % 4096 = 0 then none else some 0) := by
  refine ⟨_, rfl, ?_⟩
  by_cases h0 : content.length = 0
  · have : content = [] := List.eq_nil_of_length_eq_zero h0
    subst this
    rfl
  · unfold Mapping.view Mapping.bytes
    rw [mapM_byte (content ++ List.replicate ((4096 - content.length % 4096) % 4096) 0) _ _
      (show (Node.regular content).mmap content.length = _ from if_neg h0)]
    · rw [Outcome.bind_ok]
      show Outcome.ok (_, _) = _
      dsimp only [Node.statSize]
      rw [map_range_getD]
      congr 2
      rw [show (Node.regular content).mmap content.length =
        some (content ++ List.replicate ((4096 - content.length % 4096) % 4096) 0) from if_neg h0]
      unfold Mapping.byte
      dsimp only
      rw [Option.bind_some, List.getElem?_append_right (Nat.le_refl _), Nat.sub_self, List.getElem?_replicate]
      by_cases hp : content.length % 4096 = 0
      · rw [if_pos hp, hp, if_neg (by decide)]
      · rw [if_neg hp, if_pos (by omega)]
    · intro i hi
      have := List.mem_range.1 hi
      dsimp only [Node.statSize] at this
      rw [List.length_append]
      omega

/-- Defect: a directory in place of a file is not reported — unless it has size 0, where it counts as an empty file,
reading it crashes. -/
theorem C65_directory (size : Nat) : ∃ m, memoryMapFile (.directory size) = .ok m ∧
    m.view = if size = 0 then .ok ([], none) else .ub := by
  refine ⟨_, rfl, ?_⟩
  cases size with
  | zero => rfl
  | succ n =>
    rw [if_neg (by omega)]
    unfold Mapping.view Mapping.bytes
    dsimp only [Node.statSize]
    rw [List.range_succ_eq_map, List.mapM_cons]
    rfl

/-! ## Texts without a final newline -/

/-- Nothing behind the text can be read: the lines are delivered, except that the last one, if not terminated, crashes. -/
theorem gen_none_ub {σ : Type} (sink : σ → Nat → Bytes → Outcome σ)
    (hok : ∀ l st n, (∃ s, sink st n l = .ok s) ∨ sink st n l = .err) (content : Bytes) (st : σ) :
    (linesGenerator none content sink st = .ub ↔ ∃ init last, content = unlines init ++ last ∧ last ≠ [] ∧
      (∀ l ∈ init ++ [last], 0x0a ∉ l) ∧ ∃ s, linesGenerator (some 0) (unlines init) sink st = .ok s) ∧
    (linesGenerator none content sink st ≠ .ub → linesGenerator none content sink st = linesGenerator (some 0) content sink st) := by
  obtain ⟨ls, hls⟩ := linesOf_exists content
  have hls' := hls
  obtain ⟨hnl, hc⟩ := hls
  have hnub : ∀ ls, feed sink 0 ls st ≠ .ub := by
    intro ls e
    rcases feed_cases sink hok ls 0 st with ⟨s, hs⟩ | hs
    · rw [hs] at e; cases e
    · rw [hs] at e; cases e
  rcases hc with rfl | ⟨init, last, rfl, hne, rfl⟩
  · rw [linesGenerator_terminated none sink ls hnl]
    refine ⟨⟨fun h => absurd h (hnub ls), ?_⟩, fun _ => (linesGenerator_terminated _ sink ls hnl st).symm⟩
    rintro ⟨init, last, he, hne, hnl2, _⟩
    have h2 : LinesOf (unlines ls) (init ++ [last]) := ⟨hnl2, Or.inr ⟨init, last, rfl, hne, he⟩⟩
    have h3 : LinesOf (unlines ls) ls := hls'
    exfalso
    have hlast : (unlines ls).getLast? = last.getLast? := by
      rw [he, List.getLast?_append]
      cases hl : last.getLast? with
      | none => exact absurd (List.getLast?_eq_none_iff.1 hl) hne
      | some c => rfl
    have hmem : ∀ c, last.getLast? = some c → c ∈ last := fun c h => List.mem_of_getLast? h
    cases hl : last.getLast? with
    | none => exact hne (List.getLast?_eq_none_iff.1 hl)
    | some c =>
      have hc : c = 0x0a := by
        rw [hl] at hlast
        rcases List.eq_nil_or_concat ls with rfl | ⟨l0, x, rfl⟩
        · cases hlast
        · unfold unlines at hlast
          rw [List.concat_eq_append, List.flatMap_append, List.flatMap_cons, List.flatMap_nil, List.append_nil, List.getLast?_append] at hlast
          simp at hlast
          exact hlast.symm
      exact hnl2 last (by simp) (hc ▸ hmem c hl)
  · have hinit : ∀ l ∈ init, (0x0a : UInt8) ∉ l := fun l hl => hnl l (by simp [hl])
    rcases feed_cases sink hok init 0 st with ⟨s, hs⟩ | hs
    · have hub := linesGenerator_overread sink init last hne hnl st s hs
      refine ⟨⟨fun _ => ⟨init, last, rfl, hne, hnl, s, by rw [linesGenerator_terminated _ sink init hinit, hs]⟩, fun _ => hub⟩,
        fun h => absurd hub h⟩
    · have herr : linesGenerator none (unlines init ++ last) sink st = .err := by
        unfold linesGenerator
        obtain ⟨f', hf', h⟩ := linesLoop_unlines none sink init last hinit (unlines init ++ last).length 0 st (Nat.le_refl _)
        rw [show (0 : Nat) = 0 % 2 ^ 32 from rfl, h]
        show (feed sink 0 init st >>= _) = _
        rw [hs]; rfl
      rw [herr]
      refine ⟨⟨by intro h; (cases h), ?_⟩, fun _ => ?_⟩
      · rintro ⟨init', last', he, hne', hnl', s, hs'⟩
        have := C35_lines_unique _ _ _ hls' ⟨hnl', Or.inr ⟨init', last', rfl, hne', he⟩⟩
        obtain ⟨rfl, _⟩ := List.append_inj' this rfl
        rw [linesGenerator_terminated _ sink init hinit, hs] at hs'
        cases hs'
      · rw [linesGenerator_lines 0 sink _ _ hls']
        have : ∀ (a b : List Bytes) n st, feed sink n a st = .err → feed sink n (a ++ b) st = .err := by
          intro a
          induction a with
          | nil => intro b n st h; cases h
          | cons x xs ih =>
            intro b n st h
            simp only [feed, List.cons_append] at h ⊢
            cases hx : sink st ((n + 1) % 2 ^ 32) x with
            | ok s =>
              rw [hx] at h
              rw [Outcome.bind_ok] at h ⊢
              exact ih b _ _ h
            | err => rfl
            | abort => rw [hx] at h; cases h
            | ub => rw [hx] at h; cases h
        exact (this init [last] 0 st hs).symm

/-- The text a parser gets when the last line is left out. -/
def CutLine (content init : Bytes) : Prop :=
  ∃ ls last, init = unlines ls ∧ content = init ++ last ∧ last ≠ [] ∧ 0x0a ∉ last ∧ ∀ l ∈ ls, 0x0a ∉ l

/-- A parser of files whose lines it handles one by one. -/
def Lined {α : Type} (parse : Option UInt8 → Bytes → Outcome α) : Prop :=
  ∃ (sink : α → Nat → Bytes → Outcome α) (st : α), (∀ l st n, (∃ s, sink st n l = .ok s) ∨ sink st n l = .err) ∧
    ∀ after content, parse after content = if content = [] then .ok st else linesGenerator after content sink st

theorem ppipLine_cases (out : PseudoPIPs) (n : Nat) (l : Bytes) : (∃ s, ppipLine out n l = .ok s) ∨ ppipLine out n l = .err := by
  unfold ppipLine
  split
  · exact Or.inl ⟨_, rfl⟩
  · split
    · rename_i name t _
      rcases (by unfold ppipType; repeat' split
                 all_goals first | exact Or.inl ⟨_, rfl⟩ | exact Or.inr rfl :
        (∃ x, ppipType t = .ok x) ∨ ppipType t = .err) with ⟨x, hx⟩ | hx
      · rw [hx]; exact Or.inl ⟨_, rfl⟩
      · rw [hx]; exact Or.inr rfl
    · exact Or.inr rfl

theorem segmentBit_cases (b : Bytes) : (∃ s, segmentBit b = .ok s) ∨ segmentBit b = .err := by
  unfold segmentBit
  dsimp only
  repeat' split
  all_goals first | exact Or.inl ⟨_, rfl⟩ | exact Or.inr rfl

theorem mapM_segmentBit_cases : ∀ (l : List Bytes), (∃ s, l.mapM segmentBit = .ok s) ∨ l.mapM segmentBit = .err := by
  intro l
  induction l with
  | nil => exact Or.inl ⟨_, rfl⟩
  | cons x xs ih =>
    rw [List.mapM_cons]
    rcases segmentBit_cases x with ⟨s, hs⟩ | hs
    · rw [hs]
      rcases ih with ⟨t, ht⟩ | ht
      · rw [ht]; exact Or.inl ⟨_, rfl⟩
      · rw [ht]; exact Or.inr rfl
    · rw [hs]; exact Or.inr rfl

theorem segbitsLine_cases (junk : Bytes → Nat) (out : SegmentsBits) (n : Nat) (l : Bytes) :
    (∃ s, segbitsLine junk out n l = .ok s) ∨ segbitsLine junk out n l = .err := by
  unfold segbitsLine
  split
  · exact Or.inl ⟨_, rfl⟩
  · exact Or.inr rfl
  · rename_i name bits _ _
    rcases mapM_segmentBit_cases bits with ⟨s, hs⟩ | hs
    · rw [hs]; exact Or.inl ⟨_, rfl⟩
    · rw [hs]; exact Or.inr rfl

theorem lined_pips : Lined parsePseudoPIPs := ⟨ppipLine, [], fun l st n => ppipLine_cases st n l, fun _ _ => rfl⟩
theorem lined_segbits (junk : Bytes → Nat) : Lined (parseSegmentsBits junk) :=
  ⟨segbitsLine junk, [], fun l st n => segbitsLine_cases junk st n l, fun _ _ => rfl⟩
theorem lined_pins : Lined parsePackagePins := ⟨csvLine, [], fun l st n => csvLine_cases st n l, fun _ _ => rfl⟩

theorem lined_crash {α : Type} {parse : Option UInt8 → Bytes → Outcome α} (hl : Lined parse) (content : Bytes) :
    (parse none content = .ub ↔ ∃ init s, CutLine content init ∧ parse (some 0) init = .ok s) ∧
    (parse none content ≠ .ub → parse none content = parse (some 0) content) ∧
    parse (some 0) content ≠ .ub := by
  obtain ⟨sink, st, hok, hp⟩ := hl
  have hempty : ∀ a, linesGenerator a [] sink st = .ok st := fun a => rfl
  have hp2 : ∀ after content, parse after content = linesGenerator after content sink st := by
    intro after content
    rw [hp]
    split
    · rename_i h; rw [h, hempty]
    · rfl
  rw [hp2, hp2]
  obtain ⟨h1, h2⟩ := gen_none_ub sink hok content st
  refine ⟨?_, h2, ?_⟩
  · rw [h1]
    constructor
    · rintro ⟨init, last, he, hne, hnl, s, hs⟩
      exact ⟨unlines init, s, ⟨init, last, rfl, he, hne, hnl last (by simp), fun l hl => hnl l (by simp [hl])⟩, by rw [hp2]; exact hs⟩
    · rintro ⟨_, s, ⟨ls, last, rfl, he, hne, h3, h4⟩, hs⟩
      refine ⟨ls, last, he, hne, ?_, s, by rw [hp2] at hs; exact hs⟩
      intro l hl
      rcases List.mem_append.1 hl with hl | hl
      · exact h4 l hl
      · rw [List.mem_singleton.1 hl]; exact h3
  · obtain ⟨ls, hls⟩ := linesOf_exists content
    rw [linesGenerator_lines 0 sink content ls hls]
    intro e
    rcases feed_cases sink hok ls 0 st with ⟨s, hs⟩ | hs
    · rw [hs] at e; cases e
    · rw [hs] at e; cases e

theorem read_regular {disk : Path → Node} {env : Env} (h : OnDisk disk env) {p : Path} {content : Bytes}
    (hp : disk p = .regular content) : env.read p = some (content, if content.length % 4096 = 0 then none else some 0) := by
  obtain ⟨m, hm, hv⟩ := C65_regular content
  exact (h p).2 m (by rw [hp]; exact hm) _ hv

/-- The three line-based files — pseudo PIPs, segment bits, package pins — read from a disk.  Missing files are errors.
Of a regular file the parser gets the content, and crashes exactly when the length is a multiple of 4096, the last
line is not terminated, and the text without it is accepted.  (An empty file has no last line.) -/
theorem C65_files (disk : Path → Node) (env : Env) (h : OnDisk disk env) (p : Path) {α : Type}
    (parse : Option UInt8 → Bytes → Outcome α)
    (hparse : Lined parse) :
    (disk p = .missing → parseFile env parse p = .err) ∧
    ∀ content, disk p = .regular content →
      (parseFile env parse p = .ub ↔
        content.length % 4096 = 0 ∧ ∃ init s, CutLine content init ∧ parse (some 0) init = .ok s) ∧
      (parseFile env parse p ≠ .ub → parseFile env parse p = parse (some 0) content) := by
  refine ⟨fun hn => by unfold parseFile; rw [(h p).1 hn], fun content hc => ?_⟩
  have hr := read_regular h hc
  have e : parseFile env parse p = parse (if content.length % 4096 = 0 then none else some 0) content := by
    unfold parseFile; rw [hr]
  rw [e]
  obtain ⟨h1, h2, h3⟩ := lined_crash hparse content
  by_cases hm : content.length % 4096 = 0
  · rw [if_pos hm]
    exact ⟨⟨fun hu => ⟨hm, h1.1 hu⟩, fun hu => h1.2 hu.2⟩, h2⟩
  · rw [if_neg hm]
    exact ⟨⟨fun hu => absurd hu h3, fun hu => absurd hu.1 hm⟩, fun _ => rfl⟩

/-- For the three parsers of the program. -/
theorem C65_files_apply (junk : Bytes → Nat) : Lined parsePseudoPIPs ∧ Lined (parseSegmentsBits junk) ∧ Lined parsePackagePins :=
  ⟨lined_pips, lined_segbits junk, lined_pins⟩

/-- A file that ends in a newline never crashes, whatever its length. -/
theorem C65_terminated_safe (disk : Path → Node) (env : Env) (h : OnDisk disk env) (p : Path) {α : Type}
    (parse : Option UInt8 → Bytes → Outcome α) (hparse : Lined parse) (body : Bytes) (hc : disk p = .regular (body ++ [0x0a])) :
    parseFile env parse p = parse (some 0) (body ++ [0x0a]) := by
  obtain ⟨h1, h2⟩ := (C65_files disk env h p parse hparse).2 _ hc
  refine h2 fun hu => ?_
  obtain ⟨_, init, s, ⟨ls, last, _, he, hne, hnl, _⟩, _⟩ := h1.1 hu
  have : (body ++ [0x0a]).getLast? = last.getLast? := by
    rw [he, List.getLast?_append]
    cases hl : last.getLast? with
    | none => exact absurd (List.getLast?_eq_none_iff.1 hl) hne
    | some c => rfl
  rw [List.getLast?_concat] at this
  exact hnl (List.mem_of_getLast? this.symm)

/-- A file of 4096 bytes without a newline crashes the parser of segment bits; one byte less is a reported error. -/
theorem C65_page_example (disk : Path → Node) (env : Env) (h : OnDisk disk env) (p : Path)
    (hc : disk p = .regular (List.replicate 4096 0x61)) : parseFile env (parseSegmentsBits env.junk) p = .ub := by
  refine ((C65_files disk env h p _ (lined_segbits env.junk)).2 _ hc).1.2 ⟨by rw [List.length_replicate], [], [], ?_, rfl⟩
  refine ⟨[], List.replicate 4096 0x61, rfl, rfl, ?_, ?_, by simp⟩
  · intro e
    have := congrArg List.length e
    rw [List.length_replicate] at this
    cases this
  · intro hm
    have := List.eq_of_mem_replicate hm
    revert this; decide

theorem C65_page_example_short (disk : Path → Node) (env : Env) (h : OnDisk disk env) (p : Path)
    (hc : disk p = .regular (List.replicate 4095 0x61)) : parseFile env (parseSegmentsBits env.junk) p ≠ .ub := by
  intro hu
  have := (((C65_files disk env h p _ (lined_segbits env.junk)).2 _ hc).1.1 hu).1
  rw [List.length_replicate] at this
  revert this; decide

/-- There are such disks: every file the one of the example. -/
example : ∃ (disk : Path → Node) (env : Env), OnDisk disk env ∧ disk [] = .regular (List.replicate 4096 0x61) := by
  refine ⟨fun _ => .regular (List.replicate 4096 0x61),
    ⟨fun _ => true, fun _ => some (List.replicate 4096 0x61, none), fun _ => none, fun _ => none, fun _ => 0⟩, fun p => ⟨(by intro h; cases h), ?_⟩, rfl⟩
  intro m hm v hv
  obtain ⟨m', hm', hv'⟩ := C65_regular (List.replicate 4096 0x61)
  rw [hm] at hm'
  cases hm'
  rw [hv, List.length_replicate, if_pos (by decide)] at hv'
  cases hv'
  rfl

end Verif.Props
