import Verif.Props.SameEnds
import Verif.Props.C69
import Verif.Props.C107
import Verif.Props.C112
import Verif.Spec.SameDesign
/-! # C128: a design said in another way -/
namespace Verif.Props
open Verif.Db Verif.Asm Verif.Spec Verif.Text Verif.Xc7

theorem written_chunk {text : Bytes} {F : FasmFeature} (h : Written text F) : 1 ≤ F.width ∧ F.width ≤ 64 ∧ F.bits < 2 ^ F.width.toNat := by
  obtain ⟨line, st, n, _, h1, h2, _⟩ := h
  exact C27_calls true _ line st h1 _ _ _ _ _ h2

theorem written_bit {text : Bytes} {F : FasmFeature} (h : Written text F) (h0 : F.bits ≠ 0) : ∃ i : Nat, (i : Int) < F.width ∧ F.bits.testBit i = true := by
  obtain ⟨h1, h2, h3⟩ := written_chunk h
  obtain ⟨i, hi⟩ := Nat.exists_testBit_of_ne_zero h0
  refine ⟨i, ?_, hi⟩
  have h4 := Nat.ge_two_pow_of_testBit hi
  have h5 : i < F.width.toNat := by
    apply Classical.byContradiction
    intro hc
    have := Nat.pow_le_pow_right (show 0 < 2 by decide) (Nat.le_of_not_lt hc)
    omega
  omega

section
variable {text text' : Bytes} (hsame : ∀ tile feature addr, TextAsks text tile feature addr → TextAsks text' tile feature addr)
include hsame

theorem asked_tag (tile site tag : Bytes) (h : ∃ F, Written text F ∧ HasTag F tile site tag) : ∃ F, Written text' F ∧ HasTag F tile site tag := by
  obtain ⟨F, hF, h0, h1, h2, h3, h4⟩ := h
  obtain ⟨i, hi, hb⟩ := written_bit hF h0
  have key : ∀ feature, F.name = tile ++ 0x2e :: feature → ∃ G, Written text' G ∧ G.bits ≠ 0 ∧ G.name = F.name := by
    intro feature hn
    obtain ⟨G, hG, g1, _, j, _, g2, _⟩ := hsame tile feature _ ⟨F, hF, hn, h1, i, hi, hb, rfl⟩
    refine ⟨G, hG, ?_, by rw [g1, hn]⟩
    intro h0
    rw [h0, Nat.zero_testBit] at g2
    cases g2
  obtain ⟨G, hG, g0, g1⟩ : ∃ G, Written text' G ∧ G.bits ≠ 0 ∧ G.name = F.name := by
    rcases h4 with h4 | ⟨rest, h4⟩
    · exact key _ h4
    · exact key _ h4
  exact ⟨G, hG, g0, h1, h2, h3, by rw [g1]; exact h4⟩

variable (tiles : Tiles)

theorem asked_basic (tile site tag : Bytes) (h : ∃ F, Basic tiles text F ∧ HasTag F tile site tag) : ∃ F, Basic tiles text' F ∧ HasTag F tile site tag := by
  obtain ⟨F, hF | hF, h⟩ := h
  · exact ⟨F, Or.inl hF, h⟩
  · obtain ⟨G, hG, h⟩ := asked_tag hsame tile site tag ⟨F, hF, h⟩
    exact ⟨G, Or.inr hG, h⟩

theorem asked_stepTag {bank : Nat} {tag : Bytes} (h : StepTag tiles.banks (Basic tiles text) bank tag) : StepTag tiles.banks (Basic tiles text') bank tag := by
  obtain ⟨F, tile, site, h1, h2, h3⟩ := h
  obtain ⟨G, g1, g2⟩ := asked_basic hsame tiles tile site tag ⟨F, h1, h2⟩
  exact ⟨G, tile, site, g1, g2, h3⟩

theorem asked_used {tile site : Bytes} (h : UsedSite (Basic tiles text) tile site) : UsedSite (Basic tiles text') tile site := by
  obtain ⟨F, t, s, tag, h1, h2, h3⟩ := h
  obtain ⟨G, g1, g2⟩ := asked_basic hsame tiles t s tag ⟨F, h1, h2⟩
  exact ⟨G, t, s, tag, g1, g2, h3⟩

end

section
variable {text text' : Bytes} (hsame : ∀ tile feature addr, TextAsks text tile feature addr ↔ TextAsks text' tile feature addr)
include hsame
variable (tiles : Tiles)

theorem asked_stepdown {F : FasmFeature} (h : StepdownFeature tiles (Basic tiles text) F) : StepdownFeature tiles (Basic tiles text') F := by
  obtain ⟨h0, ⟨bank, tag, ts, tile, t, pin, site, h1, h2, h3, h4, h5, h6, h7, h8, h9⟩ | ⟨bank, tag, ts, tile, h1, h2⟩⟩ := h
  · exact ⟨h0, Or.inl ⟨bank, tag, ts, tile, t, pin, site, asked_stepTag (fun t f a => (hsame t f a).1) tiles h1, h2, h3, h4, h5, h6, h7,
      fun hu => h8 (asked_used (fun t f a => (hsame t f a).2) tiles hu), h9⟩⟩
  · exact ⟨h0, Or.inr ⟨bank, tag, ts, tile, asked_stepTag (fun t f a => (hsame t f a).1) tiles h1, h2⟩⟩

theorem asked_design (tile feature : Bytes) (addr : Nat) (h : AsksFor tiles text tile feature addr) : AsksFor tiles text' tile feature addr := by
  obtain ⟨F, (hF | hF) | hF, h⟩ := h
  · exact ⟨F, Or.inl (Or.inl hF), h⟩
  · obtain ⟨G, hG, h⟩ := (hsame tile feature addr).1 ⟨F, hF, h⟩
    exact ⟨G, Or.inl (Or.inr hG), h⟩
  · exact ⟨F, Or.inr (asked_stepdown hsame tiles hF), h⟩

theorem asked_assembles (hc : CleanText text') (h : Assembles tiles text) : Assembles tiles text' := by
  obtain ⟨_, ⟨h1, h2⟩, h3, h4⟩ := h
  have back : ∀ tile feature addr, TextAsks text' tile feature addr → TextAsks text tile feature addr := fun t f a => (hsame t f a).2
  refine ⟨hc.1, ⟨?_, ?_⟩, ?_, h4⟩
  · intro F tile site tag hF ht ho
    obtain ⟨G, g1, g2⟩ := asked_basic back tiles tile site tag ⟨F, hF, ht⟩
    exact h1 G tile site tag g1 g2 ho
  · intro bank tag ht
    exact h2 bank tag (asked_stepTag back tiles ht)
  · intro F hF
    rcases hF with (hF | hF) | hF
    · exact h3 F (Or.inl (Or.inl hF))
    · obtain ⟨c1, c2⟩ := hc.2 F hF
      obtain ⟨_, w2, _⟩ := written_chunk hF
      refine ⟨fun i hi => ⟨by omega, c2 i hi⟩, c1, ?_⟩
      intro tile feature addr ha
      obtain ⟨G, hG, g⟩ := back tile feature addr ⟨F, hF, ha⟩
      exact (h3 G (Or.inl (Or.inr hG))).2.2 tile feature addr g
    · exact h3 F (Or.inr (asked_stepdown (fun t f a => (hsame t f a).symm) tiles hF))

theorem asked_lists (tile : Bytes) (c : BitCall) : Lists tiles (Design tiles text) tile c ↔ Lists tiles (Design tiles text') tile c := by
  have key : ∀ t : Bytes, Lists tiles (Design tiles t) tile c ↔ ∃ feature addr bits, AsksFor tiles t tile feature addr ∧ FeatureBits tiles tile feature addr bits ∧ c ∈ bits := by
    intro t
    constructor
    · rintro ⟨F, feature, addr, bits, h1, h2, h3⟩
      exact ⟨feature, addr, bits, ⟨F, h1, h2⟩, h3⟩
    · rintro ⟨feature, addr, bits, ⟨F, h1, h2⟩, h3⟩
      exact ⟨F, feature, addr, bits, h1, h2, h3⟩
  rw [key, key]
  have : ∀ feature addr, AsksFor tiles text tile feature addr ↔ AsksFor tiles text' tile feature addr := fun feature addr =>
    ⟨asked_design hsame tiles tile feature addr, asked_design (fun t f a => (hsame t f a).symm) tiles tile feature addr⟩
  simp only [this]

end

/-- The frames are decided by the bits asked for, however the statements are written: with what widths, split into how many, in what order, repeated or not. -/
theorem C128_frames {tiles : Tiles} (hok : TilesOk tiles) (ord ord' : HashOrder) (hord : Permutes ord) (hord' : Permutes ord') (text text' : Bytes)
    (hsame : ∀ tile feature addr, TextAsks text tile feature addr ↔ TextAsks text' tile feature addr) (hc' : CleanText text')
    (db db' : PartDatabase) (hdb : Reachable tiles db) (hdb' : Reachable tiles db') (d : PartDatabase) (fr : Frames) (h : assembleFrames ord text db [] = .ok (d, fr)) :
    ∃ d', assembleFrames ord' text' db' [] = .ok (d', fr) := by
  have ha := assemble_inv hok ord hord text db hdb _ h
  obtain ⟨d', fr', h1, _, h2⟩ := assemble_ok hok ord' hord' text' db' hdb' (asked_assembles hsame tiles hc' ha)
  have h3 := C50_frames hok ord hord text db hdb d fr h
  have h4 : FramesOf tiles (Design tiles text') fr := by
    obtain ⟨a1, a2, a3⟩ := h3
    refine ⟨a1, fun k w b => ?_, fun k => ?_⟩
    · rw [a2]
      simp only [asked_lists hsame tiles]
    · rw [a3]
      simp only [asked_lists hsame tiles]
  rw [framesOf_unique h4 h2]
  exact ⟨d', h1⟩

/-- A text that is clean is not refused: it assembles, or breaks off. -/
theorem clean_not_refused {tiles : Tiles} {text : Bytes} (hc : CleanText text) (hshort : ∀ line, IsLine text line → line.length < 2 ^ 28) : ¬ TextRefused tiles text := by
  rintro ⟨_, h⟩
  have place : ∀ {pre line post}, Place text pre line post → IsLine text line := fun h => place_isLine h
  cases h with
  | line pre bad post h h1 h2 =>
    obtain ⟨st, s1, s2⟩ := h2
    obtain ⟨st', t1, t2, t3⟩ := hc.1 bad (place h)
    rw [s1] at t1
    cases t1
    rcases s2 with s2 | s2
    · exact t2 s2
    · exact t3 s2
  | tick pre body post h h0 h1 h2 h3 =>
    obtain ⟨st', t1, _⟩ := hc.1 _ (place h)
    have := hshort _ (place h)
    rw [List.length_append] at this
    exact (C72_defined body h0 (by omega)).1 ⟨st', t1⟩ (stopsAfterTick_undefined h2)
  | name h h1 h2 pre line post F h3 h4 h5 h6 =>
    obtain ⟨st, n, s1, s2, s3⟩ := h5
    exact h6 (hc.2 F ⟨line, st, n, place h3, s1, s2, s3⟩).1

/-- How a run on a clean text ends. -/
theorem clean_ends (env : Env) (load : LoadOrder) (hload : LoadOk load) (ord : HashOrder) (hord : Permutes ord) (inv : Invocation) (out : OStream)
    (db : PartDatabase) (text : Bytes) (hs : Starts env load inv db text) (hc : CleanText text) (hshort : ∀ line, IsLine text line → line.length < 2 ^ 28) :
    ¬ EndsWith (main env load ord inv out) (.ok (1, out)) ∧
    (NeverEnds (main env load ord inv out) ↔ Assembles db.tiles text ∧ WalkEndless db.tiles.part) ∧
    (EndsWith (main env load ord inv out) .abort ∨ EndsWith (main env load ord inv out) .ub ↔ ¬ Assembles db.tiles text) := by
  have x : LibTexts := ⟨fun _ => [], fun _ => ([], 0), fun _ => []⟩
  have hshort' : ∀ db' text', Starts env load inv db' text' → ∀ line, IsLine text' line → line.length < 2 ^ 28 := by
    intro db' text' h
    obtain ⟨_, rfl⟩ := starts_unique hs h
    exact hshort
  obtain ⟨r, p, n, c⟩ := C119_program env load ord inv out hload hord hshort' x
  have hr : ¬ RunRefused x env load inv := by
    rw [refused_iff]
    obtain ⟨path, h1, h2, h3⟩ := starts_configured env load inv hs
    rintro (h | ⟨path', h4, h5⟩ | ⟨_, _, _, h4⟩ | ⟨db', text', h4, h5⟩)
    · exact h _ h1
    · have e := (C61_setting _ _ _).2 h1.2.1
      rw [(C61_setting _ _ _).2 h4.2.1] at e
      cases e
      rw [h2] at h5
      cases h5
    · exact h4 _ h3
    · obtain ⟨rfl, rfl⟩ := starts_unique hs h4
      exact clean_not_refused hc hshort h5
  refine ⟨fun h => hr (r.1 h), ?_, ?_⟩
  · rw [n]
    constructor
    · rintro ⟨db', text', h1, h2⟩
      obtain ⟨rfl, rfl⟩ := starts_unique hs h1
      exact h2
    · exact fun h => ⟨db, text, hs, h⟩
  · rw [c]
    constructor
    · intro hcr ha
      have h2 := c.2 hcr
      by_cases hw : WalkEndless db.tiles.part
      · rcases h2 with h2 | h2
        · exact endsWith_ends h2 (n.2 ⟨db, text, hs, ha, hw⟩)
        · exact endsWith_ends h2 (n.2 ⟨db, text, hs, ha, hw⟩)
      · obtain ⟨o, m, hm⟩ := p.2 ⟨db, text, hs, ha, hw⟩
        rcases h2 with ⟨k, hk⟩ | ⟨k, hk⟩
        · have e1 := hm (max m k) (by omega)
          rw [hk (max m k) (by omega)] at e1
          cases e1
        · have e1 := hm (max m k) (by omega)
          rw [hk (max m k) (by omega)] at e1
          cases e1
    · intro ha
      exact .text db text hs ha (clean_not_refused hc hshort)

/-- Two clean texts that ask for the same bits: the runs of the program on them end in the same way, with the same output. -/
theorem C128_program (env : Env) (load : LoadOrder) (hload : LoadOk load) (ord ord' : HashOrder) (hord : Permutes ord) (hord' : Permutes ord')
    (inv inv' : Invocation) (out : OStream) (db : PartDatabase) (text text' : Bytes)
    (h : Starts env load inv db text) (h' : Starts env load inv' db text') (hdate : inv.date = inv'.date) (htime : inv.time = inv'.time)
    (hc : CleanText text) (hc' : CleanText text') (hshort : ∀ line, IsLine text line → line.length < 2 ^ 28) (hshort' : ∀ line, IsLine text' line → line.length < 2 ^ 28)
    (hsame : ∀ tile feature addr, TextAsks text tile feature addr ↔ TextAsks text' tile feature addr) :
    SameWay out (main env load ord inv out) (main env load ord' inv' out) := by
  obtain ⟨hok, hr⟩ : TilesOk db.tiles ∧ Reachable db.tiles db := by
    obtain ⟨_, _, _, path, _, _, _, hparse⟩ := id h
    exact C45_loaded env load hload _ _ db hparse
  have go : ∀ (o1 o2 : HashOrder) (i1 i2 : Invocation) (t1 t2 : Bytes) (o : OStream) (fuel : Nat), Permutes o1 → Permutes o2 → Starts env load i1 db t1 →
      Starts env load i2 db t2 → i1.date = i2.date → i1.time = i2.time → CleanText t2 → (∀ tile feature addr, TextAsks t1 tile feature addr ↔ TextAsks t2 tile feature addr) →
      main env load o1 i1 out fuel = some (.ok (0, o)) → main env load o2 i2 out fuel = some (.ok (0, o)) := by
    intro o1 o2 i1 i2 t1 t2 o fuel p1 p2 s1 s2 hd ht hcl hl hm
    rcases C58_stages_partial env load o1 i1 out o fuel 0 hm with ⟨h, _⟩ | ⟨_, d, t, d1, fr, hs, ha, he⟩
    · cases h
    obtain ⟨rfl, rfl⟩ := starts_unique hs s1
    obtain ⟨d2, ha2⟩ := C128_frames hok o1 o2 p1 p2 t t2 hl hcl d d hr hr d1 fr ha
    have hp : ∀ (o3 : HashOrder) (t3 : Bytes) (d3 : PartDatabase), Permutes o3 → assembleFrames o3 t3 d [] = .ok (d3, fr) → d3.tiles = d.tiles := by
      intro o3 t3 d3 p3 h3
      have := (C50_succeeds hok o3 p3 t3 d hr).1 ⟨_, h3⟩
      obtain ⟨db'', frames', ha', hreach, _⟩ := assemble_ok hok o3 p3 t3 d hr this
      rw [h3] at ha'
      cases ha'
      exact (reachable_cache hreach).1
    refine main_started env load o2 i2 out fuel d t2 s2 d2 fr ha2 o ?_
    rw [hp o2 t2 d2 p2 ha2, ← hp o1 t d1 p1 ha, ← hd, ← ht]
    exact he
  obtain ⟨a1, a2, a3⟩ := clean_ends env load hload ord hord inv out db text h hc hshort
  obtain ⟨b1, b2, b3⟩ := clean_ends env load hload ord' hord' inv' out db text' h' hc' hshort'
  have ha : Assembles db.tiles text ↔ Assembles db.tiles text' :=
    ⟨asked_assembles hsame _ hc', asked_assembles (fun t f a => (hsame t f a).symm) _ hc⟩
  refine ⟨⟨fun h => absurd h a1, fun h => absurd h b1⟩, fun o => ?_, by rw [a2, b2, ha], by rw [a3, b3, ha]⟩
  constructor
  · rintro ⟨n, hn⟩
    exact ⟨n, fun fuel hf => go ord ord' inv inv' text text' o fuel hord hord' h h' hdate htime hc' hsame (hn fuel hf)⟩
  · rintro ⟨n, hn⟩
    exact ⟨n, fun fuel hf => go ord' ord inv' inv text' text o fuel hord' hord h' h hdate.symm htime.symm hc (fun t f a => (hsame t f a).symm) (hn fuel hf)⟩

/-! ## Files of correct lines -/

theorem source_range (r : RangeText) (h : r.WellFormed) : r.lo ≤ r.hi ∧ r.hi < 65536 := by
  cases r with
  | absent => exact ⟨Nat.le_refl _, by decide⟩
  | bit d => exact ⟨Nat.le_refl _, h.2.2⟩
  | span hi lo => exact ⟨h.2.2.2.2.2, h.2.2.1⟩

/-- A file of correct lines with dots in their names is clean; it asks for the bits it writes as 1. -/
theorem C128_written (ls : List SourceLine) (h : ∀ l ∈ ls, l.Ok) (hd : ∀ l ∈ ls, l.Dotted) :
    CleanText (sourceText ls) ∧ ∀ tile feature addr, TextAsks (sourceText ls) tile feature addr ↔
      0x2e ∉ tile ∧ ∃ l ∈ ls, l.Sets (tile ++ 0x2e :: feature) addr := by
  obtain ⟨h1, h2⟩ := C69_written ls h
  refine ⟨⟨h1, fun F hF => ?_⟩, fun tile feature addr => ?_⟩
  · obtain ⟨l, hl, hF⟩ := (h2 F).1 hF
    cases l with
    | empty => cases hF
    | statement g f as e =>
      obtain ⟨i, hi, rfl⟩ := List.mem_map.1 hF
      obtain ⟨r1, r2⟩ := source_range f.range (h _ hl).2.1.2.2.1
      refine ⟨hd _ hl, fun j hj => ?_⟩
      have := List.mem_range.1 hi
      unfold RangeText.width at this hj
      dsimp only at hj ⊢
      omega
  · unfold TextAsks
    simp only [h2]
    constructor
    · rintro ⟨F, ⟨l, hl, hF⟩, a1, a2, j, a3, a4, a5⟩
      refine ⟨a2, l, hl, ?_⟩
      cases l with
      | empty => cases hF
      | statement g f as e =>
        obtain ⟨i, hi, rfl⟩ := List.mem_map.1 hF
        obtain ⟨r1, r2⟩ := source_range f.range (h _ hl).2.1.2.2.1
        have hi := List.mem_range.1 hi
        dsimp only at a1 a3 a4 a5
        have hw : f.range.width = f.range.hi - f.range.lo + 1 := rfl
        have haddr : addr = f.range.lo + 64 * i + j := by omega
        rw [Nat.testBit_mod_two_pow, Nat.testBit_div_two_pow] at a4
        simp only [Bool.and_eq_true, decide_eq_true_eq] at a4
        refine ⟨a1, by omega, by omega, ?_⟩
        rw [show addr - f.range.lo = 64 * i + j by omega]
        rw [Nat.add_comm] at a4
        exact a4.2
    · rintro ⟨a2, l, hl, hs⟩
      cases l with
      | empty => cases hs
      | statement g f as e =>
        obtain ⟨s1, s2, s3, s4⟩ := hs
        obtain ⟨r1, r2⟩ := source_range f.range (h _ hl).2.1.2.2.1
        have hw : f.range.width = f.range.hi - f.range.lo + 1 := rfl
        have hdiv := Nat.div_add_mod (addr - f.range.lo) 64
        have hmod := Nat.mod_lt (addr - f.range.lo) (show 64 > 0 by decide)
        refine ⟨_, ⟨_, hl, List.mem_map.2 ⟨(addr - f.range.lo) / 64, List.mem_range.2 (by omega), rfl⟩⟩, s1, a2, (addr - f.range.lo) % 64, ?_, ?_, ?_⟩
        · dsimp only
          omega
        · dsimp only
          rw [Nat.testBit_mod_two_pow, Nat.testBit_div_two_pow]
          simp only [Bool.and_eq_true, decide_eq_true_eq]
          refine ⟨by omega, ?_⟩
          rw [show (addr - f.range.lo) % 64 + 64 * ((addr - f.range.lo) / 64) = addr - f.range.lo by omega]
          exact s4
        · dsimp only
          omega

/-- Two files of correct lines that write the same bits as 1 give the same bitstream. -/
theorem C128_sources (env : Env) (load : LoadOrder) (hload : LoadOk load) (ord ord' : HashOrder) (hord : Permutes ord) (hord' : Permutes ord')
    (inv inv' : Invocation) (out : OStream) (db : PartDatabase) (ls ls' : List SourceLine) (hls : ∀ l ∈ ls, l.Ok ∧ l.Dotted) (hls' : ∀ l ∈ ls', l.Ok ∧ l.Dotted)
    (h : Starts env load inv db (sourceText ls)) (h' : Starts env load inv' db (sourceText ls')) (hdate : inv.date = inv'.date) (htime : inv.time = inv'.time)
    (hshort : ∀ line, IsLine (sourceText ls) line → line.length < 2 ^ 28) (hshort' : ∀ line, IsLine (sourceText ls') line → line.length < 2 ^ 28)
    (hsame : ∀ name n, (∃ l ∈ ls, l.Sets name n) ↔ ∃ l ∈ ls', l.Sets name n) :
    SameWay out (main env load ord inv out) (main env load ord' inv' out) := by
  obtain ⟨c, a⟩ := C128_written ls (fun l hl => (hls l hl).1) (fun l hl => (hls l hl).2)
  obtain ⟨c', a'⟩ := C128_written ls' (fun l hl => (hls' l hl).1) (fun l hl => (hls' l hl).2)
  exact C128_program env load hload ord ord' hord hord' inv inv' out db _ _ h h' hdate htime c c' hshort hshort'
    fun tile feature addr => by rw [a, a', hsame]

/-! ## Bit by bit -/

theorem digit_facts (c : UInt8) (h : 0x30 ≤ c ∧ c ≤ 0x39) : digitValue c = some (c.toNat - 0x30) := by
  unfold digitValue
  rw [if_pos h]

theorem decimal_digits (n : Nat) : DigitString 10 (Verif.Tidy.decimal n) ∧ digitsOf (Verif.Tidy.decimal n) ≠ [] ∧ numVal 10 (Verif.Tidy.decimal n) = n := by
  obtain ⟨⟨h1, h2, h3⟩, _⟩ := decimal_numeral n
  generalize Verif.Tidy.decimal n = d at h1 h2 h3
  have key : digitsOf d = d.map fun c => c.toNat - 0x30 := by
    unfold digitsOf
    clear h1 h3
    induction d with
    | nil => rfl
    | cons c d ih =>
      have hc := h2 c (by simp)
      rw [List.filterMap_cons_some (digit_facts c hc), List.map_cons, ih fun c hc => h2 c (by simp [hc])]
  refine ⟨fun c hc => Or.inr ⟨c.toNat - 0x30, digit_facts c (h2 c hc), ?_⟩, ?_, ?_⟩
  · have h4 := UInt8.le_iff_toNat_le.1 (h2 c hc).2
    have e : (0x39 : UInt8).toNat = 57 := rfl
    omega
  · rw [key]
    intro h
    exact h1 (List.map_eq_nil_iff.1 h)
  · unfold numVal
    rw [key, List.foldl_map]
    exact h3

/-- The line `name[n]`. -/
def plainBit (name : Bytes) (n : Nat) : SourceLine := .statement (fun _ => []) ⟨name, .bit (Verif.Tidy.decimal n), .absent⟩ [] []

theorem plainBit_ok {name : Bytes} {n : Nat} (h : name ≠ []) (hc : ∀ c ∈ name, NameChar c) (hn : n < 65536) :
    (plainBit name n).Ok ∧ PlainBit name n (plainBit name n) ∧ ∀ name' n', (plainBit name n).Sets name' n' ↔ name' = name ∧ n' = n := by
  obtain ⟨d1, d2, d3⟩ := decimal_digits n
  refine ⟨⟨fun _ c hc => (by cases hc), ⟨h, hc, ⟨d1, d2, by rw [d3]; exact hn⟩, trivial⟩, Or.inl ⟨?_, Nat.zero_le _⟩, ⟨by simp, Or.inl rfl⟩, by simp⟩,
    ⟨_, _, fun _ => rfl, d3, rfl⟩, fun name' n' => ?_⟩
  · show numVal 10 _ - numVal 10 _ + 1 ≤ 64
    omega
  · show name = name' ∧ numVal 10 _ ≤ n' ∧ n' ≤ numVal 10 _ ∧ Nat.testBit 1 (n' - numVal 10 _) = true ↔ _
    rw [d3]
    constructor
    · rintro ⟨h1, h2, h3, _⟩
      exact ⟨h1.symm, by omega⟩
    · rintro ⟨h1, h2⟩
      subst h1 h2
      refine ⟨rfl, Nat.le_refl _, Nat.le_refl _, ?_⟩
      rw [Nat.sub_self]; rfl

/-- The bits of one line, a line each. -/
def bitLines : SourceLine → List SourceLine
  | .empty _ _ => []
  | .statement _ f _ _ => ((List.range (f.range.hi + 1)).filter fun n => f.range.lo ≤ n ∧ f.value.val.testBit (n - f.range.lo) = true).map (plainBit f.name)

/-- Every design can be written with one plain line for each of its bits: `C128_sources` says that it is then the same design. -/
theorem C128_bitwise (ls : List SourceLine) (h : ∀ l ∈ ls, l.Ok ∧ l.Dotted) : ∃ ls' : List SourceLine,
    (∀ l ∈ ls', l.Ok ∧ l.Dotted ∧ ∃ name n, PlainBit name n l) ∧ ∀ name n, (∃ l ∈ ls, l.Sets name n) ↔ ∃ l ∈ ls', l.Sets name n := by
  refine ⟨ls.flatMap bitLines, ?_, ?_⟩
  · intro l hl
    obtain ⟨l0, h0, hl⟩ := List.mem_flatMap.1 hl
    cases l0 with
    | empty => cases hl
    | statement g f as e =>
      obtain ⟨n, hn, rfl⟩ := List.mem_map.1 hl
      have hok := (h _ h0).1.2.1
      obtain ⟨r1, r2⟩ := source_range f.range hok.2.2.1
      have := List.mem_range.1 (List.mem_filter.1 hn).1
      obtain ⟨p1, p2, _⟩ := plainBit_ok (n := n) hok.1 hok.2.1 (by omega)
      exact ⟨p1, (h _ h0).2, f.name, n, p2⟩
  · intro name n
    constructor
    · rintro ⟨l, hl, hs⟩
      cases l with
      | empty => cases hs
      | statement g f as e =>
        obtain ⟨s1, s2, s3, s4⟩ := hs
        have hok := (h _ hl).1.2.1
        obtain ⟨r1, r2⟩ := source_range f.range hok.2.2.1
        obtain ⟨_, _, p3⟩ := plainBit_ok (n := n) hok.1 hok.2.1 (by omega)
        refine ⟨plainBit f.name n, List.mem_flatMap.2 ⟨_, hl, List.mem_map.2 ⟨n, List.mem_filter.2 ⟨List.mem_range.2 (by omega), ?_⟩, rfl⟩⟩, (p3 _ _).2 ⟨s1.symm, rfl⟩⟩
        simp only [decide_eq_true_eq]
        exact ⟨s2, s4⟩
    · rintro ⟨l, hl, hs⟩
      obtain ⟨l0, h0, hl⟩ := List.mem_flatMap.1 hl
      cases l0 with
      | empty => cases hl
      | statement g f as e =>
        obtain ⟨m, hm, rfl⟩ := List.mem_map.1 hl
        have hok := (h _ h0).1.2.1
        obtain ⟨r1, r2⟩ := source_range f.range hok.2.2.1
        have hm1 := List.mem_range.1 (List.mem_filter.1 hm).1
        have hm2 := (List.mem_filter.1 hm).2
        simp only [decide_eq_true_eq] at hm2
        obtain ⟨_, _, p3⟩ := plainBit_ok (n := m) hok.1 hok.2.1 (by omega)
        obtain ⟨rfl, rfl⟩ := (p3 _ _).1 hs
        exact ⟨_, h0, rfl, hm2.1, by omega, hm2.2⟩

/-- `T.F[3:0] = 4'b0101`, and its two bits. -/
def nibble : SourceLine := .statement (fun _ => []) ⟨bytes!"T.F", .span bytes!"3" bytes!"0", .based bytes!"4" .bin bytes!"0101"⟩ [] []

theorem nibble_ok : nibble.Ok ∧ nibble.Dotted := by
  refine ⟨⟨fun _ c hc => (by cases hc), ⟨by decide, by decide, ?_, ?_⟩, Or.inl (by decide), ⟨by simp, Or.inl rfl⟩, by simp⟩, (show (0x2e : UInt8) ∈ bytes!"T.F" by decide)⟩
  · refine ⟨?_, by decide, by decide, ?_, by decide, by decide⟩
    · intro c hc
      cases List.mem_singleton.1 hc
      exact Or.inr ⟨3, by decide, by decide⟩
    · intro c hc
      cases List.mem_singleton.1 hc
      exact Or.inr ⟨0, by decide, by decide⟩
  · refine ⟨?_, by decide, ?_, by decide⟩
    · intro c hc
      cases List.mem_singleton.1 hc
      exact Or.inr ⟨4, by decide, by decide⟩
    · intro c hc
      have : c = 0x30 ∨ c = 0x31 := by
        rcases List.mem_cons.1 hc with h | hc
        · exact Or.inl h
        rcases List.mem_cons.1 hc with h | hc
        · exact Or.inr h
        rcases List.mem_cons.1 hc with h | hc
        · exact Or.inl h
        exact Or.inr (List.mem_singleton.1 hc)
      rcases this with rfl | rfl
      · exact Or.inr ⟨0, by decide, by decide⟩
      · exact Or.inr ⟨1, by decide, by decide⟩

/-- The texts differ, the bits are the same. -/
example : sourceText [nibble] = bytes!"T.F[3:0]=4'b0101\n" ∧ sourceText (bitLines nibble) = bytes!"T.F[0]\nT.F[2]\n" ∧
    (∀ l ∈ [nibble], l.Ok ∧ l.Dotted) ∧ nibble.Sets bytes!"T.F" 2 ∧ ¬ nibble.Sets bytes!"T.F" 1 :=
  ⟨by decide +kernel, by decide +kernel, by simpa using nibble_ok, ⟨rfl, by decide, by decide, by decide⟩, fun h => absurd h.2.2.2 (by decide)⟩

end Verif.Props
