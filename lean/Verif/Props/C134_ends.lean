import Verif.Props.C134
import Verif.Props.SameEnds
/-! # C134, whatever becomes of the run -/
namespace Verif.Props
open Verif.Db Verif.Asm Verif.Spec Verif.Text Verif.Xc7

/-- A design and the same design written out: the runs end in the same way, both with the same bitstream, both never, or both broken off; none is refused. -/
theorem C134_ends (env : Env) (load : LoadOrder) (hload : LoadOk load) (ord ord' : HashOrder) (hord : Permutes ord) (hord' : Permutes ord') (inv inv' : Invocation)
    (path : Bytes) (hcfg : Configured env inv path) (hcfg' : Configured env inv' path) (hpart : inv'.part = inv.part) (hdate : inv'.date = inv.date) (htime : inv'.time = inv.time)
    (grid : TileGrid) (part : Db.Part) (pins : PackagePins) (files : Bytes → TypeContents) (ls full : List SourceLine)
    (hdb : WholeFiles env path inv.part grid part pins files ls) (hls : ∀ l ∈ ls, l.Ok ∧ l.Dotted) (hfull : ∀ l ∈ full, l.Ok ∧ l.Dotted)
    (htext : Input inv (sourceText ls)) (htext' : Input inv' (sourceText full))
    (hshort : ∀ line, IsLine (sourceText ls) line → line.length < 2 ^ 28) (hshort' : ∀ line, IsLine (sourceText full) line → line.length < 2 ^ 28)
    (hapart : BanksApart part pins) (hout : WritesOut grid part pins ls full) (out : OStream) :
    SameWay out (main env load ord inv out) (main env load ord' inv' out) ∧ ¬ EndsWith (main env load ord inv out) (.ok (1, out)) := by
  have hdb' : WholeFiles env path inv'.part grid part pins files full :=
    ⟨by rw [hpart]; exact hdb.dir, hdb.listed, fun tile feature addr t ty f hw => hdb.types tile feature addr t ty f ((C134_wants hout hapart _ _ _).1 hw), hdb.settled⟩
  obtain ⟨bits, hs, hf⟩ := whole_load hcfg hdb htext
  obtain ⟨bits', hs', hf'⟩ := whole_load hcfg' hdb' htext'
  have same : ∀ (i : Invocation) (ls0 : List SourceLine) (b : Bytes → Outcome (Option SegBits)), Input i (sourceText ls0) →
      (∀ line, IsLine (sourceText ls0) line → line.length < 2 ^ 28) →
      Starts env sameLoad i ⟨⟨grid, b, Registry.create (fun l => l) part pins, part⟩, []⟩ (sourceText ls0) → ∀ o, Permutes o →
      SameWay out (main env load o i out) (main env sameLoad sameOrder i out) ∧ SameWay out (main env sameLoad sameOrder i out) (main env load o i out) := by
    intro i ls0 b hi hsh hst o ho
    have hset : ∀ db text, Starts env sameLoad i db text → Settled db.tiles := fun db text h => by
      obtain ⟨rfl, _⟩ := starts_unique hst h
      exact ⟨hdb.settled.aliases, hdb.settled.onePudc, hdb.settled.banks, hdb.settled.buses⟩
    have hl : ∀ text, Input i text → ∀ line, IsLine text line → line.length < 2 ^ 28 := by
      intro text h
      have e := (inputText_iff _ _).2 h
      rw [(inputText_iff _ _).2 hi] at e
      cases e
      exact hsh
    have h := C66_ends env sameLoad load sameLoad_ok hload sameOrder o sameOrder_permutes ho i hset hl out
    exact ⟨⟨h.1.symm, fun x => (h.2.1 x).symm, h.2.2.1.symm, h.2.2.2.symm⟩, h⟩
  obtain ⟨c, _⟩ := C128_written ls (fun l hl => (hls l hl).1) (fun l hl => (hls l hl).2)
  obtain ⟨c', _⟩ := C128_written full (fun l hl => (hfull l hl).1) (fun l hl => (hfull l hl).2)
  obtain ⟨a1, a2, a3⟩ := clean_ends env sameLoad sameLoad_ok sameOrder sameOrder_permutes inv out _ _ hs c hshort
  obtain ⟨b1, b2, b3⟩ := clean_ends env sameLoad sameLoad_ok sameOrder sameOrder_permutes inv' out _ _ hs' c' hshort'
  have ha : Assembles (⟨grid, bits, Registry.create (fun l => l) part pins, part⟩ : Tiles) (sourceText ls) ↔
      Assembles (⟨grid, bits', Registry.create (fun l => l) part pins, part⟩ : Tiles) (sourceText full) := by
    rw [sourceAssembles_iff _ ls (fun l hl => (hls l hl).1), sourceAssembles_iff _ full (fun l hl => (hfull l hl).1),
      whole_assembles ⟨grid, bits, Registry.create (fun l => l) part pins, part⟩ pins rfl hdb.settled files ls hls hf,
      whole_assembles ⟨grid, bits', Registry.create (fun l => l) part pins, part⟩ pins rfl hdb.settled files full hfull hf']
    exact (C134_suffice hout hapart files).symm
  have succ : ∀ o fuel, main env sameLoad sameOrder inv out fuel = some (.ok (0, o)) ↔ main env sameLoad sameOrder inv' out fuel = some (.ok (0, o)) := fun o fuel =>
    C134_program env sameLoad sameLoad_ok sameOrder sameOrder sameOrder_permutes sameOrder_permutes inv inv' path hcfg hcfg' hpart hdate htime grid part pins files ls full hdb hls hfull
      htext htext' hapart hout out o fuel
  have mid : SameWay out (main env sameLoad sameOrder inv out) (main env sameLoad sameOrder inv' out) := by
    refine ⟨⟨fun h => absurd h a1, fun h => absurd h b1⟩, fun o => ?_, by rw [a2, b2, ha], by rw [a3, b3, ha]⟩
    constructor
    · rintro ⟨n, hn⟩
      exact ⟨n, fun fuel hfu => (succ o fuel).1 (hn fuel hfu)⟩
    · rintro ⟨n, hn⟩
      exact ⟨n, fun fuel hfu => (succ o fuel).2 (hn fuel hfu)⟩
  exact ⟨sameWay_trans (same inv ls bits htext hshort hs ord hord).1 (sameWay_trans mid (same inv' full bits' htext' hshort' hs' ord' hord').2),
    fun h => a1 ((same inv ls bits htext hshort hs ord hord).1.1.1 h)⟩

theorem line_within {text line : Bytes} (h : IsLine text line) : line.length ≤ text.length := by
  obtain ⟨pre, post, rfl, _⟩ := h
  simp only [List.length_append]
  omega

/-- The yard. -/
example (load : LoadOrder) (hload : LoadOk load) (ord ord' : HashOrder) (hord : Permutes ord) (hord' : Permutes ord') (out : OStream) :
    SameWay out (main yardEnv load ord yardInv out) (main yardEnv load ord' yardFullInv out) :=
  (C134_ends yardEnv load hload ord ord' hord hord' yardInv yardFullInv bytes!"d" ⟨by decide, Or.inr ⟨rfl, rfl⟩, by decide, by decide, by decide⟩
    ⟨by decide, Or.inr ⟨rfl, rfl⟩, by decide, by decide, by decide⟩ rfl rfl rfl yardGrid smallDesc yardPins (fun _ => yardContents) [yardStep] yardFull yard_files yard_ok yard_full_ok
    (Or.inr ⟨fun _ _ h => by simp [yardInv, fileInv] at h, rfl⟩) (Or.inr ⟨fun _ _ h => by simp [yardFullInv, yardInv, fileInv] at h, rfl⟩)
    (fun line h => Nat.lt_of_le_of_lt (line_within h) (by
      have : (sourceText [yardStep]).length = 22 := by decide +kernel
      omega))
    (fun line h => Nat.lt_of_le_of_lt (line_within h) (by
      have : (sourceText yardFull).length < 1000 := by decide +kernel
      omega)) yard_apart yard_full out).1

end Verif.Props
