import Verif.Spec.Ending
import Verif.Props.C96
import Verif.Props.C104
import Verif.Props.C114
/-! # C119: the end of every run -/
namespace Verif.Props
open Verif.Db Verif.Asm Verif.Spec Verif.Text
open Verif.Xc7 (OStream)

/-- The lines before are accepted: what happens at the next line, if that is not. -/
theorem frames_stop (ord : HashOrder) (text : Bytes) (db : PartDatabase) (frames : Frames) (hp : PudcOk db.tiles.grid)
    (pre bad post : Bytes) (hplace : Place text pre bad post) (hpre : LinesOk pre) (hb : LineRefused bad) :
    assembleFrames ord text db frames = .err := by
  obtain ⟨pudcb, h1, _⟩ := pudcb_ok db.tiles.grid hp
  obtain ⟨r, hr⟩ := parsed_ok pre hpre
  have hr := (lines_plain pre r).2 hr
  obtain ⟨st, hst, hres⟩ := hb
  have hplain : plainLine bad = .err := by
    unfold plainLine
    rw [hst]
    dsimp only
    rw [if_pos hres]
  unfold assembleFrames
  rw [h1, Outcome.bind_ok, getlines_place hplace, assembleLines_append _ _ [] r hr]
  show (((assembleLines (bufferAfter (getlines pre)) _) >>= _) >>= _) = _
  rw [assembleLines, assembleLine_plain _ bad (getlines_like text bad ((mem_getlines _ _).2 (place_isLine hplace))) (by rw [hplain]; simp), hplain]
  rfl

theorem stopsAfterTick_undefined {body : Bytes} (h : StopsAfterTick body) : Undefined body := by
  obtain ⟨g, name, r, w, h1, h2, _⟩ := h
  exact Or.inl ⟨g, name, r, w, h1, h2⟩

/-- Features up to one without a dot. -/
theorem fold_dotless {tiles : Tiles} (hok : TilesOk tiles) (ord : HashOrder) (hord : Permutes ord) (F : FasmFeature) (post : List FasmFeature)
    (hF : 0x2e ∉ F.name) : ∀ (pre : List FasmFeature) (n : Nat), (∀ G ∈ pre, FeatureOk tiles G) →
    ∀ (db : PartDatabase), Reachable tiles db → ∀ fr : Frames, fr.Sorted →
    ((pre ++ F :: post).zipIdx n).foldlM (processFeature ord) (db, fr) = .err := by
  intro pre
  induction pre with
  | nil =>
    intro n _ db hdb fr hs
    rw [List.nil_append, List.zipIdx_cons, List.foldlM_cons, feature_err ord _ F n hF]; rfl
  | cons G pre ih =>
    intro n hpre db hdb fr hs
    rw [List.cons_append, List.zipIdx_cons, List.foldlM_cons]
    obtain ⟨db', fr', h1, h2, h3⟩ := feature_ok hok ord hord G n db hdb fr hs (hpre G (by simp))
    rw [h1]
    exact ih (n + 1) (fun G h => hpre G (List.mem_cons_of_mem _ h)) db' h2 fr' h3.sorted

/-- An error in the features: one without a dot, all before it fine. -/
theorem fold_err {tiles : Tiles} (hok : TilesOk tiles) (ord : HashOrder) (hord : Permutes ord) : ∀ (fs : List FasmFeature) (n : Nat)
    (db : PartDatabase), Reachable tiles db → BitsNoErr db → ∀ fr : Frames, fr.Sorted →
    (fs.zipIdx n).foldlM (processFeature ord) (db, fr) = .err →
    ∃ pre F post, fs = pre ++ F :: post ∧ (∀ G ∈ pre, FeatureOk tiles G) ∧ 0x2e ∉ F.name := by
  intro fs
  induction fs with
  | nil => intro n db _ _ fr _ h; cases h
  | cons F fs ih =>
    intro n db hdb hb fr hs h
    rw [List.zipIdx_cons, List.foldlM_cons] at h
    obtain ⟨h1, h2⟩ := noErr_feature ord (db, fr) (F, n) hb
    cases hp : processFeature ord (db, fr) (F, n) with
    | err => exact ⟨[], F, fs, rfl, by simp, h1 hp⟩
    | abort => rw [hp] at h; cases h
    | ub => rw [hp] at h; cases h
    | ok r =>
      rw [hp] at h
      have hF := feature_inv hok ord hord F n db hdb fr hs _ hp
      obtain ⟨db', fr', h3, h4, h5⟩ := feature_ok hok ord hord F n db hdb fr hs hF
      rw [h3] at hp
      cases hp
      obtain ⟨pre, G, post, he, hpre, hG⟩ := ih (n + 1) db' h4 (h2 _ h3).1 fr' h5.sorted h
      refine ⟨F :: pre, G, post, by rw [he]; rfl, fun H hH => ?_, hG⟩
      rcases List.mem_cons.1 hH with rfl | hH
      · exact hF
      · exact hpre H hH

/-- The text is refused exactly if assembling it ends in an error, whatever the state of the database files. -/
theorem C119_text {tiles : Tiles} (hok : TilesOk tiles) (ord : HashOrder) (hord : Permutes ord) (text : Bytes)
    (hshort : ∀ line, IsLine text line → line.length < 2 ^ 28) (db : PartDatabase) (hdb : Reachable tiles db) (hb : BitsNoErr db) :
    assembleFrames ord text db [] = .err ↔ TextRefused tiles text := by
  have htiles := (reachable_cache hdb).1
  by_cases hpudc : PudcOk tiles.grid
  case neg =>
    refine ⟨fun herr => ?_, fun h => absurd h.1 hpudc⟩
    exfalso
    refine hpudc fun tile pin hpin => ?_
    rintro rfl
    unfold assembleFrames at herr
    rw [htiles, C55_unnamed_pin _ _ hpin] at herr
    cases herr
  have hp : PudcOk db.tiles.grid := by rw [htiles]; exact hpudc
  refine Iff.trans ?_ (and_iff_right hpudc).symm
  constructor
  · intro herr
    by_cases hl : LinesOk text
    · obtain ⟨pudcb, h4, h5⟩ := pudcb_ok tiles.grid hpudc
      obtain ⟨parsed, h6⟩ := parsed_ok text hl
      obtain ⟨_, h7⟩ := parsed_inv text parsed h6
      have hbasic : (fun G => G ∈ pudcb ++ parsed.flatten) = Basic tiles text := by
        funext G
        rw [List.mem_append, h5, h7]; rfl
      unfold assembleFrames at herr
      rw [htiles, h4, Outcome.bind_ok, (lines_plain text parsed).2 h6, Outcome.bind_ok] at herr
      cases hsd : stepdownFeatures ord tiles.banks tiles.grid (pudcb ++ parsed.flatten) with
      | err => exact absurd hsd (noErr_stepdown _ _ _ _)
      | abort => rw [hsd] at herr; cases herr
      | ub => rw [hsd] at herr; cases herr
      | ok sd =>
        rw [hsd, Outcome.bind_ok] at herr
        obtain ⟨hsdok, h9⟩ := stepdown_inv ord hord tiles _ _ hsd
        rw [hbasic] at hsdok h9
        obtain ⟨pre, F, post, he, hpre, hF⟩ := fold_err hok ord hord _ 0 db hdb hb [] List.Pairwise.nil herr
        have hpud : ∀ G ∈ pudcb, FeatureOk tiles G ∧ 0x2e ∈ G.name := by
          have key : ∀ G ∈ pudcb, 0x2e ∈ G.name := fun G hG => pudc_dot ((h5 G).1 hG)
          intro G hG
          refine ⟨?_, key G hG⟩
          rw [List.append_assoc] at he
          rcases List.append_eq_append_iff.1 he with ⟨c, hc, _⟩ | ⟨c, hc, hd⟩
          · exact hpre G (by rw [hc]; exact List.mem_append_left _ hG)
          · cases c with
            | nil => rw [List.append_nil] at hc; rw [hc] at hG; exact hpre G hG
            | cons x c =>
              obtain ⟨rfl, _⟩ := List.cons.inj hd
              exact absurd (key F (by rw [hc]; simp)) hF
        have hmem : F ∈ pudcb ++ parsed.flatten ++ sd := by rw [he]; simp
        have hmemF : F ∈ parsed.flatten := by
          rcases List.mem_append.1 hmem with hm | hm
          · rcases List.mem_append.1 hm with hm | hm
            · exact absurd (hpud F hm).2 hF
            · exact hm
          · exact absurd (stepdown_dot ((h9 F).1 hm)) hF
        obtain ⟨ps, hps1, hps2, hps3⟩ := (mapM_ok_iff _ _ _).1 h6
        rcases first_bad (fun p : Bytes × List FasmFeature => ∀ G ∈ p.2, 0x2e ∈ G.name) ps with hq | ⟨q, p, q', hqe, hq, hbad⟩
        · exfalso
          rw [hps2] at hmemF
          obtain ⟨fs, hfs, hm⟩ := List.mem_flatten.1 hmemF
          obtain ⟨p, hpm, rfl⟩ := List.mem_map.1 hfs
          exact hF (hq p hpm F hm)
        rcases first_bad (fun G : FasmFeature => 0x2e ∈ G.name) p.2 with h | ⟨a', F', b', he', ha', hF'⟩
        · exact absurd h hbad
        have hgl : getlines text = q.map (·.1) ++ p.1 :: q'.map (·.1) := by rw [hps1, hqe]; simp
        obtain ⟨hplace, hglpre⟩ := getlines_split _ _ _ _ hgl
        have hsays : Says p.1 F' := by
          obtain ⟨st, h1, _, h2⟩ := plainLine_ok _ _ (hps3 p (by rw [hqe]; simp))
          have hm : F' ∈ p.2 := by rw [he']; simp
          rw [h2] at hm
          obtain ⟨n, h3, h4⟩ := (mem_toFeature _ _).1 hm
          exact ⟨st, n, h1, h3, h4⟩
        refine .name hl hsdok (fun G hG => (hpud G ((h5 G).2 hG)).1) _ p.1 _ F' hplace ?_ hsays hF'
        have hpm : (getlines (q.map (·.1)).flatten).mapM plainLine = .ok (q.map (·.2)) := by
          refine (mapM_ok_iff _ _ _).2 ⟨q, hglpre, rfl, fun p hp => hps3 p ?_⟩
          rw [hqe]; exact List.mem_append.2 (Or.inl hp)
        have hdotpre : ∀ G ∈ (q.map (·.2)).flatten, 0x2e ∈ G.name := by
          intro G hG
          obtain ⟨fs, hfs, hm⟩ := List.mem_flatten.1 hG
          obtain ⟨p, hpm, rfl⟩ := List.mem_map.1 hfs
          exact hq p hpm G hm
        intro G hG
        have hG := ((parsed_inv _ _ hpm).2 G).2 hG
        have hsplit : pudcb ++ parsed.flatten ++ sd = (pudcb ++ (q.map (·.2)).flatten) ++ (p.2 ++ (q'.map (·.2)).flatten ++ sd) := by
          rw [hps2, hqe]
          simp only [List.map_append, List.map_cons, List.flatten_append, List.flatten_cons, List.append_assoc]
        rw [hsplit] at he
        rcases List.append_eq_append_iff.1 he with ⟨c, hc, _⟩ | ⟨c, hc, hd⟩
        · exact hpre G (by rw [hc]; exact List.mem_append_left _ (List.mem_append_right _ hG))
        · cases c with
          | nil =>
            rw [List.append_nil] at hc
            exact hpre G (by rw [← hc]; exact List.mem_append_right _ hG)
          | cons x c =>
            obtain ⟨rfl, _⟩ := List.cons.inj hd
            have : F ∈ pudcb ++ (q.map (·.2)).flatten := by rw [hc]; simp
            rcases List.mem_append.1 this with hm | hm
            · exact absurd (hpud F hm).2 hF
            · exact absurd (hdotpre F hm) hF
    · rcases first_bad Accepted (getlines text) with hall | ⟨a, bad, b, he, ha, hbad⟩
      · exact absurd (fun line hline => hall line ((mem_getlines _ _).2 hline)) hl
      obtain ⟨hplace, hpre⟩ := getlines_split _ _ _ _ he
      have hlo : LinesOk a.flatten := fun line hline => ha line (by rw [← hpre]; exact (mem_getlines _ _).2 hline)
      cases hparse : Fasm.parse true (fun _ => true) bad with
      | ok st =>
        refine .line _ bad _ hplace hlo ⟨st, hparse, Classical.byContradiction fun hres => hbad ⟨st, hparse, ?_⟩⟩
        exact ⟨fun h => hres (Or.inl h), fun h => hres (Or.inr h)⟩
      | _ =>
        have hno : ∀ st, Fasm.parse true (fun _ => true) bad ≠ .ok st := by
          intro st h; rw [hparse] at h; cases h
        obtain ⟨_, _, ⟨body, rfl, hnl⟩ | ⟨_, hne, hn⟩⟩ := id hplace
        · have hlen : body.length < 2 ^ 28 := by
            have := hshort _ (place_isLine hplace)
            rw [List.length_append] at this
            exact Nat.lt_of_le_of_lt (Nat.le_add_right _ _) this
          have hu : Undefined body := Classical.byContradiction fun h => by
            obtain ⟨st, hst⟩ := (C72_defined body hnl hlen).2 h
            exact hno st hst
          have h := C72_undefined ord text db [] hp _ body _ hplace hlo hnl hlen hu
          by_cases hs : StopsAfterTick body ∧ Overshadowed a.flatten (body ++ [0x0a])
          · exact .tick _ body _ hplace hnl hlo hs.1 hs.2
          · rw [h.2 hs] at herr; cases herr
        · obtain ⟨s, c, rfl⟩ : ∃ s c, bad = s ++ [c] := ⟨bad.dropLast, bad.getLast hne, (List.dropLast_concat_getLast hne).symm⟩
          exact absurd (C24_no_newline true _ s c (fun e => hn (by simp [e]))) (hno _)
  · intro h
    cases h with
    | line pre bad post h h1 h2 => exact frames_stop ord text db [] hp pre bad post h h1 h2
    | tick pre body post h h0 h1 h2 h3 =>
      have hlen : body.length < 2 ^ 28 := by
        have := hshort _ (place_isLine h)
        rw [List.length_append] at this
        exact Nat.lt_of_le_of_lt (Nat.le_add_right _ _) this
      exact (C72_undefined ord text db [] hp pre body post h h1 h0 hlen (stopsAfterTick_undefined h2)).1 ⟨h2, h3⟩
    | name hl hsd hpu pre line post F hplace hpre hsays hdot =>
      obtain ⟨pudcb, h4, h5⟩ := pudcb_ok tiles.grid hpudc
      obtain ⟨parsed, h6⟩ := parsed_ok text hl
      obtain ⟨_, h7⟩ := parsed_inv text parsed h6
      have hb : (fun G => G ∈ pudcb ++ parsed.flatten) = Basic tiles text := by
        funext G
        rw [List.mem_append, h5, h7]; rfl
      obtain ⟨sd, h8⟩ := stepdown_ok ord hord tiles (pudcb ++ parsed.flatten) (by rw [hb]; exact hsd)
      have hline := place_isLine hplace
      obtain ⟨name, hname⟩ := C72_statements text line hl (hshort _ hline) hline
      obtain ⟨ps, hps1, hps2, hps3⟩ := (mapM_ok_iff _ _ _).1 h6
      rw [getlines_place hplace] at hps1
      obtain ⟨a, b0, rfl, ha, hb0⟩ := List.append_eq_map_iff.1 hps1
      cases b0 with
      | nil => cases hb0
      | cons p b =>
        obtain ⟨hp1, hb1⟩ := List.cons.inj hb0
        have hparse : plainLine p.1 = .ok p.2 := hps3 p (by simp)
        have hp1 : p.1 = line := hp1
        rw [hp1] at hparse
        obtain ⟨st, hst, _, hfs⟩ := plainLine_ok _ _ hparse
        have hmF : F ∈ p.2 := by
          obtain ⟨st', n, h1, h2, h3⟩ := hsays
          rw [hst] at h1; cases h1
          rw [hfs]
          exact (mem_toFeature _ _).2 ⟨n, h2, h3⟩
        cases hp2 : p.2 with
        | nil => rw [hp2] at hmF; cases hmF
        | cons F0 rest =>
          have hF0 : Says line F0 := by
            obtain ⟨n, h3, h4⟩ := (mem_toFeature st.trace F0).1 (by rw [← hfs, hp2]; simp)
            exact ⟨st, n, hst, h3, h4⟩
          have hdot0 : 0x2e ∉ F0.name := by rw [(hname F0 hF0).1, ← (hname F hsays).1]; exact hdot
          have hdecomp : pudcb ++ parsed.flatten ++ sd =
              (pudcb ++ (a.map (·.2)).flatten) ++ F0 :: (rest ++ (b.map (·.2)).flatten ++ sd) := by
            rw [hps2]
            simp only [List.map_append, List.map_cons, List.flatten_append, List.flatten_cons, hp2, List.append_assoc, List.cons_append]
          have hpm : (getlines pre).mapM plainLine = .ok (a.map (·.2)) :=
            (mapM_ok_iff _ _ _).2 ⟨a, ha.symm, rfl, fun q hq => hps3 q (List.mem_append.2 (Or.inl hq))⟩
          have hallpre : ∀ G ∈ pudcb ++ (a.map (·.2)).flatten, FeatureOk tiles G := by
            intro G hG
            rcases List.mem_append.1 hG with hG | hG
            · exact hpu G ((h5 G).1 hG)
            · exact hpre G (((parsed_inv _ _ hpm).2 G).1 hG)
          unfold assembleFrames
          rw [htiles, h4, Outcome.bind_ok, (lines_plain text parsed).2 h6, Outcome.bind_ok, h8, Outcome.bind_ok, hdecomp]
          exact fold_dotless hok ord hord F0 _ hdot0 _ 0 hallpre db hdb [] List.Pairwise.nil

/-! ## The program -/

theorem endsWith_unique {α : Type} {run : Nat → Option α} {r r' : α} (h : EndsWith run r) (h' : EndsWith run r') : r = r' := by
  obtain ⟨n, h⟩ := h
  obtain ⟨m, h'⟩ := h'
  have e := h (n + m) (by omega)
  rw [h' (n + m) (by omega)] at e
  exact (Option.some.inj e).symm

theorem endsWith_ends {α : Type} {run : Nat → Option α} {r : α} (h : EndsWith run r) : ¬ NeverEnds run := by
  obtain ⟨n, h⟩ := h
  intro hn
  have e := h n (Nat.le_refl _)
  rw [hn] at e
  cases e

section
variable (env : Env) (load : LoadOrder) (ord : HashOrder) (inv : Invocation) (out : OStream)

theorem configured_unique {path path' : Bytes} (h : Configured env inv path) (h' : Configured env inv path') : path = path' := by
  have h1 := (C61_setting _ _ _).2 h.2.1
  rw [(C61_setting _ _ _).2 h'.2.1] at h1
  exact (Outcome.ok.inj h1).symm

theorem starts_configured {db : PartDatabase} {text : Bytes} (h : Starts env load inv db text) :
    ∃ path, Configured env inv path ∧ parseDatabase env load [path] inv.part = .ok db ∧ Input inv text := by
  obtain ⟨h1, h2, h3, path, h4, h5, h6, h7⟩ := h
  exact ⟨path, ⟨h1, h4, h5, h6, h2⟩, h7, h3⟩

theorem main_configured {path : Bytes} (h : Configured env inv path) (fuel : Nat) :
    main env load ord inv out fuel = match parseDatabase env load [path] inv.part with
      | .err => some (.ok (1, out))
      | .abort => some .abort
      | .ub => some .ub
      | .ok db => mainLoaded ord inv db out fuel := by
  obtain ⟨h1, h2, h3, h4, h5⟩ := h
  unfold main
  rw [if_neg (by omega), (C61_setting _ _ _).2 h2]
  dsimp only
  rw [if_neg (by simp [h3, h4]), if_neg h5]
  cases parseDatabase env load [path] inv.part <;> rfl

theorem main_unconfigured (h : ∀ path, ¬ Configured env inv path) (fuel : Nat) :
    main env load ord inv out fuel = some (.ok (1, out)) := by
  unfold main
  by_cases h1 : inv.args.length > 2
  · rw [if_pos h1]
  rw [if_neg h1]
  split
  · rename_i path hp
    by_cases h2 : path = [] ∨ env.fileExists [path] = false
    · rw [if_pos h2]
    rw [if_neg h2]
    by_cases h3 : inv.part = []
    · rw [if_pos h3]
    · refine absurd ⟨by omega, (C61_setting _ _ _).1 hp, fun e => h2 (Or.inl e), ?_, h3⟩ (h path)
      cases he : env.fileExists [path] with
      | true => rfl
      | false => exact absurd (Or.inr he) h2
  · rfl

theorem database_says (x : LibTexts) {path message : Bytes} (h : DatabaseTrouble x env [path] inv.part (.says message)) :
    parseDatabase env load [path] inv.part = .err := by
  have h := ((C104_database x env load [path] inv.part).2.1 message).2 h
  rw [← C104_same_database x, h]
  rfl

variable (hload : LoadOk load) (hord : Permutes ord)
  (hstart : ∀ db text, Starts env load inv db text → ∀ line, IsLine text line → line.length < 2 ^ 28)
include hload hord hstart

theorem refused_ends (x : LibTexts) (h : RunRefused x env load inv) : EndsWith (main env load ord inv out) (.ok (1, out)) := by
  refine ⟨0, fun fuel _ => ?_⟩
  cases h with
  | settings h => exact main_unconfigured env load ord inv out h fuel
  | database path message h h1 => rw [main_configured env load ord inv out h, database_says env load inv x h1]
  | input path db h h1 h2 =>
    rw [main_configured env load ord inv out h, h1]
    dsimp only
    unfold mainLoaded
    rw [inputText_none inv h2]
  | text db text h h1 =>
    have hshort := hstart db text h
    obtain ⟨path, _, hparse, _⟩ := starts_configured env load inv h
    obtain ⟨hok, hr⟩ := C45_loaded env load hload _ _ db hparse
    exact (C72_program env load ord inv out fuel db text h).1 ((C119_text hok ord hord text hshort db hr (starts_bits h)).2 h1)

theorem crashes_ends (x : LibTexts) (h : RunCrashes x env load inv) :
    EndsWith (main env load ord inv out) .abort ∨ EndsWith (main env load ord inv out) .ub := by
  cases h with
  | database path h h1 =>
    have hsame := C104_same_database x env load [path] inv.part
    have hdbt := C104_database x env load [path] inv.part
    rcases h1 with h1 | h1
    · rw [hdbt.2.2.1.2 h1] at hsame
      have e : parseDatabase env load [path] inv.part = .abort := hsame.symm
      exact Or.inl ⟨0, fun fuel _ => by rw [main_configured env load ord inv out h, e]⟩
    · rw [hdbt.2.2.2.2 h1] at hsame
      have e : parseDatabase env load [path] inv.part = .ub := hsame.symm
      exact Or.inr ⟨0, fun fuel _ => by rw [main_configured env load ord inv out h, e]⟩
  | text db text h h1 h2 =>
    have hshort := hstart db text h
    obtain ⟨path, _, hparse, _⟩ := starts_configured env load inv h
    obtain ⟨hok, hr⟩ := C45_loaded env load hload _ _ db hparse
    have hprog := fun fuel => C72_program env load ord inv out fuel db text h
    cases ha : assembleFrames ord text db [] with
    | ok r => exact absurd ((C50_succeeds hok ord hord text db hr).1 ⟨r, ha⟩) h1
    | err => exact absurd ((C119_text hok ord hord text hshort db hr (starts_bits h)).1 ha) h2
    | abort => exact Or.inl ⟨0, fun fuel _ => (hprog fuel).2.1 ha⟩
    | ub => exact Or.inr ⟨0, fun fuel _ => (hprog fuel).2.2 ha⟩

theorem prints_ends (db : PartDatabase) (text : Bytes) (h : Starts env load inv db text) (hasm : Assembles db.tiles text)
    (hsmall : ¬ WalkEndless db.tiles.part) : ∃ o, EndsWith (main env load ord inv out) (.ok (0, o)) := by
  obtain ⟨p, hp⟩ : ∃ p, Xc7.Part.fromPart db.tiles.part = .ok p := ⟨_, rfl⟩
  rcases main_ways env load hload ord hord inv out db text h with ⟨hasm, db', frames, ha, ht⟩ | ⟨hno, _⟩
  · have hex := missing_ends_iff p (Xc7.zeroFrame Xc7.frameWordsBase) (Xc7.convertFrames [] frames)
    obtain ⟨fuel0, o, ho⟩ := encode_ends db.tiles.part p hp kFasm kSource inv.date inv.time frames out (hex.2 (by
      apply Classical.byContradiction
      intro hi
      refine hsmall fun p' hp' i h => hi ⟨i, ?_⟩
      rw [hp] at hp'
      cases hp'
      exact h))
    exact ⟨o, fuel0, fun fuel hf => main_started env load ord inv out fuel db text h db' frames ha o (by rw [ht]; exact ho fuel hf)⟩
  · exact absurd hasm hno

omit hload hord hstart in
/-- **No other case**: every run is refused, or broken off or undefined, or the design assembles. -/
theorem C119_cases (x : LibTexts) : RunRefused x env load inv ∨ RunCrashes x env load inv ∨
    ∃ db text, Starts env load inv db text ∧ Assembles db.tiles text := by
  by_cases hc : ∃ path, Configured env inv path
  rotate_left
  · exact Or.inl (.settings fun path h => hc ⟨path, h⟩)
  obtain ⟨path, hc⟩ := hc
  have hdbt := C104_database x env load [path] inv.part
  have hsame := C104_same_database x env load [path] inv.part
  cases hM : parseDatabaseM x env load [path] inv.part with
  | err m => exact Or.inl (.database path m hc ((hdbt.2.1 m).1 hM))
  | abort => exact Or.inr (Or.inl (.database path hc (Or.inl (hdbt.2.2.1.1 hM))))
  | ub => exact Or.inr (Or.inl (.database path hc (Or.inr (hdbt.2.2.2.1 hM))))
  | ok db =>
    rw [hM] at hsame
    have hparse : parseDatabase env load [path] inv.part = .ok db := hsame.symm
    by_cases hi : ∃ text, Input inv text
    rotate_left
    · exact Or.inl (.input path db hc hparse fun text h => hi ⟨text, h⟩)
    obtain ⟨text, hi⟩ := hi
    have hs : Starts env load inv db text := ⟨hc.1, hc.2.2.2.2, hi, path, hc.2.1, hc.2.2.1, hc.2.2.2.1, hparse⟩
    by_cases h1 : Assembles db.tiles text
    · exact Or.inr (Or.inr ⟨db, text, hs, h1⟩)
    by_cases h2 : TextRefused db.tiles text
    · exact Or.inl (.text db text hs h2)
    · exact Or.inr (Or.inl (.text db text hs h1 h2))

/-- **How the program ends**, for every invocation, database directory and input: with status 1 and nothing printed exactly if the run
is refused; with status 0 exactly if the design assembles and the walk over the frame addresses of the part ends; never, exactly if
the design assembles and that walk has no end (`C114_revisits`, `C114_endless` say for which parts); by a signal or without defined behaviour exactly in the cases listed as crashes. -/
theorem C119_program (x : LibTexts) :
    (EndsWith (main env load ord inv out) (.ok (1, out)) ↔ RunRefused x env load inv) ∧
    ((∃ o, EndsWith (main env load ord inv out) (.ok (0, o))) ↔
      ∃ db text, Starts env load inv db text ∧ Assembles db.tiles text ∧ ¬ WalkEndless db.tiles.part) ∧
    (NeverEnds (main env load ord inv out) ↔
      ∃ db text, Starts env load inv db text ∧ Assembles db.tiles text ∧ WalkEndless db.tiles.part) ∧
    ((EndsWith (main env load ord inv out) .abort ∨ EndsWith (main env load ord inv out) .ub) ↔ RunCrashes x env load inv) := by
  have r := refused_ends env load ord inv out hload hord hstart x
  have c := crashes_ends env load ord inv out hload hord hstart x
  have p := prints_ends env load ord inv out hload hord hstart
  have n : ∀ db text, Starts env load inv db text → Assembles db.tiles text → WalkEndless db.tiles.part → NeverEnds (main env load ord inv out) := by
    intro db text hs ha hbig
    exact (C114_hangs_walk env load hload ord hord inv out db text hs).2 ⟨ha, hbig⟩
  have e : RunRefused x env load inv ∨ RunCrashes x env load inv ∨
      (∃ db text, Starts env load inv db text ∧ Assembles db.tiles text ∧ ¬ WalkEndless db.tiles.part) ∨
      ∃ db text, Starts env load inv db text ∧ Assembles db.tiles text ∧ WalkEndless db.tiles.part := by
    rcases C119_cases env load inv x with h | h | ⟨db, text, h1, h2⟩
    · exact Or.inl h
    · exact Or.inr (Or.inl h)
    · by_cases h3 : WalkEndless db.tiles.part
      · exact Or.inr (Or.inr (Or.inr ⟨db, text, h1, h2, h3⟩))
      · exact Or.inr (Or.inr (Or.inl ⟨db, text, h1, h2, h3⟩))
  have hne : ∀ {a b : Outcome (Nat × OStream)}, a ≠ b → EndsWith (main env load ord inv out) a → EndsWith (main env load ord inv out) b → False :=
    fun h h1 h2 => h (endsWith_unique h1 h2)
  refine ⟨⟨fun h => ?_, r⟩, ⟨?_, ?_⟩, ⟨fun h => ?_, ?_⟩, ⟨fun h => ?_, c⟩⟩
  · rcases e with e | e | ⟨db, text, h1, h2, h3⟩ | ⟨db, text, h1, h2, h3⟩
    · exact e
    · rcases c e with c | c
      · exact (hne (by simp) h c).elim
      · exact (hne (by simp) h c).elim
    · obtain ⟨o, ho⟩ := p db text h1 h2 h3
      exact (hne (by simp) h ho).elim
    · exact absurd (n db text h1 h2 h3) (endsWith_ends h)
  · rintro ⟨o, h⟩
    rcases e with e | e | e | ⟨db, text, h1, h2, h3⟩
    · exact (hne (by simp) h (r e)).elim
    · rcases c e with c | c
      · exact (hne (by simp) h c).elim
      · exact (hne (by simp) h c).elim
    · exact e
    · exact absurd (n db text h1 h2 h3) (endsWith_ends h)
  · rintro ⟨db, text, h1, h2, h3⟩
    exact p db text h1 h2 h3
  · rcases e with e | e | ⟨db, text, h1, h2, h3⟩ | e
    · exact absurd h (endsWith_ends (r e))
    · rcases c e with c | c
      · exact absurd h (endsWith_ends c)
      · exact absurd h (endsWith_ends c)
    · obtain ⟨o, ho⟩ := p db text h1 h2 h3
      exact absurd h (endsWith_ends ho)
    · exact e
  · rintro ⟨db, text, h1, h2, h3⟩
    exact n db text h1 h2 h3
  · rcases e with e | e | ⟨db, text, h1, h2, h3⟩ | ⟨db, text, h1, h2, h3⟩
    · rcases h with h | h
      · exact (hne (by simp) h (r e)).elim
      · exact (hne (by simp) h (r e)).elim
    · exact e
    · obtain ⟨o, ho⟩ := p db text h1 h2 h3
      rcases h with h | h
      · exact (hne (by simp) h ho).elim
      · exact (hne (by simp) h ho).elim
    · rcases h with h | h
      · exact absurd (n db text h1 h2 h3) (endsWith_ends h)
      · exact absurd (n db text h1 h2 h3) (endsWith_ends h)

end

/-- Which of these it is does not depend on the order in which hash containers are walked, nor on what standard output already holds. -/
theorem C119_order (env : Env) (load : LoadOrder) (ord ord' : HashOrder) (inv : Invocation) (out out' : OStream) (hload : LoadOk load)
    (hord : Permutes ord) (hord' : Permutes ord')
    (hstart : ∀ db text, Starts env load inv db text → ∀ line, IsLine text line → line.length < 2 ^ 28) :
    (EndsWith (main env load ord inv out) (.ok (1, out)) ↔ EndsWith (main env load ord' inv out') (.ok (1, out'))) ∧
    ((∃ o, EndsWith (main env load ord inv out) (.ok (0, o))) ↔ ∃ o, EndsWith (main env load ord' inv out') (.ok (0, o))) ∧
    (NeverEnds (main env load ord inv out) ↔ NeverEnds (main env load ord' inv out')) := by
  have x : LibTexts := ⟨fun _ => [], fun _ => ([], 0), fun _ => []⟩
  obtain ⟨h1, h2, h3, _⟩ := C119_program env load ord inv out hload hord hstart x
  obtain ⟨h1', h2', h3', _⟩ := C119_program env load ord' inv out' hload hord' hstart x
  exact ⟨h1.trans h1'.symm, h2.trans h2'.symm, h3.trans h3'.symm⟩

/-! ## Examples: one of each -/

def rowsInv (text : Bytes) : Invocation := { fileInv with stdin := text }

theorem rows_starts (n : Nat) (hn : n ≤ 2 ^ 31) (text : Bytes) : Starts (descEnv (rowsDesc n)) sameLoad (rowsInv text) ⟨descTiles (rowsDesc n), []⟩ text :=
  ⟨Nat.le_succ 1, List.cons_ne_nil _ _, Or.inr ⟨fun _ _ h => by simp [rowsInv, fileInv] at h, rfl⟩, bytes!"d", Or.inr ⟨rfl, rfl⟩, by decide, by
    show fileEnv.fileExists [bytes!"d"] = true
    decide, desc_database _ (rowsDesc_valid n hn)⟩

/-- The hypotheses of the theorem hold for this directory and every text with short lines. -/
theorem rows_hypotheses (n : Nat) (hn : n ≤ 2 ^ 31) (text : Bytes) (ht : text.length < 2 ^ 28) :
    ∀ db t, Starts (descEnv (rowsDesc n)) sameLoad (rowsInv text) db t → ∀ line, IsLine t line → line.length < 2 ^ 28 := by
  intro db t h
  obtain ⟨rfl, rfl⟩ := starts_unique h (rows_starts n hn text)
  rintro line ⟨pre, post, rfl, _⟩
  simp only [List.length_append] at ht
  omega

theorem rows_endless (n : Nat) (hn : n ≤ 2 ^ 31) : WalkEndless (rowsDesc n) ↔ 32 < n :=
  (C114_endless _ (partValid_wellFormed (rowsDesc_valid n hn)) (rowsDesc_documented n hn)).trans (rowsDesc_large n)

/-- `T.F` is assembled for a part of 32 rows; -/
example (out : OStream) : ∃ o, EndsWith (main (descEnv (rowsDesc 32)) sameLoad sameOrder (rowsInv bytes!"T.F\n") out) (.ok (0, o)) := by
  have x : LibTexts := ⟨fun _ => [], fun _ => ([], 0), fun _ => []⟩
  refine (C119_program _ _ _ _ out sameLoad_ok sameOrder_permutes (rows_hypotheses 32 (by decide) _ (by decide)) x).2.1.2
    ⟨_, _, rows_starts 32 (by decide) _, desc_assembles _ (rowsDesc_valid 32 (by decide)) (by decide +kernel), ?_⟩
  intro h
  have := (rows_endless 32 (by decide)).1 h
  omega

/-- for one of 33 rows the program never ends; -/
example (out : OStream) : NeverEnds (main (descEnv (rowsDesc 33)) sameLoad sameOrder (rowsInv bytes!"T.F\n") out) := by
  have x : LibTexts := ⟨fun _ => [], fun _ => ([], 0), fun _ => []⟩
  exact (C119_program _ _ _ _ out sameLoad_ok sameOrder_permutes (rows_hypotheses 33 (by decide) _ (by decide)) x).2.2.1.2
    ⟨_, _, rows_starts 33 (by decide) _, desc_assembles _ (rowsDesc_valid 33 (by decide)) (by decide +kernel), (rows_endless 33 (by decide)).2 (by decide)⟩

/-- a last line without newline is refused; -/
example (out : OStream) : EndsWith (main (descEnv (rowsDesc 33)) sameLoad sameOrder (rowsInv bytes!"T.F\nT.F") out) (.ok (1, out)) := by
  have x : LibTexts := ⟨fun _ => [], fun _ => ([], 0), fun _ => []⟩
  refine (C119_program _ _ _ _ out sameLoad_ok sameOrder_permutes (rows_hypotheses 33 (by decide) _ (by decide)) x).1.2
    (.text _ _ (rows_starts 33 (by decide) _) ⟨fileTiles_pudc, .line bytes!"T.F\n" bytes!"T.F" [] ⟨rfl, Or.inr ⟨bytes!"T.F", rfl⟩, Or.inr ⟨rfl, by decide, by decide⟩⟩ ?_
      ⟨_, rfl, Or.inr rfl⟩⟩)
  intro line hl
  have hl := (mem_getlines _ _).2 hl
  have : getlines bytes!"T.F\n" = [bytes!"T.F\n"] := by decide
  rw [this, List.mem_singleton] at hl
  subst hl
  exact ⟨_, rfl, by decide, by decide⟩

/-- a feature the database does not list stops the program. -/
example (x : LibTexts) : RunCrashes x (descEnv (rowsDesc 32)) sameLoad (rowsInv bytes!"T.Z\n") := by
  refine (C119_program _ _ _ _ ⟨[], 0, true, false⟩ sameLoad_ok sameOrder_permutes (rows_hypotheses 32 (by decide) _ (by decide)) x).2.2.2.1
    (Or.inl ⟨0, fun fuel _ => ?_⟩)
  refine (C72_program _ _ _ _ _ fuel _ _ (rows_starts 32 (by decide) _)).2.1 ?_
  have : (assembleFrames sameOrder bytes!"T.Z\n" ⟨descTiles (rowsDesc 32), []⟩ [] >>= fun r => .ok (r.2.map (·.1))) = .abort := by decide +kernel
  cases h : assembleFrames sameOrder bytes!"T.Z\n" ⟨descTiles (rowsDesc 32), []⟩ [] with
  | abort => rfl
  | ok r => rw [h] at this; cases this
  | err => rw [h] at this; cases this
  | ub => rw [h] at this; cases this

/-- Without a part the run is refused whatever else there is. -/
example (x : LibTexts) (env : Env) (load : LoadOrder) : RunRefused x env load { fileInv with part := [] } :=
  .settings fun _ h => h.2.2.2.2 rfl

end Verif.Props
