import Verif.Proofs.Failure
import Verif.Props.C50_C57
import Verif.Props.C58_C61
import Verif.Props.C65
import Verif.Props.C66
import Verif.Props.C71
/-! # C72: how assembly fails

A text either assembles, or is reported, or stops the program; which one is said here, and nothing else happens. -/
namespace Verif.Props
open Verif.Db Verif.Asm Verif.Spec Verif.Text

/-! ## Lines -/

/-- The parser returns on a line exactly when the line has a defined reading. -/
theorem C72_defined (body : Bytes) (hnl : 0x0a ∉ body) (hlen : body.length < 2 ^ 28) :
    (∃ st, Fasm.parse true (fun _ => true) (body ++ [0x0a]) = .ok st) ↔ ¬ Undefined body := by
  constructor
  · rintro ⟨st, hst⟩ (⟨g, name, r, w, hok, rfl⟩ | ⟨g, f, post, hok, rfl, hfit, hw⟩ | ⟨g, name, r, w, c, post, hok, rfl, hs⟩)
    · rw [(C71_dangling true _ g name r w hok hnl).1] at hst; cases hst
    · rw [show (LineShape.feature g f post).text = f.text g ++ post from rfl] at *
      rw [C71_misfit true _ (fun _ => rfl) g f post hok hnl hfit hw (by have := digitBits_le g f post; omega)] at hst
      cases hst
    · rw [(C71_bad_format true (fun _ => true) g name r w c post hok hnl).2 hs] at hst; cases hst
  · intro hu
    obtain ⟨s, hok, rfl⟩ := C71_shapes body
    cases s with
    | bare g post =>
      by_cases hend : ∃ as, Ending true post as
      · obtain ⟨as, has⟩ := hend
        exact ⟨_, (C71_bare true _ g post hok hnl).1 as has⟩
      · obtain ⟨st, h, _⟩ := (C71_bare true (fun _ => true) g post hok hnl).2 hend
        exact ⟨st, h⟩
    | feature g f post =>
      by_cases hw : f.TooWide
      · obtain ⟨st, h, _⟩ := C71_too_wide true (fun _ => true) g f post hok hnl hw
        exact ⟨st, h⟩
      by_cases hfit : f.FitsRange
      · by_cases hend : ∃ as, Ending true post as
        · obtain ⟨as, has⟩ := hend
          exact ⟨_, (C71_feature true _ g f post hok hnl hfit hw).1 as has⟩
        · obtain ⟨st, h, _⟩ := (C71_feature true (fun _ => true) g f post hok hnl hfit hw).2 hend
          exact ⟨st, h⟩
      · exact absurd (Or.inr (Or.inl ⟨g, f, post, hok, rfl, hfit, hw⟩)) hu
    | openRange g name r post => exact ⟨_, C71_open_range true _ g name r post hok hnl⟩
    | inverted g name r post => exact ⟨_, C71_inverted true _ g name r post hok hnl⟩
    | badFormat g name r w c post =>
      by_cases hs : r.size ≤ 64
      · exact ⟨_, (C71_bad_format true (fun _ => true) g name r w c post hok hnl).1 hs⟩
      · exact absurd (Or.inr (Or.inr ⟨g, name, r, w, c, post, hok, rfl, by omega⟩)) hu
    | dangling g name r w => exact absurd (Or.inl ⟨g, name, r, w, hok, rfl⟩) hu

/-- The statements of a correct line: one name, and bit numbers below 2^16. -/
theorem C72_line (body : Bytes) (hnl : 0x0a ∉ body) (hlen : body.length < 2 ^ 28) (st : Fasm.St)
    (hst : Fasm.parse true (fun _ => true) (body ++ [0x0a]) = .ok st) (hr : st.result ≠ .error) :
    ∃ name, ∀ F, Says (body ++ [0x0a]) F → F.name = name ∧ 0 ≤ F.start ∧ 1 ≤ F.width ∧ F.width ≤ 64 ∧
      F.start + F.width ≤ 65536 := by
  have key : ∀ name, (∀ n nm s w b, Fasm.Event.feature n nm s w b ∈ st.trace → nm = name ∧ 0 ≤ s ∧ 1 ≤ w ∧ w ≤ 64 ∧ s + w ≤ 65536) →
      ∃ name, ∀ F, Says (body ++ [0x0a]) F → F.name = name ∧ 0 ≤ F.start ∧ 1 ≤ F.width ∧ F.width ≤ 64 ∧
        F.start + F.width ≤ 65536 := by
    intro name h
    refine ⟨name, ?_⟩
    rintro F ⟨st', n, hst', hm, _⟩
    rw [hst] at hst'; cases hst'
    exact h _ _ _ _ _ hm
  obtain ⟨s, hok, rfl⟩ := C71_shapes body
  cases s with
  | bare g post =>
    by_cases hend : ∃ as, Ending true post as
    · obtain ⟨as, has⟩ := hend
      rw [show (LineShape.bare g post).text = g 0 ++ post from rfl, (C71_bare true _ g post hok hnl).1 as has] at hst
      cases hst
      refine key [] ?_
      intro n nm s w b hm
      obtain ⟨a, _, ha⟩ := List.mem_map.1 hm
      cases ha
    · obtain ⟨st', h, h2, _⟩ := (C71_bare true (fun _ => true) g post hok hnl).2 hend
      rw [show (LineShape.bare g post).text = g 0 ++ post from rfl, h] at hst
      cases hst
      exact absurd h2 hr
  | feature g f post =>
    have hst' := hst
    rw [show (LineShape.feature g f post).text = f.text g ++ post from rfl] at hst'
    by_cases hw : f.TooWide
    · obtain ⟨st', h, h2, _⟩ := C71_too_wide true (fun _ => true) g f post hok hnl hw
      rw [h] at hst'; cases hst'
      exact absurd h2 hr
    by_cases hfit : f.FitsRange
    · by_cases hend : ∃ as, Ending true post as
      · obtain ⟨as, has⟩ := hend
        rw [(C71_feature true _ g f post hok hnl hfit hw).1 as has] at hst'
        cases hst'
        refine key f.name ?_
        intro n nm s w b hm
        rw [heard_true] at hm
        rcases List.mem_append.1 hm with hm | hm
        · unfold FeatureText.calls wideEvents at hm
          obtain ⟨i, hi, he⟩ := List.mem_map.1 hm
          rw [List.mem_range] at hi
          injection he with _ e2 e3 e4 _
          have h1 : f.range.first ≤ f.range.last := by
            have := hok.2.2.1
            unfold RangeText.Inverted at this
            omega
          have h2 : f.range.last < 65536 := Nat.mod_lt _ (by decide)
          have h3 : f.range.size = f.range.last - f.range.first + 1 := rfl
          subst e3 e4
          exact ⟨e2.symm, by omega, by omega, by omega, by omega⟩
        · obtain ⟨a, _, ha⟩ := List.mem_map.1 hm
          cases ha
      · obtain ⟨st', h, h2, _⟩ := (C71_feature true (fun _ => true) g f post hok hnl hfit hw).2 hend
        rw [h] at hst'; cases hst'
        exact absurd h2 hr
    · rw [C71_misfit true _ (fun _ => rfl) g f post hok hnl hfit hw (by
        have := digitBits_le g f post
        rw [show (LineShape.feature g f post).text = f.text g ++ post from rfl] at hlen
        omega)] at hst'
      cases hst'
  | openRange g name r post =>
    rw [C71_open_range true _ g name r post hok hnl] at hst; cases hst
    exact absurd rfl hr
  | inverted g name r post =>
    rw [C71_inverted true _ g name r post hok hnl] at hst; cases hst
    exact key [] (by intro _ _ _ _ _ h; cases h)
  | badFormat g name r w c post =>
    have h := C71_bad_format true (fun _ => true) g name r w c post hok hnl
    by_cases hs : r.size ≤ 64
    · rw [h.1 hs] at hst; cases hst
      exact absurd rfl hr
    · rw [h.2 (by omega)] at hst; cases hst
  | dangling g name r w =>
    rw [(C71_dangling true _ g name r w hok hnl).1] at hst; cases hst

/-- The lines of the text are shorter than 2^28 characters and have a defined reading. -/
def TextDefined (text : Bytes) : Prop :=
  ∀ line, IsLine text line → line.length < 2 ^ 28 ∧ ∀ body, line = body ++ [0x0a] → ¬ Undefined body

theorem line_parses {text : Bytes} (h : TextDefined text) (line : Bytes) (hl : IsLine text line) :
    ∃ st, Fasm.parse true (fun _ => true) line = .ok st := by
  obtain ⟨h1, h2⟩ := h line hl
  obtain ⟨pre, post, _, _, ⟨body, rfl, hn⟩ | ⟨_, hne, hn⟩⟩ := hl
  · refine (C72_defined body hn ?_).2 (h2 body rfl)
    rw [List.length_append] at h1
    exact Nat.lt_of_le_of_lt (Nat.le_add_right _ _) h1
  · obtain ⟨s, c, rfl⟩ : ∃ s c, line = s ++ [c] := ⟨line.dropLast, line.getLast hne, (List.dropLast_concat_getLast hne).symm⟩
    exact ⟨_, C24_no_newline true _ s c (fun e => hn (by simp [e]))⟩

theorem line_nl {text line : Bytes} (hok : LinesOk text) (hl : IsLine text line) : ∃ body, line = body ++ [0x0a] ∧ 0x0a ∉ body := by
  have hl' := hl
  obtain ⟨pre, post, _, _, ⟨body, rfl, hn⟩ | ⟨_, hne, hn⟩⟩ := hl
  · exact ⟨body, rfl, hn⟩
  · obtain ⟨s, c, rfl⟩ : ∃ s c, line = s ++ [c] := ⟨line.dropLast, line.getLast hne, (List.dropLast_concat_getLast hne).symm⟩
    obtain ⟨st, h1, _, h2⟩ := hok _ hl'
    rw [C24_no_newline true _ s c (fun e => hn (by simp [e]))] at h1
    cases h1
    exact absurd rfl h2

/-- The statements of one line of a correct text: one name, and bit numbers below 2^16. -/
theorem C72_statements (text line : Bytes) (hok : LinesOk text) (hshort : line.length < 2 ^ 28) (hl : IsLine text line) :
    ∃ name, ∀ F, Says line F → F.name = name ∧ 0 ≤ F.start ∧ 1 ≤ F.width ∧ F.width ≤ 64 ∧ F.start + F.width ≤ 65536 := by
  obtain ⟨body, rfl, hn⟩ := line_nl hok hl
  obtain ⟨st, h1, _, h2⟩ := hok _ hl
  refine C72_line body hn ?_ st h1 h2
  rw [List.length_append] at hshort
  exact Nat.lt_of_le_of_lt (Nat.le_add_right _ _) hshort

theorem inRange_of {F : FasmFeature} (h : 0 ≤ F.start ∧ 1 ≤ F.width ∧ F.width ≤ 64 ∧ F.start + F.width ≤ 65536) : InRange F := by
  intro i hi
  omega

theorem made_inRange {F : FasmFeature} (h : Made F) : InRange F := by
  obtain ⟨_, h2, h3, _⟩ := h
  intro i hi
  rw [h3] at hi
  rw [h2]
  omega

theorem pudc_dot {grid : TileGrid} {F : FasmFeature} (h : PudcFeature grid F) : 0x2e ∈ F.name := by
  obtain ⟨tile, pin, site, _, _, _, hm⟩ := h
  unfold pudcNames at hm
  simp only [List.mem_cons, List.not_mem_nil, or_false] at hm
  rcases hm with h | h | h <;> rw [h] <;> exact List.mem_append.2 (Or.inr (List.mem_cons_self ..))

theorem stepdown_dot {tiles : Tiles} {D : FasmFeature → Prop} {F : FasmFeature} (h : StepdownFeature tiles D F) : 0x2e ∈ F.name := by
  obtain ⟨_, ⟨_, tag, _, _, _, _, _, _, _, _, _, _, _, _, _, h⟩ | ⟨_, _, _, _, _, _, _, _, h⟩⟩ := h
  · rw [h]; exact List.mem_append.2 (Or.inr (List.mem_cons_self ..))
  · rw [h]; exact List.mem_append.2 (Or.inr (List.mem_cons_self ..))

theorem says_written {text line : Bytes} {F : FasmFeature} (hl : IsLine text line) (h : Says line F) : Written text F := by
  obtain ⟨st, n, h1, h2, h3⟩ := h
  exact ⟨line, st, n, hl, h1, h2, h3⟩

/-! ## Texts -/

/-- How a database can be used without crashing: see the parts. -/
structure Usable (tiles : Tiles) : Prop where
  blocks : TilesOk tiles
  pudc : PudcOk tiles.grid
  files : FilesLoad tiles
  inside : BitsInside tiles
  sites : SitesNamed tiles.grid

section Texts
variable {tiles : Tiles} (hus : Usable tiles) (ord : HashOrder) (hord : Permutes ord) (text : Bytes) (hdef : TextDefined text)
  (db : PartDatabase) (hdb : Reachable tiles db)
include hus hord hdef hdb

/-- What happens to a text whose lines are accepted: it assembles; or STEPDOWN names an unknown bank or tile and the
program stops; or the first statement that cannot be assembled — the PUDC_B ones come first, then those of the text,
then the STEPDOWN ones — has a name without a dot, which is an error, or asks for a bit the database does not list, which
stops the program. -/
theorem C72_outcome (hl : LinesOk text) :
    (Assembles tiles text ∧ ∃ r, assembleFrames ord text db [] = .ok r) ∨
    (¬ StepdownOk tiles (Basic tiles text) ∧ assembleFrames ord text db [] = .abort) ∨
    (StepdownOk tiles (Basic tiles text) ∧
      ((∃ F, PudcFeature tiles.grid F ∧ AsksUnlisted tiles F ∧ assembleFrames ord text db [] = .abort) ∨
       ((∀ F, PudcFeature tiles.grid F → FeatureOk tiles F) ∧ ∃ pre line post F, Place text pre line post ∧
          (∀ G, Written pre G → FeatureOk tiles G) ∧ Says line F ∧
          ((0x2e ∉ F.name ∧ assembleFrames ord text db [] = .err) ∨
           (0x2e ∈ F.name ∧ AsksUnlisted tiles F ∧ assembleFrames ord text db [] = .abort))) ∨
       ((∀ F, Basic tiles text F → FeatureOk tiles F) ∧ ∃ F, StepdownFeature tiles (Basic tiles text) F ∧
          AsksUnlisted tiles F ∧ assembleFrames ord text db [] = .abort))) := by
  obtain ⟨hok, hpudc, hload, hin, hsites⟩ := hus
  by_cases hasm : Assembles tiles text
  · exact Or.inl ⟨hasm, (C50_succeeds hok ord hord text db hdb).2 hasm⟩
  refine Or.inr ?_
  obtain ⟨pudcb, h4, h5⟩ := pudcb_ok tiles.grid hpudc
  obtain ⟨parsed, h6⟩ := parsed_ok text hl
  obtain ⟨_, h7⟩ := parsed_inv text parsed h6
  have hb : (fun G => G ∈ pudcb ++ parsed.flatten) = Basic tiles text := by
    funext G
    rw [List.mem_append, h5, h7]; rfl
  have hrun : assembleFrames ord text db [] =
      (stepdownFeatures ord tiles.banks tiles.grid (pudcb ++ parsed.flatten) >>= fun sd =>
        processFeatures ord (pudcb ++ parsed.flatten ++ sd) db []) := by
    unfold assembleFrames
    rw [(reachable_cache hdb).1, h4, Outcome.bind_ok, (lines_plain text parsed).2 h6, Outcome.bind_ok]
  by_cases hsd : StepdownOk tiles (Basic tiles text)
  rotate_left
  · refine Or.inl ⟨hsd, ?_⟩
    rcases stepdown_stops ord tiles.banks tiles.grid hsites (pudcb ++ parsed.flatten) with ⟨sd, h⟩ | h
    · have := (stepdown_inv ord hord tiles _ _ h).1
      rw [hb] at this
      exact absurd this hsd
    · rw [hrun, h]; rfl
  refine Or.inr ⟨hsd, ?_⟩
  obtain ⟨sd, h8⟩ := stepdown_ok ord hord tiles (pudcb ++ parsed.flatten) (by rw [hb]; exact hsd)
  obtain ⟨_, h9⟩ := stepdown_inv ord hord tiles _ _ h8
  rw [hb] at h9
  rw [h8, Outcome.bind_ok] at hrun
  have hfirst : ∀ pre F post, pudcb ++ parsed.flatten ++ sd = pre ++ F :: post → (∀ G ∈ pre, FeatureOk tiles G) →
      (0x2e ∉ F.name → assembleFrames ord text db [] = .err) ∧
      (InRange F → AsksUnlisted tiles F → assembleFrames ord text db [] = .abort) := by
    intro pre F post he hpre
    rw [hrun, he]
    exact process_first hok hload hin ord hord pre F post 0 hpre db hdb [] List.Pairwise.nil
  have hbad : ∀ F, InRange F → 0x2e ∈ F.name → ¬ FeatureOk tiles F → AsksUnlisted tiles F := by
    intro F h1 h2 h3
    refine Classical.byContradiction fun h => h3 ?_
    exact (featureOk_iff hin F).2 ⟨h1, h2, h⟩
  rcases first_bad (FeatureOk tiles) pudcb with hp | ⟨a, F, b, he, ha, hF⟩
  rotate_left
  · have hFp : PudcFeature tiles.grid F := (h5 F).1 (by rw [he]; simp)
    have hr : InRange F := by obtain ⟨_, _, _, _, _, hm, _⟩ := hFp; exact made_inRange hm
    have hu := hbad F hr (pudc_dot hFp) hF
    exact Or.inl ⟨F, hFp, hu, (hfirst a F (b ++ parsed.flatten ++ sd) (by rw [he]; simp) ha).2 hr hu⟩
  have hpud : ∀ F, PudcFeature tiles.grid F → FeatureOk tiles F := fun F h => hp F ((h5 F).2 h)
  obtain ⟨ps, hps1, hps2, hps3⟩ := (mapM_ok_iff _ _ _).1 h6
  rcases first_bad (fun p : Bytes × List FasmFeature => ∀ F ∈ p.2, FeatureOk tiles F) ps with hq | ⟨a, p, b, he, ha, hF⟩
  rotate_left
  · refine Or.inr (Or.inl ⟨hpud, ?_⟩)
    rcases first_bad (FeatureOk tiles) p.2 with h | ⟨a', F, b', he', ha', hF'⟩
    · exact absurd h hF
    have hgl : getlines text = a.map (·.1) ++ p.1 :: b.map (·.1) := by rw [hps1, he]; simp
    obtain ⟨hplace, hpre⟩ := getlines_split _ _ _ _ hgl
    have hline := place_isLine hplace
    have hparse : plainLine p.1 = .ok p.2 := hps3 p (by rw [he]; simp)
    have hsays : ∀ G, G ∈ p.2 → Says p.1 G := by
      intro G hG
      obtain ⟨st, h1, _, h2⟩ := plainLine_ok _ _ hparse
      rw [h2] at hG
      obtain ⟨n, h3, h4⟩ := (mem_toFeature _ _).1 hG
      exact ⟨st, n, h1, h3, h4⟩
    have hmF : F ∈ p.2 := by rw [he']; simp
    obtain ⟨name, hname⟩ := C72_statements text p.1 hl (hdef _ hline).1 hline
    have hr : InRange F := inRange_of (hname F (hsays F hmF)).2
    have hpreW : ∀ G, Written (a.map (·.1)).flatten G → FeatureOk tiles G := by
      have hpm : (getlines (a.map (·.1)).flatten).mapM plainLine = .ok (a.map (·.2)) := by
        refine (mapM_ok_iff _ _ _).2 ⟨a, hpre, rfl, fun q hq => hps3 q ?_⟩
        rw [he]; exact List.mem_append.2 (Or.inl hq)
      intro G hG
      have := ((parsed_inv _ _ hpm).2 G).2 hG
      obtain ⟨fs, hfs, hGf⟩ := List.mem_flatten.1 this
      obtain ⟨q, hq, rfl⟩ := List.mem_map.1 hfs
      exact ha q hq G hGf
    have hdecomp : pudcb ++ parsed.flatten ++ sd =
        (pudcb ++ (a.map (·.2)).flatten ++ a') ++ F :: (b' ++ (b.map (·.2)).flatten ++ sd) := by
      rw [hps2, he]
      simp only [List.map_append, List.map_cons, List.flatten_append, List.flatten_cons, he', List.append_assoc, List.cons_append]
    have hallpre : ∀ G ∈ pudcb ++ (a.map (·.2)).flatten ++ a', FeatureOk tiles G := by
      intro G hG
      rcases List.mem_append.1 hG with hG | hG
      · rcases List.mem_append.1 hG with hG | hG
        · exact hp G hG
        · obtain ⟨fs, hfs, hGf⟩ := List.mem_flatten.1 hG
          obtain ⟨q, hq, rfl⟩ := List.mem_map.1 hfs
          exact ha q hq G hGf
      · exact ha' G hG
    refine ⟨_, p.1, _, F, hplace, hpreW, hsays F hmF, ?_⟩
    by_cases hd : 0x2e ∈ F.name
    · have hu := hbad F hr hd hF'
      exact Or.inr ⟨hd, hu, (hfirst _ F _ hdecomp hallpre).2 hr hu⟩
    · exact Or.inl ⟨hd, (hfirst _ F _ hdecomp hallpre).1 hd⟩
  have hbasic : ∀ G ∈ pudcb ++ parsed.flatten, FeatureOk tiles G := by
    intro G hG
    rcases List.mem_append.1 hG with hG | hG
    · exact hp G hG
    · rw [hps2] at hG
      obtain ⟨fs, hfs, hGf⟩ := List.mem_flatten.1 hG
      obtain ⟨q, hq', rfl⟩ := List.mem_map.1 hfs
      exact hq q hq' G hGf
  have hbasic' : ∀ F, Basic tiles text F → FeatureOk tiles F := by
    intro F hF
    rw [← hb] at hF
    exact hbasic F hF
  rcases first_bad (FeatureOk tiles) sd with hs | ⟨a, F, b, he, ha, hF⟩
  · refine absurd ⟨hl, hsd, ?_, hpudc⟩ hasm
    rintro F (hF | hF)
    · exact hbasic' F hF
    · exact hs F ((h9 F).2 hF)
  · have hFs : StepdownFeature tiles (Basic tiles text) F := (h9 F).1 (by rw [he]; simp)
    have hr := made_inRange hFs.1
    have hu := hbad F hr (stepdown_dot hFs) hF
    refine Or.inr (Or.inr ⟨hbasic', F, hFs, hu, ?_⟩)
    refine (hfirst (pudcb ++ parsed.flatten ++ a) F b (by rw [he]; simp) ?_).2 hr hu
    intro G hG
    rcases List.mem_append.1 hG with hG | hG
    · exact hbasic G hG
    · exact ha G hG

omit hord in
/-- A line that is not accepted: an error. -/
theorem C72_bad_line (hl : ¬ LinesOk text) : assembleFrames ord text db [] = .err := by
  obtain ⟨pudcb, h1, _⟩ := pudcb_ok tiles.grid hus.pudc
  unfold assembleFrames
  rw [(reachable_cache hdb).1, h1, Outcome.bind_ok]
  rcases mapM_cases plainLine (getlines text) (by
      intro l hl
      obtain ⟨st, h⟩ := line_parses hdef l ((mem_getlines _ _).1 hl)
      unfold plainLine
      rw [h]
      dsimp only
      by_cases hr : st.result = .userAbort ∨ st.result = .error
      · rw [if_pos hr]; exact Or.inr rfl
      · rw [if_neg hr]; exact Or.inl ⟨_, rfl⟩) with ⟨r, hr⟩ | hr
  · exact absurd (parsed_inv text r hr).1 hl
  · rw [lines_err text hr]; rfl

/-- No undefined behaviour. -/
theorem C72_no_undefined : assembleFrames ord text db [] ≠ .ub := by
  by_cases hl : LinesOk text
  · rcases C72_outcome hus ord hord text hdef db hdb hl with ⟨_, r, h⟩ | ⟨_, h⟩ | ⟨_, ⟨_, _, _, h⟩ | ⟨_, _, _, _, _, _, _, _, ⟨_, h⟩ | ⟨_, _, h⟩⟩ |
      ⟨_, _, _, _, h⟩⟩ <;> rw [h] <;> intro h <;> cases h
  · rw [C72_bad_line hus ord text hdef db hdb hl]
    intro h; cases h

/-- **When an error is reported**: a line is not accepted, or a statement of the text has a name without a dot and
nothing stops the program before it is reached. -/
theorem C72_error_iff : assembleFrames ord text db [] = .err ↔
    ¬ LinesOk text ∨
    (StepdownOk tiles (Basic tiles text) ∧ (∀ F, PudcFeature tiles.grid F → FeatureOk tiles F) ∧
      ∃ pre line post F, Place text pre line post ∧ (∀ G, Written pre G → FeatureOk tiles G) ∧ Says line F ∧ 0x2e ∉ F.name) := by
  by_cases hl : LinesOk text
  rotate_left
  · exact ⟨fun _ => Or.inl hl, fun _ => C72_bad_line hus ord text hdef db hdb hl⟩
  constructor
  · intro herr
    rcases C72_outcome hus ord hord text hdef db hdb hl with ⟨_, r, h⟩ | ⟨_, h⟩ | ⟨hsd, ⟨_, _, _, h⟩ | ⟨hp, pre, line, post, F, h1, h2, h3, ⟨h4, _⟩ | ⟨_, _, h⟩⟩ |
      ⟨_, _, _, _, h⟩⟩
    · rw [h] at herr; cases herr
    · rw [h] at herr; cases herr
    · rw [h] at herr; cases herr
    · exact Or.inr ⟨hsd, hp, pre, line, post, F, h1, h2, h3, h4⟩
    · rw [h] at herr; cases herr
    · rw [h] at herr; cases herr
  · rintro (h | ⟨hsd, hp, pre, line, post, F, hplace, hpre, hsays, hdot⟩)
    · exact absurd hl h
    obtain ⟨hok, hpudc, hload, hin, hsites⟩ := hus
    obtain ⟨pudcb, h4, h5⟩ := pudcb_ok tiles.grid hpudc
    obtain ⟨parsed, h6⟩ := parsed_ok text hl
    obtain ⟨_, h7⟩ := parsed_inv text parsed h6
    have hb : (fun G => G ∈ pudcb ++ parsed.flatten) = Basic tiles text := by
      funext G
      rw [List.mem_append, h5, h7]; rfl
    obtain ⟨sd, h8⟩ := stepdown_ok ord hord tiles (pudcb ++ parsed.flatten) (by rw [hb]; exact hsd)
    have hline := place_isLine hplace
    obtain ⟨name, hname⟩ := C72_statements text line hl (hdef _ hline).1 hline
    obtain ⟨ps, hps1, hps2, hps3⟩ := (mapM_ok_iff _ _ _).1 h6
    rw [getlines_place hplace] at hps1
    obtain ⟨a, b0, rfl, ha, hb0⟩ := List.append_eq_map_iff.1 hps1
    cases b0 with
    | nil => cases hb0
    | cons p b =>
      obtain ⟨hp1, hb1⟩ := List.cons.inj hb0
      have hparse : plainLine p.1 = .ok p.2 := hps3 p (by simp)
      have hp1 : p.1 = line := hp1
      rw [hp1] at hparse
      obtain ⟨st, hst, _, hfs⟩ := plainLine_ok _ _ hparse
      have hmF : F ∈ p.2 := by
        obtain ⟨st', n, h1, h2, h3⟩ := hsays
        rw [hst] at h1; cases h1
        rw [hfs]
        exact (mem_toFeature _ _).2 ⟨n, h2, h3⟩
      cases hp2 : p.2 with
      | nil => rw [hp2] at hmF; cases hmF
      | cons F0 rest =>
        have hF0 : Says line F0 := by
          obtain ⟨n, h3, h4⟩ := (mem_toFeature st.trace F0).1 (by rw [← hfs, hp2]; simp)
          exact ⟨st, n, hst, h3, h4⟩
        have hdot0 : 0x2e ∉ F0.name := by rw [(hname F0 hF0).1, ← (hname F hsays).1]; exact hdot
        have hdecomp : pudcb ++ parsed.flatten ++ sd =
            (pudcb ++ (a.map (·.2)).flatten) ++ F0 :: (rest ++ (b.map (·.2)).flatten ++ sd) := by
          rw [hps2]
          simp only [List.map_append, List.map_cons, List.flatten_append, List.flatten_cons, hp2, List.append_assoc, List.cons_append]
        have hpm : (getlines pre).mapM plainLine = .ok (a.map (·.2)) :=
          (mapM_ok_iff _ _ _).2 ⟨a, ha.symm, rfl, fun q hq => hps3 q (List.mem_append.2 (Or.inl hq))⟩
        have hallpre : ∀ G ∈ pudcb ++ (a.map (·.2)).flatten, FeatureOk tiles G := by
          intro G hG
          rcases List.mem_append.1 hG with hG | hG
          · exact hp G ((h5 G).1 hG)
          · exact hpre G (((parsed_inv _ _ hpm).2 G).1 hG)
        unfold assembleFrames
        rw [(reachable_cache hdb).1, h4, Outcome.bind_ok, (lines_plain text parsed).2 h6, Outcome.bind_ok, h8, Outcome.bind_ok, hdecomp]
        exact (process_first hok hload hin ord hord _ F0 _ 0 hallpre db hdb [] List.Pairwise.nil).1 hdot0

/-- **When the program stops**: in all other cases where the text does not assemble. -/
theorem C72_abort_iff : assembleFrames ord text db [] = .abort ↔
    ¬ Assembles tiles text ∧ LinesOk text ∧
    ¬ (StepdownOk tiles (Basic tiles text) ∧ (∀ F, PudcFeature tiles.grid F → FeatureOk tiles F) ∧
      ∃ pre line post F, Place text pre line post ∧ (∀ G, Written pre G → FeatureOk tiles G) ∧ Says line F ∧ 0x2e ∉ F.name) := by
  have h1 := C50_succeeds hus.blocks ord hord text db hdb
  have h2 := C72_error_iff hus ord hord text hdef db hdb
  have h3 := C72_no_undefined hus ord hord text hdef db hdb
  cases h : assembleFrames ord text db [] with
  | ok r => exact ⟨fun h => absurd h (by simp), fun h' => absurd (h1.1 ⟨r, h⟩) h'.1⟩
  | err =>
    refine ⟨fun h => absurd h (by simp), fun h' => ?_⟩
    rcases h2.1 h with h4 | h4
    · exact absurd h'.2.1 h4
    · exact absurd h4 h'.2.2
  | abort =>
    refine ⟨fun _ => ⟨fun ha => ?_, Classical.byContradiction fun hl => ?_, fun hd => ?_⟩, fun _ => rfl⟩
    · obtain ⟨r, hr⟩ := h1.2 ha
      rw [h] at hr; cases hr
    · have := h2.2 (Or.inl hl); rw [h] at this; cases this
    · have := h2.2 (Or.inr hd); rw [h] at this; cases this
  | ub => exact absurd h h3

end Texts

/-- The newline of an earlier line is still in the buffer behind the line. -/
theorem overshadowed_iff (pre line : Bytes) (hpre : LinesOk pre) :
    0x0a ∈ (bufferAfter (getlines pre)).drop (line.length + 1) ↔ Overshadowed pre line := by
  rw [leftover_iff (getlines pre) (fun l hl => line_nl hpre ((mem_getlines _ _).1 hl))]
  constructor
  · rintro ⟨a, m, b, h, h1, h2⟩
    obtain ⟨hplace, hb⟩ := getlines_split a m b pre h
    refine ⟨_, m, _, hplace, h1, ?_⟩
    intro k hk
    have := getlines_place hplace
    exact h2 k (by
      have e : getlines b.flatten = b := by
        rw [h, hb] at this
        exact (List.cons.inj (List.append_cancel_left this)).2.symm
      rw [← e]; exact (mem_getlines _ _).2 hk)
  · rintro ⟨a, m, b, hplace, h1, h2⟩
    exact ⟨getlines a, m, getlines b, getlines_place hplace, h1, fun k hk => h2 k ((mem_getlines _ _).1 hk)⟩

/-- A line without a defined reading, all lines before it accepted: undefined behaviour — except when the line stops
after the tick of its value and the newline of an earlier line still follows it in memory: an error. -/
theorem C72_undefined (ord : HashOrder) (text : Bytes) (db : PartDatabase) (frames : Frames) (hp : PudcOk db.tiles.grid)
    (pre body post : Bytes) (hplace : Place text pre (body ++ [0x0a]) post) (hpre : LinesOk pre) (hnl : 0x0a ∉ body)
    (hlen : body.length < 2 ^ 28) (hu : Undefined body) :
    (StopsAfterTick body ∧ Overshadowed pre (body ++ [0x0a]) → assembleFrames ord text db frames = .err) ∧
    (¬ (StopsAfterTick body ∧ Overshadowed pre (body ++ [0x0a])) → assembleFrames ord text db frames = .ub) := by
  obtain ⟨pudcb, h1, _⟩ := pudcb_ok db.tiles.grid hp
  obtain ⟨r, hr⟩ := parsed_ok pre hpre
  have hr := (lines_plain pre r).2 hr
  have hafter : (0x0a ∈ (getlineBuffer (bufferAfter (getlines pre)) (body ++ [0x0a])).drop (body ++ [0x0a]).length) ↔
      Overshadowed pre (body ++ [0x0a]) := by
    rw [← overshadowed_iff pre _ hpre]
    unfold getlineBuffer
    rw [List.drop_left]
    constructor
    · intro h
      rcases List.mem_cons.1 h with h | h
      · exact absurd h (by decide)
      · exact h
    · exact List.mem_cons_of_mem _
  have hrun : ∀ o, assembleLine ((getlineBuffer (bufferAfter (getlines pre)) (body ++ [0x0a])).drop (body ++ [0x0a]).length)
      (body ++ [0x0a]) = o → (∀ fs, o ≠ .ok fs) →
      assembleFrames ord text db frames = (o >>= fun _ => .ub) := by
    intro o ho hne
    unfold assembleFrames
    rw [h1, Outcome.bind_ok, getlines_place hplace, assembleLines_append _ _ [] r hr]
    show (((assembleLines (bufferAfter (getlines pre)) _) >>= _) >>= _) = _
    rw [assembleLines, ho]
    cases o with
    | ok fs => exact absurd rfl (hne fs)
    | err => rfl
    | abort => rfl
    | ub => rfl
  constructor
  · rintro ⟨⟨g, name, rg, w, hok, rfl, hs⟩, ho⟩
    have hl := assembleLine_dangling ((getlineBuffer (bufferAfter (getlines pre)) ((LineShape.dangling g name rg w).text ++ [0x0a])).drop
      ((LineShape.dangling g name rg w).text ++ [0x0a]).length) g name rg w hok hnl
    rw [if_pos ⟨hafter.2 ho, hs⟩] at hl
    exact hrun _ hl (by intro fs h; cases h)
  · intro hne
    refine hrun .ub ?_ (by intro fs h; cases h)
    by_cases hd : Dangles body
    · obtain ⟨g, name, rg, w, hok, rfl⟩ := hd
      rw [assembleLine_dangling _ g name rg w hok hnl, if_neg]
      rintro ⟨ha, hs⟩
      exact hne ⟨⟨g, name, rg, w, hok, rfl, hs⟩, hafter.1 ha⟩
    · unfold assembleLine
      rw [show [(0x0a : UInt8)] = [Fasm.chNl] from rfl, Fasm.parseIn_one true _ body _ ⟨hnl, hd⟩]
      cases h : Fasm.parse true (fun _ => true) (body ++ [Fasm.chNl]) with
      | ok st => exact absurd hu ((C72_defined body hnl hlen).1 ⟨st, h⟩)
      | oob => rfl
      | shift => rfl

/-- Either way no bits are produced. -/
theorem C72_undefined_never_ok (ord : HashOrder) (text : Bytes) (db : PartDatabase) (frames : Frames) (body : Bytes)
    (hl : IsLine text (body ++ [0x0a])) (hnl : 0x0a ∉ body) (hlen : body.length < 2 ^ 28) (hu : Undefined body)
    (r : PartDatabase × Frames) : assembleFrames ord text db frames ≠ .ok r := by
  refine C56_bad_line ord text db frames _ hl ?_ r
  intro st h
  exact absurd hu ((C72_defined body hnl hlen).1 ⟨st, h⟩)

/-! ## The program -/

/-- The program ends with status 0 or 1, is stopped, or (see `C72_program`) has undefined behaviour: no error goes
unreported. -/
theorem C72_status (env : Env) (load : LoadOrder) (ord : HashOrder) (inv : Invocation) (out : Xc7.OStream) (fuel : Nat) :
    main env load ord inv out fuel ≠ some .err ∧
    ∀ n o, main env load ord inv out fuel = some (.ok (n, o)) → n = 0 ∨ (n = 1 ∧ o = out) := by
  refine ⟨?_, ?_⟩
  · unfold main
    split
    · intro h; cases h
    · split
      · split
        · intro h; cases h
        · split
          · intro h; cases h
          · split
            · intro h; cases h
            · intro h; cases h
            · intro h; cases h
            · unfold mainLoaded
              split
              · intro h; cases h
              · split
                · intro h; cases h
                · intro h; cases h
                · intro h; cases h
                · intro h
                  obtain ⟨o, _, ho⟩ := Option.map_eq_some_iff.1 h
                  cases o <;> cases ho
      · intro h; cases h
  · intro n o h
    rcases C58_stages_partial env load ord inv out o fuel n h with ⟨h1, h2⟩ | ⟨h1, _⟩
    · exact Or.inr ⟨h1, h2⟩
    · exact Or.inl h1

/-- A program that gets as far as assembling and whose text does not assemble: status 1 and no output, or a stop. -/
theorem C72_program (env : Env) (load : LoadOrder) (ord : HashOrder) (inv : Invocation) (out : Xc7.OStream) (fuel : Nat)
    (db : PartDatabase) (text : Bytes) (h : Starts env load inv db text) :
    (assembleFrames ord text db [] = .err → main env load ord inv out fuel = some (.ok (1, out))) ∧
    (assembleFrames ord text db [] = .abort → main env load ord inv out fuel = some .abort) ∧
    (assembleFrames ord text db [] = .ub → main env load ord inv out fuel = some .ub) := by
  obtain ⟨h1, h2, h3, path, h4, h5, h6, h7⟩ := h
  have hm : main env load ord inv out fuel = mainLoaded ord inv db out fuel := by
    unfold main
    rw [if_neg (by omega), (C61_setting _ _ _).2 h4]
    dsimp only
    rw [if_neg (by simp [h5, h6]), if_neg h2, h7]
  rw [hm]
  unfold mainLoaded
  rw [(inputText_iff inv text).2 h3]
  dsimp only
  refine ⟨fun h => ?_, fun h => ?_, fun h => ?_⟩ <;> rw [h]

/-- Encoding ends and succeeds, whatever the frames and the output, when the coordinates of the part fit the address
fields. -/
theorem C72_encode_ends (d : Db.Part) (hd : DescFits d) (pn src date time : Bytes) (frames : Frames) (out : Xc7.OStream) :
    ∃ fuel0 o, ∀ fuel ≥ fuel0, Xc7.encode d pn src date time frames out fuel = some (.ok o) := by
  obtain ⟨p, hp⟩ : ∃ p, Xc7.Part.fromPart d = .ok p := ⟨_, rfl⟩
  have hfits := Xc7.fits_fromPart d hd p hp
  obtain ⟨fuel1, m, _, hmono⟩ := C08_fill_terminates _ hfits (Xc7.zeroFrame Xc7.frameWordsBase) (Xc7.convertFrames [] frames)
  refine ⟨fuel1 + (Xc7.syncHeader .xc7 ++ ((Xc7.configurationPackage (Xc7.type2Payload p m) p.idcode).flatMap fun p => p.header :: p.data)).length + 1,
    Xc7.writeFile (Xc7.createHeader pn src Xc7.generatorName date time) (Xc7.syncHeader .xc7 ++ (Xc7.configurationPackage (Xc7.type2Payload p m) p.idcode).flatMap fun p => p.header :: p.data) out, fun fuel hfuel => ?_⟩
  have hadd := hmono (fuel - fuel1)
  rw [show fuel1 + (fuel - fuel1) = fuel by omega] at hadd
  unfold Xc7.encode
  rw [hp]
  dsimp only
  rw [hadd]
  dsimp only
  unfold Xc7.writeBitstream
  rw [C10_writer_words .xc7 _ fuel (by omega)]
  rfl

/-- **How the program ends**, once it has got as far as assembling: after finitely many steps, with status 0 exactly when
the text assembles; with status 1, nothing printed, exactly when a line is not accepted or a name without a dot is reached;
and it is stopped in all other cases.  There is no undefined behaviour. -/
theorem C72_total (env : Env) (load : LoadOrder) (ord : HashOrder) (hord : Permutes ord) (inv : Invocation) (out : Xc7.OStream)
    (hload : LoadOk load) (db : PartDatabase) (text : Bytes) (h : Starts env load inv db text) (hus : Usable db.tiles)
    (hdef : TextDefined text) (hd : DescFits db.tiles.part) :
    ∃ fuel0 r, (∀ fuel ≥ fuel0, main env load ord inv out fuel = some r) ∧
      ((∃ o, r = .ok (0, o)) ↔ Assembles db.tiles text) ∧
      (r = .ok (1, out) ↔ ¬ LinesOk text ∨
        (StepdownOk db.tiles (Basic db.tiles text) ∧ (∀ F, PudcFeature db.tiles.grid F → FeatureOk db.tiles F) ∧
          ∃ pre line post F, Place text pre line post ∧ (∀ G, Written pre G → FeatureOk db.tiles G) ∧ Says line F ∧ 0x2e ∉ F.name)) ∧
      (r = .abort ∨ ∃ n o, r = .ok (n, o) ∧ (n = 0 ∨ (n = 1 ∧ o = out))) := by
  have hr : Reachable db.tiles db := by
    obtain ⟨_, _, _, path, _, _, _, hparse⟩ := id h
    exact (C45_loaded env load hload _ _ db hparse).2
  have hprog := fun fuel => C72_program env load ord inv out fuel db text h
  have hasm := C50_succeeds hus.blocks ord hord text db hr
  have herr := C72_error_iff hus ord hord text hdef db hr
  have hub := C72_no_undefined hus ord hord text hdef db hr
  cases ha : assembleFrames ord text db [] with
  | ok r =>
    obtain ⟨db', frames⟩ := r
    have hpart : db'.tiles = db.tiles := by
      obtain ⟨db'', frames', ha', hreach, _⟩ := assemble_ok hus.blocks ord hord text db hr (hasm.1 ⟨_, ha⟩)
      rw [ha] at ha'
      cases ha'
      exact (reachable_cache hreach).1
    obtain ⟨fuel0, o, ho⟩ := C72_encode_ends db'.tiles.part (by rw [hpart]; exact hd) kFasm kSource inv.date inv.time frames out
    refine ⟨fuel0, .ok (0, o), fun fuel hf => main_started env load ord inv out fuel db text h db' frames ha o (ho fuel hf), ?_, ?_, ?_⟩
    · exact ⟨fun _ => hasm.1 ⟨_, ha⟩, fun _ => ⟨o, rfl⟩⟩
    · rw [← herr, ha]
      constructor
      · intro h; cases h
      · intro h; cases h
    · exact Or.inr ⟨0, o, rfl, Or.inl rfl⟩
  | err =>
    refine ⟨0, .ok (1, out), fun fuel _ => (hprog fuel).1 ha, ?_, ?_, ?_⟩
    · rw [← hasm, ha]
      constructor
      · rintro ⟨o, h⟩; cases h
      · rintro ⟨o, h⟩; cases h
    · rw [← herr, ha]
      exact ⟨fun _ => rfl, fun _ => rfl⟩
    · exact Or.inr ⟨1, out, rfl, Or.inr ⟨rfl, rfl⟩⟩
  | abort =>
    refine ⟨0, .abort, fun fuel _ => (hprog fuel).2.1 ha, ?_, ?_, Or.inl rfl⟩
    · rw [← hasm, ha]
      constructor
      · rintro ⟨o, h⟩; cases h
      · rintro ⟨o, h⟩; cases h
    · rw [← herr, ha]
      constructor
      · intro h; cases h
      · intro h; cases h
  | ub => exact absurd ha hub

/-- Two texts with the same lines, in whatever order and number, give the same bitstream: runs of the program with the
same database and date and these two inputs succeed alike, with the same output. -/
theorem C51_program (env : Env) (load : LoadOrder) (hload : LoadOk load) (ord ord' : HashOrder) (hord : Permutes ord) (hord' : Permutes ord')
    (inv inv' : Invocation) (out o : Xc7.OStream) (fuel : Nat) (db : PartDatabase) (text text' : Bytes)
    (h : Starts env load inv db text) (h' : Starts env load inv' db text') (hdate : inv.date = inv'.date) (htime : inv.time = inv'.time)
    (hl : ∀ line, IsLine text line ↔ IsLine text' line) :
    main env load ord inv out fuel = some (.ok (0, o)) ↔ main env load ord' inv' out fuel = some (.ok (0, o)) := by
  obtain ⟨hok, hr⟩ : TilesOk db.tiles ∧ Reachable db.tiles db := by
    obtain ⟨_, _, _, path, _, _, _, hparse⟩ := id h
    exact C45_loaded env load hload _ _ db hparse
  have go : ∀ (o1 o2 : HashOrder) (i1 i2 : Invocation) (t1 t2 : Bytes), Permutes o1 → Permutes o2 → Starts env load i1 db t1 → Starts env load i2 db t2 →
      i1.date = i2.date → i1.time = i2.time → (∀ line, IsLine t1 line ↔ IsLine t2 line) →
      main env load o1 i1 out fuel = some (.ok (0, o)) → main env load o2 i2 out fuel = some (.ok (0, o)) := by
    intro o1 o2 i1 i2 t1 t2 p1 p2 s1 s2 hd ht hl hm
    rcases C58_stages_partial env load o1 i1 out o fuel 0 hm with ⟨h, _⟩ | ⟨_, d, t, d1, fr, hs, ha, he⟩
    · cases h
    obtain ⟨rfl, rfl⟩ := starts_unique hs s1
    obtain ⟨d2, ha2⟩ := C51_same_lines hok o1 o2 p1 p2 t t2 d d hr hr hl d1 fr ha
    have hp : ∀ (o3 : HashOrder) (t3 : Bytes) (d3 : PartDatabase), Permutes o3 → assembleFrames o3 t3 d [] = .ok (d3, fr) → d3.tiles = d.tiles := by
      intro o3 t3 d3 p3 h3
      have := (C50_succeeds hok o3 p3 t3 d hr).1 ⟨_, h3⟩
      obtain ⟨db'', frames', ha', hreach, _⟩ := assemble_ok hok o3 p3 t3 d hr this
      rw [h3] at ha'
      cases ha'
      exact (reachable_cache hreach).1
    refine main_started env load o2 i2 out fuel d t2 s2 d2 fr ha2 o ?_
    rw [hp o2 t2 d2 p2 ha2, ← hp o1 t d1 p1 ha, ← hd, ← ht]
    exact he
  exact ⟨go ord ord' inv inv' text text' hord hord' h h' hdate htime hl,
    go ord' ord inv' inv text' text hord' hord h' h hdate.symm htime.symm fun l => (hl l).symm⟩

/-- One line that is not accepted, and no other of undefined reading: status 1, and nothing is printed. -/
theorem C56_program (env : Env) (load : LoadOrder) (ord : HashOrder) (inv : Invocation) (out : Xc7.OStream) (fuel : Nat)
    (db : PartDatabase) (text : Bytes) (h : Starts env load inv db text) (hp : PudcOk db.tiles.grid) (hdef : TextDefined text)
    (line : Bytes) (hl : IsLine text line) (st : Fasm.St) (hst : Fasm.parse true (fun _ => true) line = .ok st)
    (hbad : st.result = .error) : main env load ord inv out fuel = some (.ok (1, out)) :=
  (C72_program env load ord inv out fuel db text h).1 (C56_error ord text db [] hp (line_parses hdef) line hl st hst hbad)

/-! ## Files -/

/-- The name of a file with segment bits or pseudo PIPs. -/
def IsBitsFile (p : Path) : Prop := ∃ base x, p = base ++ [segbitsPrefix ++ x] ∨ p = base ++ [ppipsPrefix ++ x]

theorem lined_cases {α : Type} {parse : Option UInt8 → Bytes → Outcome α} (hl : Lined parse) (content : Bytes) :
    (∃ s, parse (some 0) content = .ok s) ∨ parse (some 0) content = .err := by
  obtain ⟨sink, st, hok, hp⟩ := hl
  rw [hp]
  split
  · exact Or.inl ⟨_, rfl⟩
  · obtain ⟨ls, hls⟩ := linesOf_exists content
    rw [linesGenerator_lines 0 sink content ls hls]
    exact feed_cases sink hok ls 0 st

theorem bind_cases {α β : Type} {x : Outcome α} {f : α → Outcome β} (hx : (∃ a, x = .ok a) ∨ x = .err)
    (hf : ∀ a, (∃ b, f a = .ok b) ∨ f a = .err) : (∃ b, (x >>= f) = .ok b) ∨ (x >>= f) = .err := by
  rcases hx with ⟨a, rfl⟩ | rfl
  · exact hf a
  · exact Or.inr rfl

theorem paths_bits {env : Env} {root : Path} {paths : List (Bytes × DbPaths)} (h : indexTileTypes env root = .ok paths) :
    ∀ e ∈ paths, ∃ q, e.2 = (databasePaths env q).2 := by
  unfold indexTileTypes at h
  split at h
  · cases h
  · rename_i entries _
    have h := Outcome.ok.inj h
    subst h
    have key : ∀ (es : List (Path × Bool)) (m : List (Bytes × DbPaths)), (∀ e ∈ m, ∃ q, e.2 = (databasePaths env q).2) →
        ∀ e ∈ es.foldl (fun m e =>
          let filename := e.1.getLast?.getD []
          if e.2 && startsWith tileTypePrefix filename && jsonSuffix.isSuffixOf filename then
            let p := databasePaths env e.1
            insertNew m p.1 p.2
          else m) m, ∃ q, e.2 = (databasePaths env q).2 := by
      intro es
      induction es with
      | nil => intro m hm; exact hm
      | cons x xs ih =>
        intro m hm
        rw [List.foldl_cons]
        refine ih _ ?_
        dsimp only
        split
        · intro e he
          unfold insertNew at he
          split at he
          · exact hm e he
          · rcases List.mem_append.1 he with he | he
            · exact hm e he
            · rw [List.mem_singleton.1 he]; exact ⟨x.1, rfl⟩
        · exact hm
    exact key entries [] (by intro e he; cases he)

/-- Every bits file of a loaded database can be read, whatever it contains, when it is absent or a regular file whose last
line is terminated, or which does not end at the end of a page. -/
theorem C72_files_load (disk : Path → Node) (env : Env) (hdisk : OnDisk disk env) (load : LoadOrder) (root : Path) (name : Bytes)
    (db : PartDatabase) (h : parseDatabase env load root name = .ok db)
    (hfiles : ∀ p, IsBitsFile p → disk p = .missing ∨ ∃ content, disk p = .regular content ∧
      (content = [] ∨ (∃ body, content = body ++ [0x0a]) ∨ content.length % 4096 ≠ 0)) : FilesLoad db.tiles := by
  obtain ⟨info, grid, paths, part, pins, _, _, hpaths, _, _, rfl⟩ := parseDatabase_iff.1 h
  have hread : ∀ {α : Type} (parse : Option UInt8 → Bytes → Outcome α), Lined parse → ∀ p, IsBitsFile p →
      (∃ s, parseFile env parse p = .ok s) ∨ parseFile env parse p = .err := by
    intro α parse hl p hp
    obtain ⟨h1, h2⟩ := C65_files disk env hdisk p parse hl
    rcases hfiles p hp with hm | ⟨content, hc, hend⟩
    · exact Or.inr (h1 hm)
    · obtain ⟨h3, h4⟩ := h2 content hc
      have hne : parseFile env parse p ≠ .ub := by
        intro hu
        obtain ⟨h5, init, s, ⟨ls, last, _, he, hne, hnl, _⟩, _⟩ := h3.1 hu
        rcases hend with rfl | ⟨body, rfl⟩ | h6
        · exact hne (List.append_eq_nil_iff.1 he.symm).2
        · rw [C65_terminated_safe disk env hdisk p parse hl body hc] at hu
          exact (lined_crash hl _).2.2 hu
        · exact h6 h5
      rw [h4 hne]
      exact lined_cases hl content
  have hopt : ∀ (q x : Path), IsBitsFile x → ∀ p, ifExists env x = some p → IsBitsFile p := by
    intro q x hx p hp
    unfold ifExists at hp
    split at hp
    · cases hp; exact hx
    · cases hp
  intro ty
  show ∃ o, tilesDatabase env paths ty = .ok o
  unfold tilesDatabase
  cases hl : paths.lookup ty with
  | none => exact ⟨_, rfl⟩
  | some p =>
    dsimp only
    obtain ⟨q, hq⟩ := paths_bits hpaths _ (mem_of_lookup hl)
    have hq : p = (databasePaths env q).2 := hq
    have hA : ∀ x, p.ppips = some x → IsBitsFile x := by
      intro x hx
      rw [hq] at hx
      exact hopt q _ ⟨_, _, Or.inr rfl⟩ x hx
    have hB : ∀ x, p.segbits = some x → IsBitsFile x := by
      intro x hx
      rw [hq] at hx
      exact hopt q _ ⟨q.dropLast, _, Or.inl (by rw [List.append_assoc])⟩ x hx
    have hC : ∀ x, p.blockRam = some x → IsBitsFile x := by
      intro x hx
      rw [hq] at hx
      exact hopt q _ ⟨q.dropLast, _, Or.inl (by rw [List.append_assoc])⟩ x hx
    have : (∃ s, parseTileType env p = .ok s) ∨ parseTileType env p = .err := by
      unfold parseTileType
      refine bind_cases ?_ fun pips => bind_cases ?_ fun clb => bind_cases ?_ fun ram => Or.inl ⟨_, rfl⟩
      · split
        · exact Or.inl ⟨_, rfl⟩
        · rename_i x hx; exact hread _ lined_pips x (hA x hx)
      · split
        · exact Or.inl ⟨_, rfl⟩
        · rename_i x hx; exact bind_cases (hread _ (lined_segbits env.junk) x (hB x hx)) fun m => Or.inl ⟨_, rfl⟩
      · split
        · exact Or.inl ⟨_, rfl⟩
        · rename_i x hx; exact bind_cases (hread _ (lined_segbits env.junk) x (hC x hx)) fun m => Or.inl ⟨_, rfl⟩
    rcases this with ⟨s, hs⟩ | hs
    · rw [hs]; exact ⟨_, rfl⟩
    · rw [hs]; exact ⟨_, rfl⟩

/-! ## Examples -/

/-- Enough for the bits of a database to lie inside the frames. -/
theorem bitsInside_of {tiles : Tiles} (h : ∀ tile t, (tile, t) ∈ tiles.grid → ∀ e ∈ t.bits, ∀ ty sb, tiles.bits ty = .ok (some sb) →
    ∀ m, (e.1, m) ∈ sb.segmentBits → ∀ kb ∈ m, ∀ s ∈ kb.2, bitPos e.2 s < 3232) : BitsInside tiles := by
  rintro tile feature addr bits ⟨t, ty, f, sb, hg, _, hb, ⟨_, rfl⟩ | ⟨_, _, rfl⟩⟩ c hc _
  · cases hc
  · obtain ⟨e, he, hc⟩ := List.mem_flatMap.1 hc
    obtain ⟨s, hs, rfl⟩ := List.mem_map.1 hc
    unfold listed at hs
    cases hm : sb.segmentBits.lookup e.1 with
    | none => rw [hm] at hs; cases hs
    | some m =>
      rw [hm, Option.bind_some] at hs
      cases hk : m.lookup (ty ++ 0x2e :: f, addr) with
      | none => rw [hk] at hs; cases hs
      | some ss =>
        rw [hk] at hs
        have := h tile t (mem_of_lookup hg) e he ty sb hb m (mem_of_lookup hm) _ (mem_of_lookup hk) s hs
        dsimp only
        omega

theorem ioTiles_usable : Usable ioTiles := by
  refine ⟨ioTiles_ok, ioTiles_pudc, fun ty => ⟨_, rfl⟩, ?_, ?_⟩
  · refine bitsInside_of ?_
    intro tile t ht e he ty sb hsb m hm kb hkb s hs
    have hsb' : sb = demoSeg ∨ sb = ioSeg := by
      have := Outcome.ok.inj hsb
      split at this
      · exact Or.inl (Option.some.inj this).symm
      · split at this
        · exact Or.inr (Option.some.inj this).symm
        · cases this
    have hoff : e.2.offset ≤ 2 ∧ 0 ≤ e.2.offset ∧ e.2.alias? = none := by
      simp only [ioTiles, List.mem_cons, List.not_mem_nil, or_false, Prod.mk.injEq] at ht
      rcases ht with ⟨_, rfl⟩ | ⟨_, rfl⟩ | ⟨_, rfl⟩ | ⟨_, rfl⟩ <;>
        (simp only [demoT, ioTile, List.mem_singleton] at he; subst he; decide)
    have hbit : s.wordBit ≤ 63 := by
      rcases hsb' with rfl | rfl
      · simp only [demoSeg, List.mem_singleton, Prod.mk.injEq] at hm
        obtain ⟨_, rfl⟩ := hm
        revert s; revert kb; decide
      · simp only [ioSeg, List.mem_singleton, Prod.mk.injEq] at hm
        obtain ⟨_, rfl⟩ := hm
        revert s; revert kb; decide
    unfold bitPos firstWord
    rw [hoff.2.2]
    simp only [Option.elim_none]
    omega
  · intro tile t h s hs
    have hm := mem_of_lookup h
    simp only [ioTiles, List.mem_cons, List.not_mem_nil, or_false, Prod.mk.injEq] at hm
    rcases hm with ⟨_, rfl⟩ | ⟨_, rfl⟩ | ⟨_, rfl⟩ | ⟨_, rfl⟩ <;>
      (revert s; decide)

/-- Texts whose lines the parser returns on are defined. -/
theorem textDefined_of {text : Bytes} (h : ∀ line ∈ getlines text, line.length < 2 ^ 28 ∧
    ∃ st, Fasm.parse true (fun _ => true) line = .ok st) : TextDefined text := by
  intro line hl
  obtain ⟨h1, h2⟩ := h line ((mem_getlines _ _).2 hl)
  refine ⟨h1, ?_⟩
  rintro body rfl
  have hnl : 0x0a ∉ body := by
    obtain ⟨pre, post, _, _, ⟨b, e, hn⟩ | ⟨_, _, hn⟩⟩ := hl
    · have := (List.append_inj' e rfl).1
      rw [this]; exact hn
    · exact absurd (by simp) hn
  refine (C72_defined body hnl ?_).1 h2
  rw [List.length_append] at h1
  exact Nat.lt_of_le_of_lt (Nat.le_add_right _ _) h1

/-- `T.F`, then `X`: an error, at the name without a dot. -/
theorem C72_error_example : TextDefined bytes!"T.F\nX\n" ∧
    assembleFrames sameOrder bytes!"T.F\nX\n" ⟨ioTiles, []⟩ [] = .err := by
  refine ⟨textDefined_of ?_, rfl⟩
  intro line hl
  have : getlines bytes!"T.F\nX\n" = [bytes!"T.F\n", bytes!"X\n"] := by decide
  rw [this, List.mem_cons, List.mem_singleton] at hl
  rcases hl with rfl | rfl
  · exact ⟨by decide, _, rfl⟩
  · exact ⟨by decide, _, rfl⟩

/-- `T.H`, which the database does not list, then `X`: the program stops at the first. -/
theorem C72_abort_example : TextDefined bytes!"T.H\nX\n" ∧
    assembleFrames sameOrder bytes!"T.H\nX\n" ⟨ioTiles, []⟩ [] = .abort := by
  refine ⟨textDefined_of ?_, rfl⟩
  intro line hl
  have : getlines bytes!"T.H\nX\n" = [bytes!"T.H\n", bytes!"X\n"] := by decide
  rw [this, List.mem_cons, List.mem_singleton] at hl
  rcases hl with rfl | rfl
  · exact ⟨by decide, _, rfl⟩
  · exact ⟨by decide, _, rfl⟩

/-- So the second alternative of `C72_error_iff` holds of the first text, and neither of the second. -/
example : ∃ pre line post F, Place bytes!"T.F\nX\n" pre line post ∧
    (∀ G, Written pre G → FeatureOk ioTiles G) ∧ Says line F ∧ 0x2e ∉ F.name := by
  rcases (C72_error_iff ioTiles_usable sameOrder sameOrder_permutes _ C72_error_example.1 _ Reachable.fresh).1 C72_error_example.2 with h | h
  · refine absurd ?_ h
    intro line hl
    have hl := (mem_getlines _ _).2 hl
    have : getlines bytes!"T.F\nX\n" = [bytes!"T.F\n", bytes!"X\n"] := by decide
    rw [this, List.mem_cons, List.mem_singleton] at hl
    rcases hl with rfl | rfl
    · exact ⟨_, rfl, by decide, by decide⟩
    · exact ⟨_, rfl, by decide, by decide⟩
  · exact h.2.2

example : ¬ Assembles ioTiles bytes!"T.H\nX\n" ∧ LinesOk bytes!"T.H\nX\n" := by
  have h := (C72_abort_iff ioTiles_usable sameOrder sameOrder_permutes _ C72_abort_example.1 _ Reachable.fresh).1 C72_abort_example.2
  exact ⟨h.1, h.2.1⟩

/-- `T.F=1'`, all that is before it accepted: undefined behaviour. -/
theorem C72_undefined_example : assembleFrames sameOrder bytes!"T.F\nT.F=1'\n" ⟨ioTiles, []⟩ [] = .ub :=
  rfl

/-- The same line after `T.F #abcd`, a line longer by more than two: an error. -/
theorem C72_undefined_example' : assembleFrames sameOrder
    (bytes!"T.F #abcd\n" ++ bytes!"T.F=1'\n") ⟨ioTiles, []⟩ [] = .err :=
  rfl

/-- The error case of `C72_undefined` is met. -/
example : StopsAfterTick bytes!"T.F=1'" ∧
    Overshadowed bytes!"T.F #abcd\n" bytes!"T.F=1'\n" := by
  refine ⟨⟨fun _ => [], bytes!"T.F", .absent, bytes!"1", ⟨fun _ => (by intro c h; cases h), ?_, trivial, ?_, ?_⟩, rfl, ?_⟩, ?_⟩
  · exact ⟨by simp, by intro c hc; revert c; decide⟩
  · unfold RangeText.Inverted; decide
  · intro c hc
    rw [List.mem_singleton.1 hc]
    exact Or.inr ⟨1, by decide, by decide⟩
  · decide
  · refine ⟨[], bytes!"T.F #abcd\n", [],
      ⟨rfl, Or.inl rfl, Or.inl ⟨bytes!"T.F #abcd", rfl, by decide⟩⟩, by decide, ?_⟩
    rintro k ⟨pre, post, h, _, ⟨body, rfl, _⟩ | ⟨_, hne, _⟩⟩
    · simp at h
    · simp only [List.nil_eq, List.append_eq_nil_iff] at h
      exact absurd h.1.2 hne

example : Undefined bytes!"T.F=1'" := by
  refine Classical.byContradiction fun h => ?_
  obtain ⟨st, hst⟩ := (C72_defined bytes!"T.F=1'" (by decide) (by decide)).2 h
  have : Fasm.parse true (fun _ => true) (bytes!"T.F=1'" ++ [0x0a]) = .oob := rfl
  rw [this] at hst
  cases hst

/-- A database on disk. -/
theorem fileTiles_usable : Usable fileTiles := by
  have hX : fileTiles.bits bytes!"X" = .ok (some ⟨[], [(.clbIoClk, [((bytes!"X.F", 0), [⟨3, 33, true⟩])])]⟩) := by decide +kernel
  have hnone : ∀ ty, ty ≠ bytes!"X" → fileTiles.bits ty = .ok none := by
    intro ty h
    show tilesDatabase fileEnv filePaths ty = _
    unfold tilesDatabase filePaths
    rw [List.lookup_cons, beq_false_of_ne h]
    rfl
  refine ⟨fileTiles_ok, fileTiles_pudc, ?_, ?_, ?_⟩
  · intro ty
    by_cases h : ty = bytes!"X"
    · rw [h]; exact ⟨_, hX⟩
    · exact ⟨_, hnone ty h⟩
  · refine bitsInside_of ?_
    intro tile t ht e he ty sb hsb m hm kb hkb s hs
    by_cases h : ty = bytes!"X"
    · rw [h, hX] at hsb
      cases hsb
      simp only [fileTiles, List.mem_singleton, Prod.mk.injEq] at ht
      obtain ⟨_, rfl⟩ := ht
      simp only [fileT, List.mem_singleton] at he
      subst he
      simp only [List.mem_singleton, Prod.mk.injEq] at hm
      obtain ⟨_, rfl⟩ := hm
      revert s; revert kb; decide
    · rw [hnone ty h] at hsb; cases hsb
  · intro tile t h s hs
    have hm := mem_of_lookup h
    simp only [fileTiles, List.mem_singleton, Prod.mk.injEq] at hm
    obtain ⟨_, rfl⟩ := hm
    cases hs

/-- The program on `T.F`, `X` with the database on disk: status 1, nothing printed, whatever the order of the maps. -/
theorem C72_program_example (load : LoadOrder) (hload : LoadOk load) (ord : HashOrder) (hord : Permutes ord) (out : Xc7.OStream)
    (h : Starts fileEnv load { fileInv with stdin := bytes!"T.F\nX\n" } ⟨fileTiles, []⟩ bytes!"T.F\nX\n") :
    ∃ fuel0, ∀ fuel ≥ fuel0, main fileEnv load ord { fileInv with stdin := bytes!"T.F\nX\n" } out fuel = some (.ok (1, out)) := by
  obtain ⟨fuel0, r, h1, _, h2, _⟩ := C72_total fileEnv load ord hord _ out hload _ _ h fileTiles_usable C72_error_example.1 smallDesc_dense.fits
  refine ⟨fuel0, fun fuel hf => ?_⟩
  rw [h1 fuel hf]
  refine congrArg some (h2.2 ?_)
  exact (C72_error_iff fileTiles_usable sameOrder sameOrder_permutes _ C72_error_example.1 _ Reachable.fresh).1 rfl

example : Starts fileEnv sameLoad { fileInv with stdin := bytes!"T.F\nX\n" } ⟨fileTiles, []⟩ bytes!"T.F\nX\n" :=
  ⟨by decide, by decide, Or.inr ⟨fun _ _ h => by simp [fileInv] at h, rfl⟩, bytes!"d", Or.inr ⟨rfl, rfl⟩, by decide, by decide,
    file_database⟩

/-- The files of the example as a disk, and the program's view of it. -/
def fileDisk : Path → Node := fun p => match fileEnv.read p with
  | none => .missing
  | some c => .regular c.1

def fileDiskEnv : Env :=
  { fileEnv with read := fun p => (fileEnv.read p).map fun c => (c.1, if c.1.length % 4096 = 0 then none else some 0) }

theorem fileDisk_onDisk : OnDisk fileDisk fileDiskEnv := by
  intro p
  unfold fileDisk fileDiskEnv
  dsimp only
  cases h : fileEnv.read p with
  | none =>
    refine ⟨fun _ => rfl, ?_⟩
    intro m hm
    cases hm
  | some c =>
    refine ⟨fun h => absurd h (by simp), ?_⟩
    intro m hm v hv
    obtain ⟨m', hm', hv'⟩ := C65_regular c.1
    rw [hm] at hm'
    cases hm'
    rw [hv] at hv'
    rw [Outcome.ok.inj hv']
    rfl

theorem fileDisk_database : ∃ db : PartDatabase, parseDatabase fileDiskEnv sameLoad [bytes!"d"] bytes!"p" = .ok db := by
  have h1 : parsePartInfo fileDiskEnv [bytes!"d"] bytes!"p" = .ok ⟨bytes!"d", bytes!"f", bytes!"k", bytes!"1"⟩ := by decide +kernel
  have h2 : indexTileTypes fileDiskEnv [bytes!"d"] = .ok filePaths := by decide +kernel
  have h3 : parseJsonFile fileDiskEnv parseTileGrid ([bytes!"d"] ++ [bytes!"f", kTilegrid]) = .ok [(bytes!"T", fileT)] := file_grid
  have h4 : parseJsonFile fileDiskEnv parsePart ([bytes!"d"] ++ [bytes!"p", kPartJson]) = .ok smallDesc := file_part
  have h5 : parseFile fileDiskEnv parsePackagePins ([bytes!"d"] ++ [bytes!"p", kPackagePins]) = .ok [] := rfl
  unfold parseDatabase
  rw [h1, Outcome.bind_ok]
  dsimp only
  rw [h3, Outcome.bind_ok, h2, Outcome.bind_ok, h4, Outcome.bind_ok, h5, Outcome.bind_ok]
  exact ⟨_, rfl⟩

example : ∃ db : PartDatabase, parseDatabase fileDiskEnv sameLoad [bytes!"d"] bytes!"p" = .ok db ∧ FilesLoad db.tiles := by
  obtain ⟨db, h⟩ := fileDisk_database
  refine ⟨db, h, C72_files_load fileDisk fileDiskEnv fileDisk_onDisk sameLoad _ _ db h ?_⟩
  intro p _
  unfold fileDisk
  cases h : fileEnv.read p with
  | none => exact Or.inl rfl
  | some c =>
    refine Or.inr ⟨c.1, rfl, ?_⟩
    unfold fileEnv at h
    dsimp only at h
    repeat' split at h
    all_goals first
      | (cases h; exact Or.inr (Or.inr (by decide)))
      | (cases h; exact Or.inl rfl)
      | cases h

end Verif.Props
